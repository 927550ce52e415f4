import Verif.Model.Single
import Verif.Model.Estimate
/-!
# Specification of the control loop in floating point arithmetic
-/
namespace Verif.Spec
open Verif Verif.Single

/-- A finite number of at most `2^k`. -/
def Mag (k : ℤ) (x : F) : Prop := ∃ a : ℝ, x = .fin a ∧ |a| ≤ 2 ^ k

/-- A library whose functions are roughly right: sines and cosines of numbers are numbers of at most 2, the cosine of small angles
is not small, the root of a number that is not negative is a number that is not much larger. -/
structure Fair (L : Lib) : Prop where
  sin : ∀ r, Mag 1 (L.sin (.fin r))
  cos : ∀ r, Mag 1 (L.cos (.fin r))
  small : ∀ r, |r| ≤ 5 / 4 → ∃ c, L.cos (.fin r) = .fin c ∧ 1 / 4 ≤ c
  sqrt : ∀ r, 0 ≤ r → ∃ s, L.sqrt (.fin r) = .fin s ∧ |s| ≤ 2 * (1 + r)
  pi : 3 ≤ L.pi ∧ L.pi ≤ 4

/-- What sensors can say: wheels no faster than `W`, an acceleration that changes the speed by at most `w` within a period `p`, a
rotation no faster than `Ω`. -/
structure Plausible (p W w Ω : ℝ) (s : Sensor) : Prop where
  left : ∃ a : ℝ, s.left = .fin a ∧ |a| ≤ W * p
  right : ∃ a : ℝ, s.right = .fin a ∧ |a| ≤ W * p
  acc : ∃ a : ℝ, s.acc = .fin a ∧ |a| * p ≤ w
  omega : ∃ a : ℝ, s.omega = .fin a ∧ |a| ≤ Ω

/-- Settings of the estimator that suit such sensors: no speed beyond `V` is estimated, and at speed `V` and rotation `Ω` the
acceleration to the side is at most the constant of the slip angle. -/
structure Suits (p W w Ω V : ℝ) (e : Estimator) : Prop where
  low : 1 / 2 ^ 12 ≤ p
  high : p ≤ 1 / 2 ^ 5
  wheels : 0 ≤ W ∧ W ≤ 2 ^ 5
  change : 0 ≤ w ∧ w ≤ 2 ^ 5
  speed : 1 ≤ V ∧ V ≤ 2 ^ 6
  turn : 0 ≤ Ω ∧ Ω ≤ 2 ^ 10
  period : e.period = .fin p
  alpha : ∃ α : ℝ, e.alpha = .fin α ∧ 0 ≤ α ∧ α ≤ 1 ∧ α * (V + w) + (1 - α) * W ≤ (1 - 1 / 2 ^ 10) * V
  slipConst : ∃ c : ℝ, e.slipConst = .fin c ∧ V ≤ c ∧ Ω * V ≤ c
  approxTh : ∃ t : ℝ, e.approxTh = .fin t ∧ 1 / 2 ^ 4 ≤ t

/-- Targets within a kilometre, 64 m/s, and so on. -/
structure Sane (t : Target) : Prop where
  x : Mag 10 t.x.x ∧ Mag 6 t.x.v ∧ Mag 10 t.x.a ∧ Mag 16 t.x.j
  y : Mag 10 t.y.x ∧ Mag 6 t.y.v ∧ Mag 10 t.y.a ∧ Mag 16 t.y.j
  theta : Mag 10 t.theta.x ∧ Mag 10 t.theta.v ∧ Mag 16 t.theta.a

/-- Settings of a controller of moderate size. -/
structure Moderate (q : Params) : Prop where
  kp : Mag 8 q.kp
  ki : Mag 8 q.ki
  kd : Mag 2 q.kd
  modelT1 : Mag 0 q.modelT1
  modelK : ∃ k : ℝ, q.modelK = .fin k ∧ 1 / 4 ≤ |k|

/-- A robot as it is built, anywhere within a kilometre, with moderate settings. -/
structure Assembled (p W w Ω V : ℝ) (r : Robot) : Prop where
  estimator : Suits p W w Ω V r.estimator
  fresh : r.estimator.slip = .fin 0 ∧ r.estimator.vel = .fin 0
  place : Mag 10 r.state.x.x ∧ Mag 10 r.state.y.x ∧ Mag 10 r.state.theta.x ∧ Mag 10 r.state.theta.v
  navigation : Mag 8 r.navigation.gain ∧ Mag 8 r.navigation.dgain
  tracker : r.tracker.xi = .fin 0 ∧ r.tracker.period = .fin p
  threshold : ∃ t : ℝ, r.tracker.xiThreshold = .fin t ∧ 1 / 2 ^ 4 ≤ t
  zeta : Mag 4 r.tracker.zeta
  b : ∃ b : ℝ, r.tracker.b = .fin b ∧ 0 ≤ b ∧ b ≤ 2 ^ 10
  trans : Moderate r.controller.trans
  rot : Moderate r.controller.rot
  controller : r.controller.transSum = .fin 0 ∧ r.controller.rotSum = .fin 0 ∧ r.controller.period = .fin p

/-- Round after round: the robot at the end and the voltages of all roundsOf. -/
noncomputable def roundsOf (A : Arith) (L : Lib) : Robot → List (Sensor × Target) → Robot × List MotorOutput
  | r, [] => (r, [])
  | r, (s, t) :: l =>
    let (r', o) := r.round A L s t
    let (r'', os) := roundsOf A L r' l
    (r'', o :: os)

/-! ## Real numbers as floating point numbers -/

/-- The functions of `T` as a library. -/
noncomputable def libOf (T : Control.Trig) (pi : ℝ) : Lib where
  sin | .fin r => .fin (T.sin r) | _ => .nan
  cos | .fin r => .fin (T.cos r) | _ => .nan
  sqrt | .fin r => .fin (Real.sqrt r) | _ => .nan
  pi := pi

def axisOf (a : Control.Axis) : Single.Axis := ⟨.fin a.x, .fin a.v, .fin a.a, .fin a.j⟩
def targetOf (t : Control.Target) : Single.Target := ⟨axisOf t.x, axisOf t.y, axisOf t.theta⟩
def axisStateOf (a : Control.AxisState) : Single.AxisState := ⟨.fin a.x, .fin a.v, .fin a.a⟩
def stateOf (s : Control.State) : Single.State := ⟨axisStateOf s.x, axisStateOf s.y, axisStateOf s.theta⟩
def sensorOf (s : Estimate.Sensor) : Single.Sensor := ⟨.fin s.left, .fin s.right, .fin s.acc, .fin s.omega⟩
def estimatorOf (e : Estimate.Estimator) : Single.Estimator :=
  ⟨.fin e.period, .fin e.alpha, .fin e.slipConst, .fin e.approxTh, .fin e.slip, .fin e.vel⟩
def navigationOf (n : Control.Navigation) : Single.Navigation := ⟨.fin n.gain, .fin n.dgain⟩
def inputOf (i : Control.TrackingInput) : Single.Input := ⟨.fin i.ux, .fin i.uy, .fin i.dux, .fin i.duy⟩
def trackerOf (k : Control.Tracker) : Single.Tracker := ⟨.fin k.xi, .fin k.period, .fin k.xiThreshold, .fin k.zeta, .fin k.b⟩
def referenceOf (c : Control.ControlTarget) : Single.ControlTarget := ⟨.fin c.v, .fin c.a, .fin c.omega, .fin c.alpha⟩
def paramsOf (q : Control.Params) : Single.Params := ⟨.fin q.kp, .fin q.ki, .fin q.kd, .fin q.modelK, .fin q.modelT1⟩
def controllerOf (c : Control.Controller) : Single.Controller :=
  ⟨paramsOf c.trans, paramsOf c.rot, .fin c.transSum, .fin c.rotSum, .fin c.period⟩
def motorOf (o : Control.MotorOutput) : Single.MotorOutput := ⟨.fin o.left, .fin o.right⟩

end Verif.Spec
