import Verif.Model.OldSearch
import Verif.Model.OldPlan
import Verif.Model.OldRobot
/-!
# The configuration of the former core crate and its builder

`obsolete/mousecore/src/defaults/config.rs`, `utils/builder.rs`. All fields are treated alike by macros, so a builder is a function from fields. Units are SI units, numbers are real numbers.
Not modelled: serialization, and the distribution of the fields to the parts (`config.rs:117-229`), which is modelled where the parts are.
-/
namespace Verif.Old.Config
open Verif Verif.Old

/-- `config.rs:35-75` the fields of `Config`. -/
inductive Field where
  | squareWidth | frontOffset | start | returnGoal | goal | searchInitialRoute | searchFinalRoute | period | translationalParameters
  | rotationalParameters | estimatorCutOffFrequency | patternConverter | wallWidth | ignoreRadiusFromPillar | ignoreLengthFromWall | trackerGain
  | trackerDgain | validControlLowerBound | lowZeta | lowB | runSlalomVelocity | maxVelocity | maxAcceleration | maxJerk | searchVelocity
  | spinAngularVelocity | spinAngularAcceleration | spinAngularJerk | slipAngleConst | estimatorApproximationThreshold | failSafeVoltageThreshold
  | estimatorStandardDeviationDelta
  deriving DecidableEq, Repr

/-- Their types. -/
def Field.type : Field → Type
  | .start => Run.Node
  | .returnGoal => Nat × Nat
  | .goal => Nat × Nat
  | .searchInitialRoute => SearchKind
  | .searchFinalRoute => SearchKind
  | .translationalParameters => Control.Params
  | .rotationalParameters => Control.Params
  | .patternConverter => Pattern → R Nat
  | _ => ℝ

/-- Their names, as in the errors. -/
def Field.name : Field → String
  | .squareWidth => "square_width"
  | .frontOffset => "front_offset"
  | .start => "start"
  | .returnGoal => "return_goal"
  | .goal => "goal"
  | .searchInitialRoute => "search_initial_route"
  | .searchFinalRoute => "search_final_route"
  | .period => "period"
  | .translationalParameters => "translational_parameters"
  | .rotationalParameters => "rotational_parameters"
  | .estimatorCutOffFrequency => "estimator_cut_off_frequency"
  | .patternConverter => "pattern_converter"
  | .wallWidth => "wall_width"
  | .ignoreRadiusFromPillar => "ignore_radius_from_pillar"
  | .ignoreLengthFromWall => "ignore_length_from_wall"
  | .trackerGain => "tracker_gain"
  | .trackerDgain => "tracker_dgain"
  | .validControlLowerBound => "valid_control_lower_bound"
  | .lowZeta => "low_zeta"
  | .lowB => "low_b"
  | .runSlalomVelocity => "run_slalom_velocity"
  | .maxVelocity => "max_velocity"
  | .maxAcceleration => "max_acceleration"
  | .maxJerk => "max_jerk"
  | .searchVelocity => "search_velocity"
  | .spinAngularVelocity => "spin_angular_velocity"
  | .spinAngularAcceleration => "spin_angular_acceleration"
  | .spinAngularJerk => "spin_angular_jerk"
  | .slipAngleConst => "slip_angle_const"
  | .estimatorApproximationThreshold => "estimator_approximation_threshold"
  | .failSafeVoltageThreshold => "fail_safe_voltage_threshold"
  | .estimatorStandardDeviationDelta => "estimator_standard_deviation_delta"

/-- `config.rs:300-333` `ConfigBuilder`. -/
abbrev Builder : Type := ∀ f : Field, Option f.type

/-- `config.rs:530-565` `new`. -/
def Builder.new : Builder := fun _ => none

/-- `config.rs:342-527` the setters, each by `utils/macros.rs:69-92` `impl_setter`. -/
def Builder.set (b : Builder) (f : Field) (v : f.type) : Builder := fun g => if h : g = f then some (h ▸ v) else b g

/-- `Option::take` of a field. -/
def Builder.clear (b : Builder) (f : Field) : Builder := fun g => if g = f then none else b g

/-- How `build` gets a field: with `get!`, with `unwrap_or` (a copy is made), or with `take().unwrap_or_default()`. -/
inductive How : Type → Type 1 where
  | get {α : Type} : How α
  | unwrapOr {α : Type} (default : α) : How α
  | takeOr {α : Type} (default : α) : How α

/-- `config.rs:581-622` each field with the way it is got. -/
noncomputable def Field.how : (f : Field) → How f.type
  | .squareWidth => .unwrapOr (0.09 : ℝ)
  | .frontOffset => .unwrapOr (0 : ℝ)
  | .start => .get
  | .returnGoal => .get
  | .goal => .get
  | .searchInitialRoute => .get
  | .searchFinalRoute => .get
  | .period => .get
  | .translationalParameters => .get
  | .rotationalParameters => .get
  | .estimatorCutOffFrequency => .get
  | .patternConverter => .takeOr (defaultTable : Pattern → R Nat)
  | .wallWidth => .unwrapOr (0.006 : ℝ)
  | .ignoreRadiusFromPillar => .unwrapOr (0.01 : ℝ)
  | .ignoreLengthFromWall => .unwrapOr (0.008 : ℝ)
  | .trackerGain => .get
  | .trackerDgain => .get
  | .validControlLowerBound => .get
  | .lowZeta => .get
  | .lowB => .get
  | .runSlalomVelocity => .get
  | .maxVelocity => .get
  | .maxAcceleration => .get
  | .maxJerk => .get
  | .searchVelocity => .get
  | .spinAngularVelocity => .get
  | .spinAngularAcceleration => .get
  | .spinAngularJerk => .get
  | .slipAngleConst => .get
  | .estimatorApproximationThreshold => .unwrapOr Robot.DEFAULT_APPROX
  | .failSafeVoltageThreshold => .get
  | .estimatorStandardDeviationDelta => .unwrapOr (0 : ℝ)

/-- One field of `build`: `config.rs:571-575` `get!`, `utils/builder.rs:16-21` `ok_or`. -/
noncomputable def Builder.getField (b : Builder) (f : Field) : Except String f.type × Builder :=
  match f.how with
  | .get =>
    match b f with
    | none => (.error f.name, b.clear f)
    | some v => (.ok v, b.clear f)
  | .unwrapOr d => (.ok ((b f).getD d), b)
  | .takeOr d => (.ok ((b f).getD d), b.clear f)

/-- The fields in the order in which `build` gets them, `config.rs:581-622`. -/
def order : List Field :=
  [.squareWidth, .frontOffset, .start, .returnGoal, .goal, .searchInitialRoute, .searchFinalRoute, .period, .translationalParameters,
   .rotationalParameters, .estimatorCutOffFrequency, .patternConverter, .wallWidth, .ignoreRadiusFromPillar, .ignoreLengthFromWall, .trackerGain,
   .trackerDgain, .validControlLowerBound, .lowZeta, .lowB, .runSlalomVelocity, .maxVelocity, .maxAcceleration, .maxJerk, .searchVelocity,
   .spinAngularVelocity, .spinAngularAcceleration, .spinAngularJerk, .slipAngleConst, .estimatorApproximationThreshold, .failSafeVoltageThreshold,
   .estimatorStandardDeviationDelta]

/-- The fields of the list, one after the other; an error ends it. -/
noncomputable def Builder.getAll : (l : List Field) → Builder → Except String (∀ f ∈ l, f.type) × Builder
  | [], b => (.ok (fun _ h => nomatch h), b)
  | g :: l, b =>
    match b.getField g with
    | (.error e, b) => (.error e, b)
    | (.ok v, b) =>
      match Builder.getAll l b with
      | (.error e, b) => (.error e, b)
      | (.ok c, b) => (.ok (fun f hf => if h : f = g then h ▸ v else c f ((List.mem_cons.1 hf).resolve_left h)), b)

theorem mem_order (f : Field) : f ∈ order := by cases f <;> decide

/-- `config.rs:570-624` `build`: the configuration or the name of a missing field, and what is left of the builder. -/
noncomputable def Builder.build (b : Builder) : Except String (∀ f : Field, f.type) × Builder :=
  match Builder.getAll order b with
  | (.error e, b) => (.error e, b)
  | (.ok c, b) => (.ok fun f => c f (mem_order f), b)

end Verif.Old.Config
