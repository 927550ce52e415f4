import Verif.Props.Offset
/-!
# C116: the robot stays close to a target that moves with constant speed
-/
namespace Verif.Props
open Verif

/-- How far the robot is off, as one number: a quadratic form that every round makes smaller. -/
noncomputable def Off.size (o : Off) : ℝ :=
  (119 / 100) * o.e * o.e + (37 / 500) * o.e * o.q + (83 / 2500) * o.e * o.w +
    (-443 / 250) * o.e * o.S + (103 / 50000) * o.e * o.d + (267 / 1000) * o.q * o.q + (-58 / 125) * o.q * o.w + (-473 / 50) * o.q * o.S + (9 / 5000) * o.q * o.d +
    (113 / 500) * o.w * o.w + (463 / 50) * o.w * o.S + (-71 / 50000) * o.w * o.d + (116) * o.S * o.S + (-917 / 5000) * o.S * o.d + (59 / 25000) * o.d * o.d

/-- A target that goes on with the same speed. -/
noncomputable def Change.steady (v : ℝ) : Change := ⟨v, 0, 0, 0⟩

theorem size_bounds (o : Off) : 0.98 * o.e ^ 2 + 0.00026 * o.q ^ 2 + 0.00013 * o.w ^ 2 + 0.17 * o.S ^ 2 + 0.000021 * o.d ^ 2 ≤ o.size := by
  have h : o.size - (0.98 * o.e ^ 2 + 0.00026 * o.q ^ 2 + 0.00013 * o.w ^ 2 + 0.17 * o.S ^ 2 + 0.000021 * o.d ^ 2) =
      (21 / 100) * ((1) * o.e + (37 / 210) * o.q + (83 / 1050) * o.w + (-443 / 105) * o.S + (103 / 21000) * o.d) ^ 2 +
      (17077 / 65625) * ((1) * o.q + (-246671 / 273232) * o.w + (-2401295 / 136616) * o.S + (15089 / 5464640) * o.d) ^ 2 +
      (851813367 / 68308000000) * ((1) * o.w + (38988244030 / 851813367) * o.S + (-65003371 / 5678755780) * o.d) ^ 2 +
      (4746316403879 / 851813367000) * ((1) * o.S + (-270169161633 / 22075890250600) * o.d) ^ 2 +
      (660417836936733 / 441517805012000000) * ((1) * o.d) ^ 2 := by
    unfold Off.size
    ring
  have : 0 ≤ o.size - (0.98 * o.e ^ 2 + 0.00026 * o.q ^ 2 + 0.00013 * o.w ^ 2 + 0.17 * o.S ^ 2 + 0.000021 * o.d ^ 2) := by rw [h]; positivity
  linarith

theorem size_nonneg (o : Off) : 0 ≤ o.size := le_trans (by positivity) (size_bounds o)

/-- A round of a steady target makes it smaller. -/
theorem size_steady (o : Off) (v : ℝ) : (o.next true (.steady v)).size ≤ 0.9982 ^ 2 * o.size := by
  have h : 0.9982 ^ 2 * o.size - (o.next true (.steady v)).size =
      (2145089260654226921713131303898231261 / 30983139062500000000000000000000000000000) * ((1) * o.e + (268080739992023437929118672959218475 / 2145089260654226921713131303898231261) * o.q + (-52647444742633884733083737323642445377 / 306441322950603845959018757699747323000) * o.w + (-1154036262501302399186026713574090525 / 2145089260654226921713131303898231261) * o.S + (144368055993684593605589124245497117639 / 2145089260654226921713131303898231261000) * o.d) ^ 2 +
      (949142393461359131646669237572544249418747 / 53627231516355673042828282597455781525000000000) * ((1) * o.q + (-252705512986233711748712983577010422425172667 / 949142393461359131646669237572544249418747000) * o.w + (8434874407932061204044734227192971360406470 / 949142393461359131646669237572544249418747) * o.S + (207077187176109034992253514127199789127533317 / 949142393461359131646669237572544249418747000) * o.d) ^ 2 +
      (282917222434833116509783460620817535537674652623781781 / 23728559836533978291166730939313606235468675000000000000000) * ((1) * o.w + (-3434198044522176219493069274188373994437695825666258000 / 282917222434833116509783460620817535537674652623781781) * o.S + (21897132691933099987388040056480007175493999775339359 / 282917222434833116509783460620817535537674652623781781) * o.d) ^ 2 +
      (20385413246973970609209947721735528919246166536322815113391946527 / 28291722243483311650978346062081753553767465262378178100000000000) * ((1) * o.S + (120820875258608815022395738166195191479945173497789636208279251 / 509635331174349265230248693043388222981154163408070377834798663175) * o.d) ^ 2 +
      (851249817575629580599609484689121925988761271649539603299548568800550976147 / 1019270662348698530460497386086776445962308326816140755669597326350000000000000) * ((1) * o.d) ^ 2 := by
    simp only [Off.size, Off.next, Off.e1, Off.q1, Off.gain, Off.volt, Off.more, Off.accel, Off.want, Off.lag, Change.steady, if_true]
    ring
  have : 0 ≤ 0.9982 ^ 2 * o.size - (o.next true (.steady v)).size := by rw [h]; positivity
  linarith

/-- What a change of the target adds. -/
noncomputable def Change.push (c : Change) : Off where
  e := 0.001 * c.dv + c.far
  q := c.dv - 0.001 * (c.a + 4 * c.dv + 40 * (0.001 * c.dv + c.far))
  w := c.dv - (0.001 / 0.4453) * ((c.a + 4 * c.dv + 40 * (0.001 * c.dv + c.far)) * 0.4443 +
    (1 + 1.865 * 4.8497) * (0.001 * (c.a + 4 * c.dv + 40 * (0.001 * c.dv + c.far))))
  S := 0.001 * (0.001 * (c.a + 4 * c.dv + 40 * (0.001 * c.dv + c.far)))
  d := - (1 - 0.76094276) * ((0.001 / 0.4453) * ((c.a + 4 * c.dv + 40 * (0.001 * c.dv + c.far)) * 0.4443 +
    (1 + 1.865 * 4.8497) * (0.001 * (c.a + 4 * c.dv + 40 * (0.001 * c.dv + c.far))))) / 2

theorem push_size (c : Change) : c.push.size ≤ 1.3 * c.far ^ 2 + 0.2 * c.dv ^ 2 + 0.000001 * c.a ^ 2 := by
  have h : 1.3 * c.far ^ 2 + 0.2 * c.dv ^ 2 + 0.000001 * c.a ^ 2 - c.push.size =
      (3542902695288434851921713131303898231261 / 30983139062500000000000000000000000000000) * ((1) * c.far + (-551607859755189521251734155829435426214213 / 1180967565096144950640571043767966077087000) * c.dv + (66657964224367799488085068803898231261 / 141716107811537394076868525252155929250440) * c.a) ^ 2 +
      (2301766959379033657084488991605926659682342147 / 15746234201281932675207613916906214361160000000) * ((1) * c.dv + (10215097614441029548646948368376313253323427 / 27621203512548403885013867899271119916188105764) * c.a) ^ 2 +
      (340893607703865551505624703407109344254782666547 / 368282713500645385133518238656948265549174743520000000) * ((1) * c.a) ^ 2 := by
    simp only [Off.size, Change.push]
    ring
  have : 0 ≤ 1.3 * c.far ^ 2 + 0.2 * c.dv ^ 2 + 0.000001 * c.a ^ 2 - c.push.size := by rw [h]; positivity
  linarith

/-- A round of any target. -/
theorem size_next (o : Off) (c : Change) {s : ℝ} (hs : 0 < s) :
    (o.next true c).size ≤ (1 + s) * (0.9982 ^ 2 * o.size) + (1 + 1 / s) * (1.3 * c.far ^ 2 + 0.2 * c.dv ^ 2 + 0.000001 * c.a ^ 2) := by
  set a := o.next true (.steady c.v) with ha
  set b := c.push with hb
  have e : o.next true c = ⟨a.e + b.e, a.q + b.q, a.w + b.w, a.S + b.S, a.d + b.d⟩ := by
    simp only [ha, hb, Off.next, Off.e1, Off.q1, Off.gain, Off.volt, Off.more, Off.accel, Off.want, Off.lag, Change.steady, Change.push, if_true, Off.mk.injEq]
    refine ⟨?_, ?_, ?_, ?_, ?_⟩ <;> ring
  have h0 := size_nonneg ⟨s * a.e - b.e, s * a.q - b.q, s * a.w - b.w, s * a.S - b.S, s * a.d - b.d⟩
  have h1 : (o.next true c).size = (1 + s) * a.size + (1 + 1 / s) * b.size -
      1 / s * (⟨s * a.e - b.e, s * a.q - b.q, s * a.w - b.w, s * a.S - b.S, s * a.d - b.d⟩ : Off).size := by
    rw [e]
    unfold Off.size
    field_simp
    ring
  have h2 : 0 ≤ 1 / s * (⟨s * a.e - b.e, s * a.q - b.q, s * a.w - b.w, s * a.S - b.S, s * a.d - b.d⟩ : Off).size := mul_nonneg (by positivity) h0
  have h3 : (1 + s) * a.size ≤ (1 + s) * (0.9982 ^ 2 * o.size) := mul_le_mul_of_nonneg_left (size_steady o c.v) (by positivity)
  have h4 : (1 + 1 / s) * b.size ≤ (1 + 1 / s) * (1.3 * c.far ^ 2 + 0.2 * c.dv ^ 2 + 0.000001 * c.a ^ 2) :=
    mul_le_mul_of_nonneg_left (push_size c) (by positivity)
  linarith

theorem size_abs {o : Off} (h : o.size ≤ 9e-7) : |o.e| ≤ 0.00096 ∧ |o.q| ≤ 0.059 ∧ |o.w| ≤ 0.0833 ∧ |o.S| ≤ 0.0024 ∧ |o.d| ≤ 0.208 := by
  have h1 := size_bounds o
  have h2 := sq_nonneg o.e
  have h3 := sq_nonneg o.q
  have h4 := sq_nonneg o.w
  have h5 := sq_nonneg o.S
  have h6 := sq_nonneg o.d
  refine ⟨?_, ?_, ?_, ?_, ?_⟩
  all_goals refine abs_le_of_sq_le_sq (by norm_num; linarith) (by norm_num)

/-- As long as it is small, the robot keeps up, the tracker goes by its own state, and the voltage is not too much. -/
theorem close (o : Off) (c : Change) (h : o.size ≤ 9e-7) (h' : (o.next true c).size ≤ 9e-7) (hv : 0.29 ≤ c.v) (hv' : c.v ≤ 0.31)
    (ha : |c.a| ≤ 0.002) (hd : |c.dv| ≤ 0.001) : 0.2 < |c.v| ∧ 0.2 < |c.v - o.q1 c| ∧ |o.volt true c| ≤ 3.7 ∧ |o.e1 c| ≤ 0.001 := by
  obtain ⟨-, -, h1, h2, h3⟩ := size_abs h
  obtain ⟨h4, h5, -, -, -⟩ := size_abs h'
  have h4 : |o.e1 c| ≤ 0.00096 := h4
  have h5 : |o.q1 c| ≤ 0.059 := h5
  rw [abs_le] at h1 h2 h3 h4 h5 ha hd
  obtain ⟨h1, i1⟩ := h1
  obtain ⟨h2, i2⟩ := h2
  obtain ⟨h3, i3⟩ := h3
  obtain ⟨h4, i4⟩ := h4
  obtain ⟨h5, i5⟩ := h5
  obtain ⟨ha, ia⟩ := ha
  obtain ⟨hd, id⟩ := hd
  refine ⟨by rw [abs_of_nonneg (by linarith)]; linarith, by rw [abs_of_nonneg (by linarith)]; linarith, ?_, abs_le.2 ⟨by linarith, by linarith⟩⟩
  simp only [Off.volt, Off.accel, Off.more, Off.want, Off.lag, if_true]
  rw [abs_le]
  norm_num at h1 i1 h2 i2 h3 i3 h4 i4 h5 i5 ha ia hd id hv hv' ⊢
  constructor <;> linarith

end Verif.Props
