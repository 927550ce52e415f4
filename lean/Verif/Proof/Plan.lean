import Verif.Proof.Straight
/-!
# Lemmas about whole straight trajectories
-/
namespace Verif.StraightP
open Verif Verif.Control Verif.Straight Verif.Spec

variable {g : Gen} {vs ve : ℝ}

/-! ## Velocities -/

theorem reach_up (h : Request g vs ve) (hlt : vs < ve) {d : ℝ} (hd : 0 ≤ d) :
    vs ≤ g.reachable vs ve d ∧ g.reachable vs ve d + resolution (g.vMax - vs) ≤ g.vMax ∧
    rampDist g vs (g.reachable vs ve d) ≤ d ∧
    (d ≤ rampDist g vs (g.reachable vs ve d + resolution (g.vMax - vs)) ∨
      g.reachable vs ve d + resolution (g.vMax - vs) = g.vMax) := by
  unfold Gen.reachable
  rw [if_pos hlt]
  obtain ⟨h1, h2, h3, h4, h5⟩ := bisect_spec (fun mid => g.accDist vs mid < d) LOOP_COUNT vs g.vMax h.start1
  generalize bisect (fun mid => g.accDist vs mid < d) LOOP_COUNT vs g.vMax = r at *
  have e : r.1 + resolution (g.vMax - vs) = r.2 := by
    unfold resolution; unfold LOOP_COUNT at h3; linarith
  refine ⟨h1, by rw [e]; exact h2, ?_, ?_⟩
  · rcases h4 with h4 | h4
    · rw [h4, rampDist_self h.a h.j]; exact hd
    · rw [← accDist_eq]; exact h4.le
  · rw [e]
    rcases h5 with h5 | h5
    · exact .inr h5
    · rw [← accDist_eq]; exact .inl (not_lt.1 h5)

theorem reach_down (h : Request g vs ve) (hle : ve ≤ vs) {d : ℝ} :
    0 ≤ g.reachable vs ve d ∧ g.reachable vs ve d + resolution vs ≤ vs ∧
    (g.reachable vs ve d = 0 ∨ d ≤ rampDist g vs (g.reachable vs ve d)) ∧
    (rampDist g vs (g.reachable vs ve d + resolution vs) < d ∨ g.reachable vs ve d + resolution vs = vs) := by
  unfold Gen.reachable
  rw [if_neg (not_lt.2 hle)]
  obtain ⟨h1, h2, h3, h4, h5⟩ := bisect_spec (fun mid => ¬ g.accDist vs mid < d) LOOP_COUNT 0 vs h.start0
  generalize bisect (fun mid => ¬ g.accDist vs mid < d) LOOP_COUNT 0 vs = r at *
  have e : r.1 + resolution vs = r.2 := by
    unfold resolution; unfold LOOP_COUNT at h3; linarith
  refine ⟨h1, by rw [e]; exact h2, ?_, ?_⟩
  · rcases h4 with h4 | h4
    · exact .inl h4
    · rw [← accDist_eq]; exact .inr (not_lt.1 h4)
  · rw [e]
    rcases h5 with h5 | h5
    · exact .inr h5
    · rw [← accDist_eq]; exact .inl (not_not.1 h5)

theorem resolution_nonneg {w : ℝ} (h : 0 ≤ w) : 0 ≤ resolution w := div_nonneg h (by positivity)

theorem aim_up (h : Request g vs ve) (hlt : vs < ve) {d : ℝ} (hd : 0 ≤ d) :
    vs ≤ g.aim vs ve d ∧ g.aim vs ve d ≤ ve ∧ rampDist g vs (g.aim vs ve d) ≤ d ∧
    (g.aim vs ve d = ve ∨ d ≤ rampDist g vs (g.aim vs ve d + resolution (g.vMax - vs)) ∨
      g.aim vs ve d + resolution (g.vMax - vs) = g.vMax) := by
  obtain ⟨h1, h2, h3, h4⟩ := reach_up h hlt hd
  unfold Gen.aim
  rw [if_pos hlt]
  split
  · rename_i hr
    exact ⟨h1, hr.le, h3, .inr h4⟩
  · rename_i hr
    push Not at hr
    exact ⟨hlt.le, le_rfl, (rampDist_mono h.a h.j h.start0 hlt.le hr).trans h3, .inl rfl⟩

theorem aim_down (h : Request g vs ve) (hle : ve ≤ vs) {d : ℝ} :
    ve ≤ g.aim vs ve d ∧ g.aim vs ve d ≤ vs ∧
    (g.aim vs ve d = ve ∨ (d ≤ rampDist g vs (g.aim vs ve d) ∧
      (rampDist g vs (g.aim vs ve d + resolution vs) < d ∨ g.aim vs ve d + resolution vs = vs))) := by
  obtain ⟨h1, h2, h3, h4⟩ := reach_down h hle (d := d)
  have h0 := resolution_nonneg h.start0
  unfold Gen.aim
  rw [if_neg (not_lt.2 hle)]
  split
  · rename_i hr
    refine ⟨hr.le, by linarith, .inr ⟨?_, h4⟩⟩
    rcases h3 with h3 | h3
    · rw [h3] at hr; have := h.end0; linarith
    · exact h3
  · exact ⟨le_rfl, hle, .inl rfl⟩

theorem aim_bounds (h : Request g vs ve) {d : ℝ} (hd : 0 ≤ d) : 0 ≤ g.aim vs ve d ∧ g.aim vs ve d ≤ g.vMax := by
  rcases lt_or_ge vs ve with hlt | hle
  · obtain ⟨h1, h2, -⟩ := aim_up h hlt hd
    exact ⟨h.start0.trans h1, h2.trans h.end1⟩
  · obtain ⟨h1, h2, -⟩ := aim_down h hle (d := d)
    exact ⟨h.end0.trans h1, h2.trans h.start1⟩

theorem peak_bounds {v : ℝ} (hs : vs ≤ g.vMax) (hv : v ≤ g.vMax) (d : ℝ) :
    vs ≤ g.peak vs v d ∧ v ≤ g.peak vs v d ∧ g.peak vs v d ≤ g.vMax ∧
    (g.peak vs v d = max vs v ∨ rampDist g vs (g.peak vs v d) + rampDist g (g.peak vs v d) v ≤ d) := by
  unfold Gen.peak
  have e : (if vs < v then v else vs) = max vs v := by
    split
    · rename_i h; exact (max_eq_right h.le).symm
    · rename_i h; exact (max_eq_left (not_lt.1 h)).symm
  rw [e]
  have hle := max_le hs hv
  obtain ⟨h1, h2, h3, h4, -⟩ := bisect_spec (fun mid => g.accDist vs mid + g.accDist mid v ≤ d) LOOP_COUNT (max vs v) g.vMax hle
  refine ⟨(le_max_left _ _).trans h1, (le_max_right _ _).trans h1, bisect_le _ _ hle, ?_⟩
  rw [accDist_eq, accDist_eq] at h4
  exact h4

/-! ## The calculator -/

/-- The terminal and the largest velocity, the distance left for constant speed and the three durations. -/
structure Plan (g : Gen) (vs ve d v p rest tA tC tD : ℝ) : Prop where
  req : Request g vs ve
  d0 : 0 ≤ d
  hv : v = g.aim vs ve d
  hp : p = g.peak vs v d
  hrest : rest = d - rampDist g vs p - rampDist g p v
  htA : tA = rampTime g.aMax g.jMax |p - vs|
  htC : tC = max 0 (rest / p)
  htD : tD = rampTime g.aMax g.jMax |v - p|
  v0 : 0 ≤ v
  vsp : vs ≤ p
  vp : v ≤ p
  pm : p ≤ g.vMax

theorem plan (h : Request g vs ve) (dist : ℝ) : ∃ v p rest tA tC tD, Plan g vs ve |dist| v p rest tA tC tD := by
  have hd := abs_nonneg dist
  obtain ⟨h1, h2⟩ := aim_bounds h hd
  obtain ⟨h3, h4, h5, -⟩ := peak_bounds h.start1 h2 |dist|
  exact ⟨_, _, _, _, _, _, h, hd, rfl, rfl, rfl, rfl, rfl, rfl, h1, h3, h4, h5⟩

variable {d v p rest tA tC tD : ℝ}

theorem sign_eq (dist : ℝ) : (if dist < 0 then (-dist, -1) else (dist, 1) : ℝ × ℝ) = (|dist|, direction dist) := by
  unfold direction
  split
  · rename_i h; rw [abs_of_neg h]
  · rename_i h; rw [abs_of_nonneg (not_lt.1 h)]

theorem generate_eq {dist : ℝ} (P : Plan g vs ve |dist| v p rest tA tC tD) (xs : ℝ) :
    g.generate xs dist vs ve =
      let (const, dt2) := constant (xs + rampDist g vs p) rest p
      let t2 := exact.add (.fin tA) dt2
      let t3 := exact.add t2 (.fin tD)
      (⟨xs, vs, tA, t2, t3, |dist|, v, (g.acceleration xs vs p).1, const,
        (g.acceleration (xs + |dist| - rampDist g p v) p v).1, direction dist⟩, t3, v) := by
  have hv : (if v < p then v else p) = v := by
    split
    · rfl
    · rename_i h; exact le_antisymm (not_lt.1 h) P.vp
  obtain ⟨-, a2, a3, -⟩ := acc_ok P.req.a P.req.j xs vs p
  obtain ⟨-, b2, b3, -⟩ := acc_ok P.req.a P.req.j (xs + |dist| - rampDist g p v) p v
  unfold Gen.generate
  simp only [sign_eq, ← P.hv, ← P.hp, hv, accDist_eq, ← P.hrest]
  rw [a2, b2, a3, b3, ← P.htA, ← P.htD]

open Classical in
theorem constant_eq (hp : 0 < p) (x : ℝ) : constant x rest p = (⟨.fin (max 0 (rest / p)), x, p⟩, .fin (max 0 (rest / p))) := by
  have e : exact.div (.fin rest) (.fin p) = .fin (rest / p) := by
    show (if p = 0 then F.infOf rest else exact.rnd (rest / p)) = _
    rw [if_neg hp.ne']; rfl
  unfold constant
  simp only [e]
  have e2 : (if (F.fin (rest / p)).lt (.fin 0) then F.fin 0 else F.fin (rest / p)) = F.fin (max 0 (rest / p)) := by
    by_cases h : (F.fin (rest / p)).lt (.fin 0)
    · rw [if_pos h, max_eq_left (le_of_lt h)]
    · rw [if_neg h, max_eq_right (not_lt.1 h)]
  rw [e2]

open Classical in
/-- The target as a function of time, before the sign. -/
noncomputable def U (g : Gen) (xs vs d v p tA tC tD t : ℝ) : Axis :=
  if t < 0 then ⟨xs, vs, 0, 0⟩
  else if t ≤ tA then (g.acceleration xs vs p).1.calculate t
  else if t ≤ tA + tC then ⟨xs + rampDist g vs p + p * (t - tA), p, 0, 0⟩
  else if t ≤ tA + tC + tD then (g.acceleration (xs + d - rampDist g p v) p v).1.calculate (t - (tA + tC))
  else ⟨xs + d, v, 0, 0⟩

theorem tA0 (P : Plan g vs ve d v p rest tA tC tD) : 0 ≤ tA := by rw [P.htA]; exact rampTime_nonneg P.req.a P.req.j (abs_nonneg _)
theorem tD0 (P : Plan g vs ve d v p rest tA tC tD) : 0 ≤ tD := by rw [P.htD]; exact rampTime_nonneg P.req.a P.req.j (abs_nonneg _)
theorem tC0 (P : Plan g vs ve d v p rest tA tC tD) : 0 ≤ tC := by rw [P.htC]; exact le_max_left _ _

theorem finite {dist : ℝ} (P : Plan g vs ve |dist| v p rest tA tC tD) (hp : 0 < p) (xs : ℝ) :
    (g.generate xs dist vs ve).2 = (.fin (tA + tC + tD), v) ∧
    ∀ t, (g.generate xs dist vs ve).1.unsigned t = U g xs vs |dist| v p tA tC tD t := by
  rw [generate_eq P, constant_eq hp, ← P.htC]
  refine ⟨rfl, fun t => ?_⟩
  unfold Overall.unsigned U
  dsimp only
  split
  · rfl
  split
  · rfl
  rename_i h0 h1
  push Not at h0 h1
  have e1 : (F.fin t).le (exact.add (.fin tA) (.fin tC)) ↔ t ≤ tA + tC := Iff.rfl
  have e2 : (F.fin t).le (exact.add (exact.add (.fin tA) (.fin tC)) (.fin tD)) ↔ t ≤ tA + tC + tD := Iff.rfl
  by_cases h2 : t ≤ tA + tC
  · rw [if_pos (e1.2 h2), if_pos h2]
    unfold ConstCalc.calculate
    rw [if_neg]
    rintro (h | h)
    · have h : tC < t - tA := h
      linarith
    · linarith
  · rw [if_neg (fun h => h2 (e1.1 h)), if_neg h2]
    by_cases h3 : t ≤ tA + tC + tD
    · rw [if_pos (e2.2 h3), if_pos h3]; rfl
    · rw [if_neg (fun h => h3 (e2.1 h)), if_neg h3]

/-- Zero peak: everything is zero. -/
theorem stuck {dist : ℝ} (P : Plan g vs ve |dist| v p rest tA tC tD) (hp : p = 0) (xs : ℝ) :
    vs = 0 ∧ v = 0 ∧ rest = |dist| ∧ (g.generate xs dist vs ve).2 = (F.infOf |dist|, 0) ∧
    ∀ t, ((g.generate xs dist vs ve).1.unsigned t).x = xs ∧ ((g.generate xs dist vs ve).1.unsigned t).v = 0 ∧
      ((g.generate xs dist vs ve).1.unsigned t).a = 0 ∧ (t ≠ 0 → ((g.generate xs dist vs ve).1.unsigned t).j = 0) ∧
      |((g.generate xs dist vs ve).1.unsigned t).j| ≤ g.jMax := by
  have hvs : vs = 0 := le_antisymm (by rw [← hp]; exact P.vsp) P.req.start0
  have hv : v = 0 := le_antisymm (by rw [← hp]; exact P.vp) P.v0
  have hr : rest = |dist| := by
    rw [P.hrest, hvs, hp, hv, rampDist_self P.req.a P.req.j]; ring
  have htA : tA = 0 := by rw [P.htA, hvs, hp, sub_self, abs_zero, rampTime_zero P.req.a P.req.j]
  have htD : tD = 0 := by rw [P.htD, hv, hp, sub_self, abs_zero, rampTime_zero P.req.a P.req.j]
  have hc : ∀ x, constant x rest p = (⟨F.infOf |dist|, x, 0⟩, F.infOf |dist|) := by
    intro x
    have e : exact.div (.fin rest) (.fin p) = F.infOf |dist| := by
      show (if p = 0 then F.infOf rest else exact.rnd (rest / p)) = _
      rw [if_pos hp, hr]
    have e2 : ¬ (F.infOf |dist|).lt (.fin 0) := by
      unfold F.infOf
      rw [if_neg (not_lt.2 (abs_nonneg _) : ¬ |dist| < 0)]
      split <;> exact id
    unfold constant
    dsimp only
    rw [if_neg (by rw [e]; exact e2), e, hp]
  have hinf : (0 < |dist| ∧ F.infOf |dist| = .pinf) ∨ (|dist| = 0 ∧ F.infOf |dist| = .nan) := by
    rcases (abs_nonneg dist).lt_or_eq with h | h
    · exact .inl ⟨h, by unfold F.infOf; rw [if_pos h]⟩
    · refine .inr ⟨h.symm, ?_⟩
      rw [← h]; unfold F.infOf; simp
  have e3 : exact.add (exact.add (.fin tA) (F.infOf |dist|)) (.fin tD) = F.infOf |dist| := by
    rcases hinf with ⟨-, h⟩ | ⟨-, h⟩ <;> rw [h] <;> rfl
  have e2 : exact.add (.fin tA) (F.infOf |dist|) = F.infOf |dist| := by
    rcases hinf with ⟨-, h⟩ | ⟨-, h⟩ <;> rw [h] <;> rfl
  refine ⟨hvs, hv, hr, ?_, fun t => ?_⟩
  · rw [generate_eq P, hc]
    dsimp only
    rw [e3, hv]
  · rw [generate_eq P, hc]
    dsimp only
    rw [e3, e2]
    unfold Overall.unsigned
    dsimp only
    have hj0 := P.req.j.le
    split
    · exact ⟨rfl, hvs, rfl, fun _ => rfl, by simpa using hj0⟩
    split
    · rename_i h0 h1
      have ht : t = 0 := by linarith
      obtain ⟨k, -, -, k3, k4, k5⟩ := acc_ok P.req.a P.req.j xs vs p
      obtain ⟨z1, z2, z3⟩ := acc_zero k
      have z4 := (acc_bounds k 0 (lo := 0) (hi := 0) (by rw [k3, hvs]) (by rw [k4, hp]) (by rw [k3, hvs]) (by rw [k4, hp])).2.2
      rw [ht]
      exact ⟨z1.trans k5, z2.trans (k3.trans hvs), z3, fun h => absurd rfl h, z4⟩
    rename_i h0 h1
    push Not at h0 h1
    have hz : rampDist g vs p = 0 := by rw [hvs, hp, rampDist_self P.req.a P.req.j]
    rcases hinf with ⟨-, h⟩ | ⟨h', h⟩
    · rw [h, if_pos (show (F.fin t).le .pinf from trivial)]
      unfold ConstCalc.calculate
      rw [if_neg (by rintro (h | h)
                     · exact h
                     · linarith)]
      exact ⟨by show xs + rampDist g vs p + 0 * _ = xs; rw [hz]; ring, rfl, rfl, fun _ => rfl, by simpa using hj0⟩
    · rw [h, if_neg (show ¬ (F.fin t).le .nan from id), if_neg (show ¬ (F.fin t).le .nan from id), h']
      exact ⟨by simp, hv, rfl, fun _ => rfl, by simpa using hj0⟩

/-! ## Derivatives -/

theorem accA (P : Plan g vs ve d v p rest tA tC tD) (xs : ℝ) :
    AccOk g (g.acceleration xs vs p).1 ∧ (g.acceleration xs vs p).1.t3 = tA ∧ (g.acceleration xs vs p).1.vStart = vs ∧
    (g.acceleration xs vs p).1.vEnd = p ∧ (g.acceleration xs vs p).1.xStart = xs ∧
    (g.acceleration xs vs p).1.xEnd = xs + rampDist g vs p := by
  obtain ⟨k, -, k2, k3, k4, k5⟩ := acc_ok P.req.a P.req.j xs vs p
  refine ⟨k, k2.trans P.htA.symm, k3, k4, k5, ?_⟩
  rw [k.xEnd, k2, k3, k4, k5]; rfl

theorem accD (P : Plan g vs ve d v p rest tA tC tD) (x : ℝ) :
    AccOk g (g.acceleration x p v).1 ∧ (g.acceleration x p v).1.t3 = tD ∧ (g.acceleration x p v).1.vStart = p ∧
    (g.acceleration x p v).1.vEnd = v ∧ (g.acceleration x p v).1.xStart = x ∧
    (g.acceleration x p v).1.xEnd = x + rampDist g p v := by
  obtain ⟨k, -, k2, k3, k4, k5⟩ := acc_ok P.req.a P.req.j x p v
  refine ⟨k, k2.trans P.htD.symm, k3, k4, k5, ?_⟩
  rw [k.xEnd, k2, k3, k4, k5]; rfl

theorem U_bounds (P : Plan g vs ve d v p rest tA tC tD) (xs t : ℝ) :
    (0 ≤ (U g xs vs d v p tA tC tD t).v ∧ (U g xs vs d v p tA tC tD t).v ≤ g.vMax) ∧
    |(U g xs vs d v p tA tC tD t).a| ≤ g.aMax ∧ |(U g xs vs d v p tA tC tD t).j| ≤ g.jMax := by
  obtain ⟨k, -, k3, k4, -⟩ := accA P xs
  obtain ⟨l, -, l3, l4, -⟩ := accD P (xs + d - rampDist g p v)
  have ha := P.req.a.le
  have hj := P.req.j.le
  have h0 := P.req.start0
  have h1 := P.vsp
  have h2 := P.vp
  have h3 := P.pm
  have h4 := P.v0
  unfold U
  split
  · exact ⟨⟨h0, P.req.start1⟩, by simpa using ha, by simpa using hj⟩
  split
  · exact acc_bounds k t (by rw [k3]; exact h0) (by rw [k4]; linarith) (by rw [k3]; linarith) (by rw [k4]; exact h3)
  split
  · exact ⟨⟨h0.trans h1, h3⟩, by simpa using ha, by simpa using hj⟩
  split
  · exact acc_bounds l _ (by rw [l3]; linarith) (by rw [l4]; linarith) (by rw [l3]; linarith) (by rw [l4]; linarith)
  · exact ⟨⟨h4, by show v ≤ g.vMax; linarith⟩, by simpa using ha, by simpa using hj⟩

theorem U_deriv_v (P : Plan g vs ve d v p rest tA tC tD) (xs t : ℝ) :
    HasDerivAt (fun s => (U g xs vs d v p tA tC tD s).v) (U g xs vs d v p tA tC tD t).a t := by
  obtain ⟨k, k2, k3, k4, -⟩ := accA P xs
  obtain ⟨l, l2, l3, l4, -⟩ := accD P (xs + d - rampDist g p v)
  have tA0 := tA0 P
  have tC0 := tC0 P
  have tD0 := tD0 P
  have ka0 := acc_zero k
  have ka1 := acc_end k
  have la0 := acc_zero l
  have la1 := acc_end l
  rw [k2, k4] at ka1
  rw [l2, l4] at la1
  rw [k3] at ka0
  rw [l3] at la0
  have e : ∀ s, (U g xs vs d v p tA tC tD s).v = if s < 0 then vs else if s ≤ tA then
      ((g.acceleration xs vs p).1.calculate s).v else if s ≤ tA + tC then p else if s ≤ tA + tC + tD then
      ((g.acceleration (xs + d - rampDist g p v) p v).1.calculate (s - (tA + tC))).v else v := by
    intro s; unfold U; split_ifs <;> rfl
  have e' : (U g xs vs d v p tA tC tD t).a = if t < 0 then 0 else if t ≤ tA then
      ((g.acceleration xs vs p).1.calculate t).a else if t ≤ tA + tC then 0 else if t ≤ tA + tC + tD then
      ((g.acceleration (xs + d - rampDist g p v) p v).1.calculate (t - (tA + tC))).a else 0 := by
    unfold U; split_ifs <;> rfl
  rw [e', funext e]
  refine glue_lt (fun _ => hasDerivAt_const t vs) (fun _ => glue_le (fun _ => acc_deriv_v k t) (fun _ => glue_le
    (fun _ => hasDerivAt_const t p) (fun _ => glue_le (fun _ => (acc_deriv_v l (t - (tA + tC))).comp_sub_const t (tA + tC))
    (fun _ => hasDerivAt_const t v) ?_ ?_) ?_ ?_) ?_ ?_) ?_ ?_
  · rintro -; rw [show tA + tC + tD - (tA + tC) = tD by ring]; exact la1.2.1
  · rintro rfl; rw [show tA + tC + tD - (tA + tC) = tD by ring]; exact la1.2.2
  · rintro -; rw [if_pos (by linarith), sub_self]; exact la0.2.1.symm
  · rintro rfl; rw [if_pos (by linarith), sub_self]; exact la0.2.2.symm
  · rintro -; rw [if_pos (by linarith)]; exact ka1.2.1
  · rintro rfl; rw [if_pos (by linarith)]; exact ka1.2.2
  · rintro -; rw [if_pos tA0]; exact ka0.2.1.symm
  · rintro rfl; rw [if_pos tA0]; exact ka0.2.2.symm

theorem rampTime_pos {a j dv : ℝ} (ha : 0 < a) (hj : 0 < j) (h : 0 < dv) : 0 < rampTime a j dv := by
  unfold rampTime
  split
  · positivity
  · have := Real.sqrt_pos.2 (div_pos h hj)
    linarith

/-- When the distance left is negative the robot has been braking as hard as it can. -/
theorem rest_neg (P : Plan g vs ve d v p rest tA tC tD) (h : rest < 0) : p = vs ∧ ve ≤ vs ∧ v < vs ∧ d < rampDist g vs v := by
  have hvm : v ≤ g.vMax := P.vp.trans P.pm
  obtain ⟨-, -, -, h4⟩ := peak_bounds P.req.start1 hvm d
  rw [← P.hp] at h4
  have hr := P.hrest
  have hz := rampDist_self P.req.a P.req.j (g := g)
  rcases h4 with h4 | h4
  · rcases lt_or_ge vs ve with hlt | hle
    · obtain ⟨b1, -, b3, -⟩ := aim_up P.req hlt P.d0
      rw [← P.hv] at b1 b3
      rw [h4, max_eq_right b1, hz] at hr
      linarith
    · obtain ⟨-, b2, -⟩ := aim_down P.req hle (d := d)
      rw [← P.hv] at b2
      rw [max_eq_left b2] at h4
      rw [h4, hz] at hr
      refine ⟨h4, hle, lt_of_le_of_ne b2 ?_, by linarith⟩
      rintro rfl
      rw [hz] at hr
      linarith [P.d0]
  · linarith

/-- The position, without the jump at the start, and continued at constant speed beyond the ends. -/
theorem U_deriv_x (P : Plan g vs ve d v p rest tA tC tD) (hp : 0 < p) (xs : ℝ) : ∃ Z : ℝ → ℝ,
    (∀ t, HasDerivAt Z (U g xs vs d v p tA tC tD t).v t) ∧
    (∀ s, 0 < s → s ≤ tA + tC + tD → (U g xs vs d v p tA tC tD s).x = Z s) ∧
    Z 0 = xs + min 0 rest ∧ Z (tA + tC + tD) = xs + d := by
  obtain ⟨k, k2, k3, k4, k5, k6⟩ := accA P xs
  obtain ⟨l, l2, l3, l4, l5, l6⟩ := accD P (xs + d - rampDist g p v)
  have tA0 := tA0 P
  have tC0 := tC0 P
  have tD0 := tD0 P
  have ka0 := acc_zero k
  have ka1 := acc_end k
  have la0 := acc_zero l
  have la1 := acc_end l
  rw [k3, k5] at ka0
  rw [k2, k4, k6] at ka1
  rw [l3, l5] at la0
  rw [l2, l4, l6] at la1
  obtain ⟨X, hX, dX⟩ := acc_deriv_x k
  obtain ⟨Y, hY, dY⟩ := acc_deriv_x l
  rw [k2] at hX
  rw [l2] at hY
  have hz := rampDist_self P.req.a P.req.j (g := g)
  -- before the start and after the end the speed is constant
  have vA : ∀ t, t ≤ 0 → ((g.acceleration xs vs p).1.calculate t).v = vs := by
    intro t ht
    rcases ht.lt_or_eq with h | h
    · unfold AccCalc.calculate; rw [if_pos h]; exact k3
    · rw [h]; exact ka0.2.1
  have vD : ∀ t, tD ≤ t → ((g.acceleration (xs + d - rampDist g p v) p v).1.calculate t).v = v := by
    intro t ht
    rcases ht.lt_or_eq with h | h
    · obtain ⟨m1, m2, m3, -⟩ := l
      unfold AccCalc.calculate
      rw [if_neg (by linarith), if_neg (by linarith), if_neg (by linarith), if_neg (by linarith)]; exact l4
    · rw [← h]; exact la1.2.1
  rcases lt_or_ge rest 0 with hr | hr
  · obtain ⟨e1, -, -, -⟩ := rest_neg P hr
    have eA : tA = 0 := by rw [P.htA, e1, sub_self, abs_zero, rampTime_zero P.req.a P.req.j]
    have eC : tC = 0 := by rw [P.htC]; exact max_eq_left (div_nonpos_of_nonpos_of_nonneg hr.le hp.le)
    refine ⟨Y, fun t => ?_, fun s hs hsT => ?_, ?_, ?_⟩
    · refine (dY t).congr_deriv ?_
      unfold U
      rw [eA, eC]
      simp only [add_zero, zero_add, sub_zero]
      split
      · rename_i h
        unfold AccCalc.calculate; rw [if_pos h]; exact l3.trans e1
      · rename_i h
        split
        · rename_i h'
          have : t = 0 := by linarith
          rw [this, vA 0 le_rfl, la0.2.1, e1]
        · split
          · rfl
          · rename_i h''; exact vD t (by linarith)
    · unfold U
      rw [eA, eC] at hsT ⊢
      simp only [add_zero, zero_add, sub_zero] at hsT ⊢
      rw [if_neg (by linarith), if_neg (by linarith), if_neg (by linarith), if_pos hsT, hY s hs.le hsT]
    · rw [hY 0 le_rfl tD0, la0.1, min_eq_right hr.le, P.hrest, e1, hz]; ring
    · rw [eA, eC, zero_add, zero_add, hY tD tD0 le_rfl, la1.1]; ring
  · have hC : tC = rest / p := by rw [P.htC]; exact max_eq_right (div_nonneg hr hp.le)
    have g1 : X tA = xs + rampDist g vs p := by rw [hX tA tA0 le_rfl, ka1.1]
    have g2 : xs + rampDist g vs p + p * tC = Y 0 := by
      rw [hY 0 le_rfl tD0, la0.1, hC, P.hrest]
      field_simp; ring
    refine ⟨fun s => if s ≤ tA then X s else if s ≤ tA + tC then
      xs + rampDist g vs p + p * (s - tA) else Y (s - (tA + tC)), fun t => ?_, fun s hs hsT => ?_, ?_, ?_⟩
    · have e' : (U g xs vs d v p tA tC tD t).v = if t ≤ tA then
          ((g.acceleration xs vs p).1.calculate t).v else if t ≤ tA + tC then p else
          ((g.acceleration (xs + d - rampDist g p v) p v).1.calculate (t - (tA + tC))).v := by
        unfold U
        by_cases h0 : t < 0
        · rw [if_pos h0, if_pos (by linarith), vA t h0.le]
        rw [if_neg h0]
        split
        · rfl
        split
        · rfl
        split
        · rfl
        · rename_i h; rw [vD _ (by linarith)]
      rw [e']
      have dc : HasDerivAt (fun s : ℝ => xs + rampDist g vs p + p * (s - tA)) p t := by
        refine ((((hasDerivAt_id t).sub_const tA).const_mul p).const_add (xs + rampDist g vs p)).congr_deriv ?_
        ring
      refine glue_le (fun _ => dX t) (fun _ => glue_le (fun _ => dc) (fun _ => (dY (t - (tA + tC))).comp_sub_const t (tA + tC)) ?_ ?_) ?_ ?_
      · rintro -
        rw [sub_self, ← g2]; ring
      · rintro rfl; rw [sub_self]; exact la0.2.1.symm
      · rintro -; rw [if_pos (by linarith), g1]; ring
      · rintro rfl; rw [if_pos (by linarith)]; exact ka1.2.1
    · unfold U
      dsimp only
      rw [if_neg (not_lt.2 hs.le), if_pos hsT]
      split
      · rename_i h; exact (hX s hs.le h).symm
      split
      · rfl
      · rename_i h2 h3
        push Not at h2 h3
        exact (hY _ (by linarith) (by linarith)).symm
    · dsimp only
      rw [if_pos tA0, hX 0 le_rfl tA0, ka0.1, min_eq_left hr, add_zero]
    · dsimp only
      have gE : Y tD = xs + d := by rw [hY tD tD0 le_rfl, la1.1]; ring
      split
      · rename_i h
        have e1 : tD = 0 := by linarith
        have e2 : tC = 0 := by linarith
        rw [e1, ← g2, e2] at gE
        rw [e1, e2, add_zero, add_zero, g1]; linarith
      split
      · rename_i h
        have e1 : tD = 0 := by linarith
        rw [e1, ← g2] at gE
        rw [e1, ← gE]; ring
      · rw [show tA + tC + tD - (tA + tC) = tD by ring]; exact gE

theorem U_acc (P : Plan g vs ve d v p rest tA tC tD) (xs t : ℝ) :
    (U g xs vs d v p tA tC tD t).a = ((g.acceleration xs vs p).1.calculate t).a +
      ((g.acceleration (xs + d - rampDist g p v) p v).1.calculate (t - (tA + tC))).a := by
  obtain ⟨k, k2, -⟩ := accA P xs
  obtain ⟨l, l2, -⟩ := accD P (xs + d - rampDist g p v)
  have tC0 := tC0 P
  have tA0 := tA0 P
  unfold U
  split
  · rename_i h; rw [acc_out k (.inl h.le), acc_out l (.inl (by linarith))]; simp
  split
  · rename_i h; rw [acc_out l (.inl (by linarith))]; simp
  rename_i h
  push Not at h
  rw [acc_out k (.inr (by rw [k2]; linarith)), zero_add]
  split
  · rename_i h; rw [acc_out l (.inl (by linarith))]
  split
  · rfl
  · rename_i h; rw [acc_out l (.inr (by rw [l2]; linarith))]

theorem U_lipschitz (P : Plan g vs ve d v p rest tA tC tD) (xs s t : ℝ) :
    |(U g xs vs d v p tA tC tD t).a - (U g xs vs d v p tA tC tD s).a| ≤ g.jMax * |t - s| := by
  obtain ⟨k, k2, -⟩ := accA P xs
  obtain ⟨l, l2, -⟩ := accD P (xs + d - rampDist g p v)
  have tC0 := tC0 P
  have key : ∀ s t, s ≤ t → |(U g xs vs d v p tA tC tD t).a - (U g xs vs d v p tA tC tD s).a| ≤ g.jMax * |t - s| := by
    intro s t hst
    rw [U_acc P, U_acc P]
    rcases le_total t tA with h1 | h1
    · rw [acc_out l (.inl (by linarith)), acc_out l (.inl (by linarith)), add_zero, add_zero]
      exact acc_lipschitz k s t
    rcases le_total s tA with h2 | h2
    · have e1 := acc_lipschitz k s tA
      have e2 := acc_lipschitz l (tA - (tA + tC)) (t - (tA + tC))
      rw [acc_out k (.inr k2.le)] at e1
      rw [acc_out l (.inl (by linarith : tA - (tA + tC) ≤ 0))] at e2
      rw [acc_out k (.inr (by rw [k2]; exact h1)), acc_out l (.inl (by linarith : s - (tA + tC) ≤ 0)), zero_add, add_zero]
      rw [show t - (tA + tC) - (tA - (tA + tC)) = t - tA by ring] at e2
      rw [abs_of_nonneg (by linarith : 0 ≤ tA - s)] at e1
      rw [abs_of_nonneg (by linarith : 0 ≤ t - tA)] at e2
      rw [abs_of_nonneg (by linarith : 0 ≤ t - s)]
      refine (abs_sub _ _).trans ?_
      rw [sub_zero] at e2
      rw [zero_sub, abs_neg] at e1
      nlinarith
    · rw [acc_out k (.inr (by rw [k2]; exact h1)), acc_out k (.inr (by rw [k2]; exact h2)), zero_add, zero_add]
      have := acc_lipschitz l (s - (tA + tC)) (t - (tA + tC))
      rwa [show t - (tA + tC) - (s - (tA + tC)) = t - s by ring] at this
  rcases le_total s t with h | h
  · exact key s t h
  · rw [abs_sub_comm, abs_sub_comm t s]; exact key t s h

theorem U_deriv_a (P : Plan g vs ve d v p rest tA tC tD) (xs : ℝ) : ∃ S : Finset ℝ, S.card ≤ 8 ∧ ∀ t, t ∉ S →
    HasDerivAt (fun s => (U g xs vs d v p tA tC tD s).a) (U g xs vs d v p tA tC tD t).j t := by
  obtain ⟨k, k2, -⟩ := accA P xs
  obtain ⟨l, l2, -⟩ := accD P (xs + d - rampDist g p v)
  generalize hK : (g.acceleration xs vs p).1 = K at *
  generalize hL : (g.acceleration (xs + d - rampDist g p v) p v).1 = L at *
  refine ⟨{0, K.t1, K.t2, tA, tA + tC, tA + tC + L.t1, tA + tC + L.t2, tA + tC + tD}, ?_, fun t ht => ?_⟩
  · exact (Finset.card_insert_le _ _).trans (Nat.succ_le_succ ((Finset.card_insert_le _ _).trans (Nat.succ_le_succ Finset.card_le_six)))
  simp only [Finset.mem_insert, Finset.mem_singleton, not_or] at ht
  obtain ⟨n0, n1, n2, n3, n4, n5, n6, n7⟩ := ht
  have e : ∀ s, (U g xs vs d v p tA tC tD s).a = if s < 0 then 0 else if s ≤ tA then
      (K.calculate s).a else if s ≤ tA + tC then 0 else if s ≤ tA + tC + tD then
      (L.calculate (s - (tA + tC))).a else 0 := by
    intro s; unfold U; rw [hK, hL]; split_ifs <;> rfl
  have e' : (U g xs vs d v p tA tC tD t).j = if t < 0 then 0 else if t ≤ tA then
      (K.calculate t).j else if t ≤ tA + tC then 0 else if t ≤ tA + tC + tD then
      (L.calculate (t - (tA + tC))).j else 0 := by
    unfold U; rw [hK, hL]; split_ifs <;> rfl
  rw [e', funext e]
  have dK := acc_deriv_a k t n0 n1 n2 (by rw [k2]; exact n3)
  have dL := (acc_deriv_a l (t - (tA + tC)) (fun h => n4 (by linarith)) (fun h => n5 (by linarith)) (fun h => n6 (by linarith))
    (by rw [l2]; exact fun h => n7 (by linarith))).comp_sub_const t (tA + tC)
  exact glue_lt (fun _ => hasDerivAt_const t 0) (fun _ => glue_le (fun _ => dK) (fun _ => glue_le
    (fun _ => hasDerivAt_const t 0) (fun _ => glue_le (fun _ => dL)
    (fun _ => hasDerivAt_const t 0) (fun h => absurd h n7) (fun h => absurd h n7)) (fun h => absurd h n4) (fun h => absurd h n4))
    (fun h => absurd h n3) (fun h => absurd h n3)) (fun h => absurd h n0) (fun h => absurd h n0)

/-! ## The end -/

theorem U_end (P : Plan g vs ve d v p rest tA tC tD) (hp : 0 < p) (xs t : ℝ) (ht : tA + tC + tD ≤ t) :
    (U g xs vs d v p tA tC tD t).x = xs + d ∧ (U g xs vs d v p tA tC tD t).v = v ∧ (U g xs vs d v p tA tC tD t).a = 0 := by
  obtain ⟨k, k2, k3, k4, k5, k6⟩ := accA P xs
  obtain ⟨l, l2, l3, l4, l5, l6⟩ := accD P (xs + d - rampDist g p v)
  have tA0 := tA0 P
  have tC0 := tC0 P
  have tD0 := tD0 P
  have ka1 := acc_end k
  have la1 := acc_end l
  rw [k2, k4, k6] at ka1
  rw [l2, l4, l6] at la1
  have hrest : tD = 0 → p * tC = rest ∧ v = p := by
    intro h
    have hvp : v = p := by
      by_contra hne
      have : 0 < |v - p| := abs_pos.2 (sub_ne_zero.2 hne)
      have := rampTime_pos P.req.a P.req.j this
      rw [← P.htD] at this
      linarith
    refine ⟨?_, hvp⟩
    have hr : 0 ≤ rest := by
      by_contra hn
      obtain ⟨h1, -, h3, -⟩ := rest_neg P (not_le.1 hn)
      linarith
    rw [P.htC, max_eq_right (div_nonneg hr hp.le)]
    field_simp
  have hz := rampDist_self P.req.a P.req.j (g := g)
  have hR := P.hrest
  unfold U
  rw [if_neg (by linarith)]
  split
  · rename_i h
    have ht' : t = tA := by linarith
    obtain ⟨e1, e2⟩ := hrest (by linarith)
    rw [ht']
    refine ⟨ka1.1.trans ?_, ka1.2.1.trans e2.symm, ka1.2.2⟩
    rw [e2, hz] at hR
    rw [show tC = 0 by linarith, mul_zero] at e1
    linarith
  split
  · obtain ⟨e1, e2⟩ := hrest (by linarith)
    have ht' : t = tA + tC := by linarith
    refine ⟨?_, e2.symm, rfl⟩
    show xs + rampDist g vs p + p * (t - tA) = xs + d
    rw [ht', add_sub_cancel_left, e1, hR, e2, hz]; ring
  split
  · have ht' : t - (tA + tC) = tD := by linarith
    rw [ht']
    exact ⟨la1.1.trans (by ring), la1.2.1, la1.2.2⟩
  · exact ⟨rfl, rfl, rfl⟩

/-! ## When the largest velocity is zero -/

theorem bisect_moved (up : ℝ → Prop) (n : Nat) : ∀ low high, low ≤ high → (bisect up n low high).1 ≠ low →
    low + (high - low) / 2 ^ n ≤ (bisect up n low high).1 := by
  induction n with
  | zero => intro low high _ h; exact absurd rfl h
  | succ n ih =>
    intro low high hle h
    unfold bisect at h ⊢
    dsimp only at h ⊢
    have hw : 0 ≤ high - low := by linarith
    have hp : (1:ℝ) ≤ 2 ^ n := one_le_pow₀ (by norm_num)
    by_cases hu : up ((low + high) / 2)
    · rw [if_pos hu] at h ⊢
      refine le_trans ?_ (bisect_spec up n _ _ (by linarith)).1
      have : (high - low) / 2 ^ (n + 1) ≤ (high - low) / 2 := by
        rw [pow_succ]
        exact div_le_div_of_nonneg_left hw (by norm_num) (by linarith)
      linarith
    · rw [if_neg hu] at h ⊢
      have := ih low ((low + high) / 2) (by linarith) h
      have e : (high - low) / 2 ^ (n + 1) = ((low + high) / 2 - low) / 2 ^ n := by rw [pow_succ]; field_simp; ring
      rw [e]; exact this

theorem rampDist_symm (x y : ℝ) : rampDist g x y = rampDist g y x := by
  unfold rampDist
  rw [abs_sub_comm, add_comm x y]

theorem peak_zero_iff {g : Gen} (hv : 0 < g.vMax) (ha : 0 < g.aMax) (hj : 0 < g.jMax) (d : ℝ) :
    g.peak 0 0 d = 0 ↔ d < 2 * rampDist g 0 (resolution g.vMax) := by
  have hw : 0 < resolution g.vMax := div_pos hv (by positivity)
  have hD : ∀ m, g.accDist 0 m + g.accDist m 0 = 2 * rampDist g 0 m := by
    intro m; rw [accDist_eq, accDist_eq, rampDist_symm m 0]; ring
  obtain ⟨-, -, h3, h4, h5⟩ := bisect_spec (fun mid => g.accDist 0 mid + g.accDist mid 0 ≤ d) LOOP_COUNT 0 g.vMax hv.le
  have h6 := bisect_moved (fun mid => g.accDist 0 mid + g.accDist mid 0 ≤ d) LOOP_COUNT 0 g.vMax hv.le
  unfold Gen.peak
  rw [if_neg (lt_irrefl _)]
  generalize bisect (fun mid => g.accDist 0 mid + g.accDist mid 0 ≤ d) LOOP_COUNT 0 g.vMax = r at *
  rw [hD] at h4 h5
  rw [sub_zero, show g.vMax / 2 ^ LOOP_COUNT = resolution g.vMax from rfl] at h3 h6
  rw [zero_add] at h6
  constructor
  · intro h0
    rw [h0, sub_zero] at h3
    rw [h3] at h5
    rcases h5 with h5 | h5
    · exfalso
      have : resolution g.vMax < g.vMax := by
        unfold resolution
        exact div_lt_self hv (by norm_num)
      linarith
    · exact not_le.1 h5
  · intro hlt
    by_contra h0
    rcases h4 with h4 | h4
    · exact h0 h4
    · have := rampDist_mono ha hj le_rfl hw.le (h6 h0)
      linarith

theorem aim_zero_iff (h : Request g 0 ve) (hve : 0 < ve) {d : ℝ} (hd : 0 ≤ d) :
    g.aim 0 ve d = 0 ↔ d ≤ rampDist g 0 (resolution g.vMax) := by
  have hw : 0 < resolution g.vMax := div_pos h.v (by positivity)
  obtain ⟨-, -, h3, h4, h5⟩ := bisect_spec (fun mid => g.accDist 0 mid < d) LOOP_COUNT 0 g.vMax h.v.le
  have h6 := bisect_moved (fun mid => g.accDist 0 mid < d) LOOP_COUNT 0 g.vMax h.v.le
  have e : g.aim 0 ve d = 0 ↔ g.reachable 0 ve d = 0 := by
    unfold Gen.aim
    rw [if_pos hve]
    split
    · rfl
    · rename_i hr
      constructor
      · intro h'; linarith
      · intro h'; rw [h'] at hr; exact absurd hve hr
  rw [e]
  unfold Gen.reachable
  rw [if_pos hve]
  generalize bisect (fun mid => g.accDist 0 mid < d) LOOP_COUNT 0 g.vMax = r at *
  rw [accDist_eq] at h4 h5
  rw [sub_zero, show g.vMax / 2 ^ LOOP_COUNT = resolution g.vMax from rfl] at h3 h6
  rw [zero_add] at h6
  constructor
  · intro h0
    rw [h0, sub_zero] at h3
    rw [h3] at h5
    rcases h5 with h5 | h5
    · exfalso
      have : resolution g.vMax < g.vMax := by
        unfold resolution
        exact div_lt_self h.v (by norm_num)
      linarith
    · exact not_lt.1 h5
  · intro hle
    by_contra h0
    rcases h4 with h4 | h4
    · exact h0 h4
    · have := rampDist_mono h.a h.j le_rfl hw.le (h6 h0)
      linarith

end Verif.StraightP
