import Verif.Proof.Outline
import Verif.Props.Journey
/-!
# C125: slaloms in single precision
-/
namespace Verif.Props
open Verif Verif.Spec Verif.Proof Verif.Binary32 Verif.Single

variable {exp : F → F} {L : Lib} {V a j : ℝ} {g : Gen}

/-! ## The curve -/

theorem map_range_get {α : Type} {N k : ℕ} {f : ℕ → α} {t : α} (h : ((List.range N).map f)[k]? = some t) : k < N ∧ t = f k := by
  rw [List.getElem?_map] at h
  by_cases hk : k < N
  · rw [List.getElem?_range hk] at h
    exact ⟨hk, (Option.some.inj h).symm⟩
  · rw [List.getElem?_eq_none (by simpa using hk)] at h
    cases h

/-- C125: in single precision a curve, with any limits for the rotation of moderate size and any turn up to four radians, ends; it starts
where it should, has the headings of its rotation, drives no faster than it should, and does not jump. -/
theorem C125_curve (hU : Circular L) (hL : Rooted L) (H : Swings V a j g) {w p θ x y : ℝ} (hp : Brief p) (hw : |w| ≤ 2) (short : V / 2 ^ 14 ≤ |θ|) (long : |θ| ≤ 4)
    (hx : |x| ≤ 10) (hy : |y| ≤ 10) :
    ∃ l, Produces (Bend.next (arith exp) L) ⟨(g.generate (arith exp) L (.fin 0) (.fin θ) (.fin 0) (.fin 0)).1,
        Clock.new (g.generate (arith exp) L (.fin 0) (.fin θ) (.fin 0) (.fin 0)).2.1 (.fin p), .fin x, .fin y, .fin w⟩ l ∧
      Curving (arith exp) (g.generate (arith exp) L (.fin 0) (.fin θ) (.fin 0) (.fin 0)).1 (.fin x) (.fin y) w p l := by
  have hP := brief_period hp
  have h0 : Pace V 0 := ⟨round24_zero, le_rfl, by linarith [H.low]⟩
  have W := gen_ok (exp := exp) hL H.fit h0 h0 rfl short (long.trans (by norm_num))
  have hc := heading_of H long W
  obtain ⟨T, eT, T0, T1⟩ := W.duration
  have T2 : T ≤ 112 := by
    refine T1.trans ?_
    have : 5 * |θ| / V ≤ 20 := by
      rw [div_le_iff₀ (by linarith [H.low])]
      have := H.low
      linarith
    linarith
  rw [eT]
  obtain ⟨c, ec⟩ : ∃ c, c = (g.generate (arith exp) L (.fin 0) (.fin θ) (.fin 0) (.fin 0)).1 := ⟨_, rfl⟩
  rw [← ec] at hc ⊢
  have far0 : farthest w 0 = 10 := by unfold farthest; ring
  have I : BendInv c T w p 0 ⟨c, Clock.new (.fin T) (.fin p), .fin x, .fin y, .fin w⟩ :=
    ⟨rfl, rfl, rfl, ⟨x, rfl, by rw [far0]; exact hx⟩, ⟨y, rfl, by rw [far0]; exact hy⟩⟩
  obtain ⟨b, eb⟩ : ∃ b, b = (⟨c, Clock.new (.fin T) (.fin p), .fin x, .fin y, .fin w⟩ : Bend) := ⟨_, rfl⟩
  have ex : b.x = .fin x := by rw [eb]
  have ey : b.y = .fin y := by rw [eb]
  rw [← eb] at I ⊢
  obtain ⟨N, N0, hN, -, hl⟩ := bend_produces (exp := exp) hU hc hp hw T0 T2 I
  have inv := bend_states (exp := exp) hU hc hp hw T2 I N hN
  have good : ∀ k, k < N → _ := fun k hk => bend_tame (exp := exp) hU hc hw (inv k hk.le) (clock_bound hP k).1 ((hN k hk).trans T2)
  have step : ∀ k, k < N → Close ((1.06 * |w| + 0.04) * p) (bendAt (arith exp) L b k).x (bendAt (arith exp) L b (k + 1)).x ∧
      Close ((1.06 * |w| + 0.04) * p) (bendAt (arith exp) L b k).y (bendAt (arith exp) L b (k + 1)).y := by
    intro k hk
    obtain ⟨b', e, -, h1, h2⟩ := bend_next (exp := exp) hU hc hp hw T2 (inv k hk.le) (hN k hk)
    have : bendAt (arith exp) L b (k + 1) = b' := by
      show ((bendAt (arith exp) L b k).next (arith exp) L).2 = _
      rw [e]
    rw [this]
    exact ⟨h1, h2⟩
  refine ⟨_, hl, ?_, ?_, ?_, ?_, ?_⟩
  · refine ⟨_, by rw [List.getElem?_map, List.getElem?_range N0]; rfl, ?_, ?_⟩
    · rw [(good 0 N0).2.2.1]; exact ex
    · rw [(good 0 N0).2.2.2.1]; exact ey
  · intro k t h
    obtain ⟨hk, rfl⟩ := map_range_get h
    rw [(good k hk).2.1, ticks_eq exp hP]
  · intro t ht
    obtain ⟨k, hk, rfl⟩ := List.mem_map.1 ht
    exact (good k (List.mem_range.1 hk)).2.2.2.2
  · intro k t t' h h'
    obtain ⟨hk, rfl⟩ := map_range_get h
    obtain ⟨hk', rfl⟩ := map_range_get h'
    rw [(good k hk).2.2.1, (good k hk).2.2.2.1, (good _ hk').2.2.1, (good _ hk').2.2.2.1]
    exact step k hk
  · intro t ht
    obtain ⟨k, hk, rfl⟩ := List.mem_map.1 ht
    exact (good k (List.mem_range.1 hk)).1

/-! ## The straight parts -/

theorem stretch_outputs (A : Arith) (c : Piece) (n : ℕ) : ∀ k : Clock, outputs (Stretch.next A) n ⟨c, k⟩ =
    (outputs (Clock.next A) n k).map (Option.map fun t => ⟨c.calculate A t, .zero, .zero⟩) := by
  induction n with
  | zero => intro k; rfl
  | succ n ih =>
    intro k
    rw [outputs, outputs, List.map_cons]
    exact congrArg₂ List.cons rfl (ih _)

theorem stretch_produces {c : Piece} {T p : ℝ} (hp : Brief p) (hT : T ≤ 8000) (hc : ∀ t : ℝ, BdAxis 240 14.4 466 22100 (c.calculate (arith exp) (.fin t))) :
    ∃ l, Produces (Stretch.next (arith exp)) ⟨c, Clock.new (.fin T) (.fin p)⟩ l ∧ Aligned l := by
  have hP := brief_period hp
  have l := hp.low
  norm_num at l
  obtain ⟨N, hN⟩ := C120_ends exp hP (r := T) (by norm_num; linarith)
  refine ⟨(List.range N).map fun k => ⟨c.calculate (arith exp) (ticks (arith exp) (.fin p) k), .zero, .zero⟩, produces_of fun n => ?_, ?_, ?_⟩
  · rw [stretch_outputs, hN n, List.map_map]
    refine List.map_congr_left fun k _ => ?_
    dsimp only [Function.comp]
    split_ifs <;> rfl
  · intro t ht
    obtain ⟨k, -, rfl⟩ := List.mem_map.1 ht
    exact ⟨rfl, rfl⟩
  · intro t ht
    obtain ⟨k, -, rfl⟩ := List.mem_map.1 ht
    dsimp only
    rw [ticks_eq exp hP]
    exact hc _

theorem constant_produces {d v p : ℝ} (hp : Brief p) (d0 : 0 ≤ d) (d1 : d ≤ 10) (v0 : 1 / 2 ^ 6 ≤ v) (v1 : v ≤ 2) :
    ∃ l, Produces (Stretch.next (arith exp)) (constantStretch (arith exp) (.fin d) (.fin v) (.fin p)) l ∧ Aligned l := by
  norm_num at v0
  have vp : 0 < v := by linarith
  have q0 : 0 ≤ d / v := div_nonneg d0 vp.le
  have q1 : d / v ≤ 640 := by rw [div_le_iff₀ vp]; linarith
  obtain ⟨T, eT, T0, T1⟩ := rnd_nn q0 le_rfl (q1.trans (by norm_num))
  have ec : constant (arith exp) (.fin 0) (.fin d) (.fin v) = (⟨.fin T, .fin 0, .fin v⟩, .fin T) := by
    unfold constant
    dsimp only
    rw [div_rnd vp.ne', eT, if_neg (show ¬ (F.fin T).lt (.fin 0) from not_lt.2 T0)]
  have k1 : d / v / 2 ^ 20 ≤ d / v / 1000 := div_le_div_of_nonneg_left q0 (by norm_num) (by norm_num)
  have k2 : (1:ℝ) / 2 ^ 140 ≤ 1 / 1000 := by norm_num
  have hvT : v * T ≤ 10.1 := by
    have : v * T ≤ v * (1.001 * (d / v) + 1 / 1000) := mul_le_mul_of_nonneg_left (by linarith) vp.le
    have e : v * (1.001 * (d / v) + 1 / 1000) = 1.001 * d + v / 1000 := by field_simp
    linarith
  have l90 : (1000000:ℝ) ≤ 2 ^ 90 := by norm_num
  have bz : Bd 0 (.fin 0) := ⟨0, rfl, by rw [abs_zero]⟩
  have hmul : ∀ t : ℝ, 0 ≤ t → t ≤ T → Bd 11 ((arith exp).add (.fin 0) ((arith exp).mul (.fin v) (.fin t))) := by
    intro t t0 t1
    have hv : v * t ≤ 10.1 := (mul_le_mul_of_nonneg_left t1 vp.le).trans hvT
    obtain ⟨z, ez, z0, bz'⟩ := rnd_nn (mul_nonneg vp.le t0) hv (by linarith)
    have e : (arith exp).mul (.fin v) (.fin t) = .fin z := ez
    rw [e]
    exact add' 11 bz (bd_fin (c := 10.2) (by rw [abs_of_nonneg z0]; norm_num at bz'; linarith)) (by norm_num) (by linarith)
  unfold constantStretch
  rw [ec]
  refine stretch_produces hp (by linarith) fun t => ?_
  show BdAxis _ _ _ _ (ConstCalc.calculate (arith exp) _ (.fin t))
  unfold ConstCalc.calculate
  dsimp only
  have bv : Bd 14.4 (.fin v) := bd_fin (by rw [abs_of_pos vp]; linarith)
  split_ifs with h
  · exact ⟨bd_weaken (hmul T T0 le_rfl) (by norm_num), bv, bd_weaken bz (by norm_num), bd_weaken bz (by norm_num)⟩
  · have h1 : ¬ T < t := fun h' => h (.inl h')
    have h2 : ¬ t < 0 := fun h' => h (.inr h')
    exact ⟨bd_weaken (hmul t (not_lt.1 h2) (not_lt.1 h1)) (by norm_num), bv, bd_weaken bz (by norm_num), bd_weaken bz (by norm_num)⟩

theorem stretch_ok (hL : Rooted L) (G : Paced V a j g) (hV : 1 / 2 ^ 6 ≤ V) {x y d p : ℝ} (hp : Brief p) (hx : Pace V x) (hy : Pace V y) (short : V / 2 ^ 14 ≤ d) (long : d ≤ 10) :
    ∃ u : ℝ, (g.stretch (arith exp) L (.fin p) (.fin d) (.fin x) (.fin y)).2 = .fin u ∧ Pace V u ∧ min x y ≤ u ∧ u ≤ max x y ∧
      ∃ l, Produces (Stretch.next (arith exp)) (g.stretch (arith exp) L (.fin p) (.fin d) (.fin x) (.fin y)).1 l ∧ Aligned l := by
  obtain ⟨F, h1, h2, h3⟩ := G
  obtain ⟨v0, v1⟩ := F.vel
  norm_num at v0 v1
  have d0 : 0 ≤ d := le_trans (by positivity) short
  obtain ⟨⟨T, eT, T0, T1⟩, ⟨u, eu, hu⟩, ht⟩ := gen_ok (exp := exp) hL F hx hy (abs_of_nonneg d0) short (long.trans (by norm_num))
  refine ⟨u, eu, hu.1, hu.2.1, hu.2.2, ?_⟩
  have e : (g.stretch (arith exp) L (.fin p) (.fin d) (.fin x) (.fin y)).1 =
      ⟨.accel (g.generate (arith exp) L (.fin 0) (.fin d) (.fin x) (.fin y)).1, Clock.new (.fin T) (.fin p)⟩ := by
    unfold Gen.stretch
    dsimp only
    rw [eT]
  rw [e]
  norm_num at hV
  have hT : T ≤ 8000 := by
    have : 5 * d / V ≤ 3200 := by rw [div_le_iff₀ (by linarith)]; linarith
    linarith
  refine stretch_produces hp hT fun t => ?_
  obtain ⟨b1, b2, b3, b4⟩ := ht t
  exact ⟨bd_weaken b1 (by linarith), bd_weaken b2 (by linarith), bd_weaken b3 (by linarith), bd_weaken b4 (by linarith)⟩

theorem along_tame {l : List Target} (h : Aligned l) : ∀ t ∈ l, Tame t := by
  intro t ht
  obtain ⟨b1, b2, b3, b4⟩ := h.size t ht
  obtain ⟨e1, e2⟩ := h.axis t ht
  have z : ∀ c : ℝ, 0 ≤ c → Bd c (.fin 0) := fun c hc => ⟨0, rfl, by rwa [abs_zero]⟩
  refine ⟨⟨bd_weaken b1 (by norm_num), bd_weaken b2 (by norm_num), bd_weaken b3 (by norm_num), bd_weaken b4 (by norm_num)⟩, ?_, ?_⟩
  · rw [e1]; exact ⟨z _ (by norm_num), z _ (by norm_num), z _ (by norm_num), z _ (by norm_num)⟩
  · rw [e2]; exact ⟨z _ (by norm_num), z _ (by norm_num), z _ (by norm_num), z _ (by norm_num)⟩

theorem along_shift {l : List Target} (hU : Circular L) (h : Aligned l) {px py : F} {pt : ℝ} (hx : Bd 10 px) (hy : Bd 10 py) (ht : |pt| ≤ 4) :
    ∀ t ∈ l.map (shift (arith exp) L px py (.fin pt)), Tame t := by
  intro t hm
  obtain ⟨t, ht', rfl⟩ := List.mem_map.1 hm
  obtain ⟨b1, b2, b3, b4⟩ := h.size t ht'
  obtain ⟨e1, e2⟩ := h.axis t ht'
  have z : Bd 0 (.fin 0) := ⟨0, rfl, by rw [abs_zero]⟩
  have l90 : (1000000:ℝ) ≤ 2 ^ 90 := by norm_num
  have s := hU.sin pt
  have c := hU.cos pt
  have sz := mul' (exp := exp) 0.01 z s (by norm_num) (by linarith)
  have cz := mul' (exp := exp) 0.01 z c (by norm_num) (by linarith)
  unfold shift
  dsimp only
  rw [e1, e2]
  refine ⟨⟨?_, ?_, ?_, ?_⟩, ⟨?_, ?_, ?_, ?_⟩, ⟨?_, bd_weaken z (by norm_num), bd_weaken z (by norm_num), bd_weaken z (by norm_num)⟩⟩
  · exact add' 300 (sub' 248 (mul' 245 b1 c (by norm_num) (by linarith)) sz (by norm_num) (by linarith)) hx (by norm_num) (by linarith)
  · exact sub' 16 (mul' 15 b2 c (by norm_num) (by linarith)) sz (by norm_num) (by linarith)
  · exact sub' 490 (mul' 476 b3 c (by norm_num) (by linarith)) sz (by norm_num) (by linarith)
  · exact sub' 27200 (mul' 22600 b4 c (by norm_num) (by linarith)) sz (by norm_num) (by linarith)
  · exact add' 300 (add' 248 (mul' 245 b1 s (by norm_num) (by linarith)) cz (by norm_num) (by linarith)) hy (by norm_num) (by linarith)
  · exact add' 16 (mul' 15 b2 s (by norm_num) (by linarith)) cz (by norm_num) (by linarith)
  · exact add' 490 (mul' 476 b3 s (by norm_num) (by linarith)) cz (by norm_num) (by linarith)
  · exact add' 27200 (mul' 22600 b4 s (by norm_num) (by linarith)) cz (by norm_num) (by linarith)
  · exact add' (exp := exp) 740 z (bd_fin ht) (by norm_num) (by linarith)

theorem shifted_outputs {σ : Type} (A : Arith) (L : Lib) (px py pt : F) (next : σ → Option Target × σ) (n : ℕ) : ∀ s,
    outputs (shifted A L px py pt next) n s = (outputs next n s).map (Option.map (shift A L px py pt)) := by
  induction n with
  | zero => intro s; rfl
  | succ n ih =>
    intro s
    rw [outputs, outputs, List.map_cons]
    exact congrArg₂ List.cons rfl (ih _)

theorem shifted_produces {σ : Type} {A : Arith} {L : Lib} {px py pt : F} {next : σ → Option Target × σ} {s : σ} {l : List Target} (h : Produces next s l) :
    Produces (shifted A L px py pt next) s (l.map (shift A L px py pt)) := by
  intro n
  rw [shifted_outputs, h n, List.map_map]
  refine List.map_congr_left fun k _ => ?_
  rw [List.getElem?_map]
  rfl

/-! ## Whole slaloms -/

/-- C125: the curve of a slalom, driven with a speed from 13 % to 379 % of the one it was designed for: the limits of its rotation are of
moderate size, so it ends, and so on. -/
theorem C125_bend (hU : Circular L) (hL : Rooted L) {vRef v p : ℝ} {q : Outline} (Q : Formed vRef q) (S : Suitable vRef v) (hp : Brief p) :
    ∃ l, Produces (Bend.next (arith exp) L) (q.bend (arith exp) L (.fin p) (.fin v)) l ∧
      Curving (arith exp) (q.bend (arith exp) L (.fin p) (.fin v)).calculator q.lStart (.fin 0) v p l := by
  obtain ⟨V, a, j, H⟩ := swing_ok (exp := exp) Q S
  obtain ⟨θ, eθ, θ1, θ2⟩ := Q.theta
  obtain ⟨x, ex, x0, x1⟩ := Q.lStart
  obtain ⟨l, hl, hc⟩ := C125_curve (exp := exp) hU hL H (w := v) (θ := θ) (x := x) (y := 0) hp
    (by rw [abs_of_nonneg (le_trans (by norm_num) S.low)]; exact S.high) (by have := H.high; norm_num; linarith) θ2 (by rw [abs_of_nonneg x0]; exact x1) (by norm_num)
  refine ⟨l, ?_, ?_⟩
  · unfold Outline.bend
    rw [eθ, ex]
    exact hl
  · unfold Outline.bend
    rw [eθ, ex]
    exact hc

/-- C125: a slalom of constant speed, as the search drives it, ends in single precision: a straight, the curve, and a straight shifted to the end
of the curve, all targets of moderate size. -/
theorem C125_constant (hU : Circular L) (hL : Rooted L) {vRef v p : ℝ} {q : Outline} (Q : Formed vRef q) (S : Suitable vRef v) (hp : Brief p) :
    ∃ l1 l2 l3, Produces (q.next (arith exp) L) (q.constantSlalom (arith exp) L (.fin p) (.fin v))
        (l1 ++ l2 ++ l3.map (shift (arith exp) L q.xCurveEnd q.yCurveEnd q.theta)) ∧
      Aligned l1 ∧ Curving (arith exp) (q.bend (arith exp) L (.fin p) (.fin v)).calculator q.lStart (.fin 0) v p l2 ∧ Aligned l3 ∧
      ∀ t ∈ l1 ++ l2 ++ l3.map (shift (arith exp) L q.xCurveEnd q.yCurveEnd q.theta), Tame t := by
  obtain ⟨l2, p2, h2⟩ := C125_bend (exp := exp) hU hL Q S hp
  obtain ⟨x, ex, x0, x1⟩ := Q.lStart
  obtain ⟨y, ey, y0, y1⟩ := Q.lEnd
  obtain ⟨θ, eθ, θ1, θ2⟩ := Q.theta
  obtain ⟨l1, p1, h1⟩ := constant_produces (exp := exp) hp x0 x1 S.low S.high
  obtain ⟨l3, p3, h3⟩ := constant_produces (exp := exp) hp y0 y1 S.low S.high
  rw [← ex] at p1
  rw [← ey] at p3
  refine ⟨l1, l2, l3, produces_chain (shifted_produces p3) _ _ (produces_chain p2 _ _ p1), h1, h2, h3, ?_⟩
  intro t ht
  rcases List.mem_append.1 ht with ht | ht
  · rcases List.mem_append.1 ht with ht | ht
    · exact along_tame h1 t ht
    · exact h2.tame t ht
  · rw [eθ] at ht
    exact along_shift hU h3 Q.xCurveEnd Q.yCurveEnd θ2 t ht

/-- C125: so does one with accelerating straights, as a run drives it, if both the first and the requested speed suit the curve; the speed of the
curve is between them, and the last one between that and the one requested at the end. -/
theorem C125_terminal (hU : Circular L) (hL : Rooted L) (G : Paced V a j g) {vRef x m y p : ℝ} {q : Outline} (Q : Formed vRef q) (Sx : Suitable vRef x) (Sm : Suitable vRef m)
    (hx : Pace V x) (hm : Pace V m) (hy : Pace V y) (hp : Brief p)
    (l1 : ∃ r : ℝ, q.lStart = .fin r ∧ V / 2 ^ 14 ≤ r) (l2 : ∃ r : ℝ, q.lEnd = .fin r ∧ V / 2 ^ 14 ≤ r) :
    ∃ l1 l2 l3, ∃ u u' : ℝ, Produces (q.next (arith exp) L) (q.slalomWithTerminal (arith exp) L g (.fin p) (.fin x) (.fin m) (.fin y)).1
        (l1 ++ l2 ++ l3.map (shift (arith exp) L q.xCurveEnd q.yCurveEnd q.theta)) ∧
      (q.slalomWithTerminal (arith exp) L g (.fin p) (.fin x) (.fin m) (.fin y)).2 = .fin u' ∧
      min x m ≤ u ∧ u ≤ max x m ∧ Pace V u' ∧ min u y ≤ u' ∧ u' ≤ max u y ∧
      Aligned l1 ∧ Curving (arith exp) (q.bend (arith exp) L (.fin p) (.fin u)).calculator q.lStart (.fin 0) u p l2 ∧ Aligned l3 ∧
      ∀ t ∈ l1 ++ l2 ++ l3.map (shift (arith exp) L q.xCurveEnd q.yCurveEnd q.theta), Tame t := by
  obtain ⟨r1, er1, sr1⟩ := l1
  obtain ⟨r2, er2, sr2⟩ := l2
  obtain ⟨r1', er1', -, lr1⟩ := Q.lStart
  obtain ⟨r2', er2', -, lr2⟩ := Q.lEnd
  obtain rfl : r1 = r1' := by rw [er1] at er1'; injection er1'
  obtain rfl : r2 = r2' := by rw [er2] at er2'; injection er2'
  obtain ⟨θ, eθ, θ1, θ2⟩ := Q.theta
  obtain ⟨u, eu, hu, u1, u2, l1, p1, h1⟩ := stretch_ok (exp := exp) hL G (Sx.low.trans hx.high) hp hx hm sr1 lr1
  obtain ⟨u', eu', hu', u1', u2', l3, p3, h3⟩ := stretch_ok (exp := exp) hL G (Sx.low.trans hx.high) hp hu hy sr2 lr2
  have Su : Suitable vRef u := ⟨Sx.ref, (le_min Sx.low Sm.low).trans u1, u2.trans (max_le Sx.high Sm.high), (le_min Sx.slow Sm.slow).trans u1, u2.trans (max_le Sx.fast Sm.fast)⟩
  obtain ⟨l2, p2, h2⟩ := C125_bend (exp := exp) hU hL Q Su hp
  have e : q.slalomWithTerminal (arith exp) L g (.fin p) (.fin x) (.fin m) (.fin y) =
      ((some (some (g.stretch (arith exp) L (.fin p) (.fin r1) (.fin x) (.fin m)).1, q.bend (arith exp) L (.fin p) (.fin u)),
        (g.stretch (arith exp) L (.fin p) (.fin r2) (.fin u) (.fin y)).1), .fin u') := by
    unfold Outline.slalomWithTerminal
    dsimp only
    rw [er1, er2, eu, eu']
  rw [e]
  refine ⟨l1, l2, l3, u, u', produces_chain (shifted_produces p3) _ _ (produces_chain p2 _ _ p1), rfl, u1, u2, hu', u1', u2', h1, h2, h3, ?_⟩
  intro t ht
  rcases List.mem_append.1 ht with ht | ht
  · rcases List.mem_append.1 ht with ht | ht
    · exact along_tame h1 t ht
    · exact h2.tame t ht
  · rw [eθ] at ht
    exact along_shift hU h3 Q.xCurveEnd Q.yCurveEnd θ2 t ht

/-! ## Targets for the control loop -/

/-- C125: shifted to any pose nearby, targets of that size are among those of C121. -/
theorem C125_sane (hU : Circular L) {t : Target} (h : Tame t) {px py pt : ℝ} (hx : |px| ≤ 250) (hy : |py| ≤ 250) (ht : |pt| ≤ 250) :
    Sane (shift (arith exp) L (.fin px) (.fin py) (.fin pt) t) := by
  obtain ⟨⟨x1, x2, x3, x4⟩, ⟨y1, y2, y3, y4⟩, ⟨t1, t2, t3, t4⟩⟩ := h
  have l90 : (1000000:ℝ) ≤ 2 ^ 90 := by norm_num
  have s := hU.sin pt
  have c := hU.cos pt
  unfold shift
  refine ⟨⟨?_, ?_, ?_, ?_⟩, ⟨?_, ?_, ?_, ?_⟩, ⟨?_, ?_, ?_⟩⟩
  · exact bd_mag (add' 1000 (sub' 620 (mul' 306.1 x1 c (by norm_num) (by linarith)) (mul' 306.1 y1 s (by norm_num) (by linarith)) (by norm_num) (by linarith)) (bd_fin hx) (by norm_num) (by linarith)) (by norm_num)
  · exact bd_mag (sub' 64 (mul' 17 x2 c (by norm_num) (by linarith)) (mul' 17 y2 s (by norm_num) (by linarith)) (by norm_num) (by linarith)) (by norm_num)
  · exact bd_mag (sub' 1020 (mul' 500 x3 c (by norm_num) (by linarith)) (mul' 500 y3 s (by norm_num) (by linarith)) (by norm_num) (by linarith)) (by norm_num)
  · exact bd_mag (sub' 65000 (mul' 27800 x4 c (by norm_num) (by linarith)) (mul' 27800 y4 s (by norm_num) (by linarith)) (by norm_num) (by linarith)) (by norm_num)
  · exact bd_mag (add' 1000 (add' 620 (mul' 306.1 x1 s (by norm_num) (by linarith)) (mul' 306.1 y1 c (by norm_num) (by linarith)) (by norm_num) (by linarith)) (bd_fin hy) (by norm_num) (by linarith)) (by norm_num)
  · exact bd_mag (add' 64 (mul' 17 x2 s (by norm_num) (by linarith)) (mul' 17 y2 c (by norm_num) (by linarith)) (by norm_num) (by linarith)) (by norm_num)
  · exact bd_mag (add' 1020 (mul' 500 x3 s (by norm_num) (by linarith)) (mul' 500 y3 c (by norm_num) (by linarith)) (by norm_num) (by linarith)) (by norm_num)
  · exact bd_mag (add' 65000 (mul' 27800 x4 s (by norm_num) (by linarith)) (mul' 27800 y4 c (by norm_num) (by linarith)) (by norm_num) (by linarith)) (by norm_num)
  · exact bd_mag (add' 1000 t1 (bd_fin ht) (by norm_num) (by linarith)) (by norm_num)
  · exact bd_mag t2 (by norm_num)
  · exact bd_mag t3 (by norm_num)

/-- C125: however long the robot drives after targets of slaloms, in single precision no voltage is ever infinite or not a number, if the
sensors are plausible. -/
theorem C125_drive (hF : Fair L) (hU : Circular L) {p W w Ω V : ℝ} {r : Robot} (B : Assembled p W w Ω V r) (l : List (Sensor × Target))
    (hl : ∀ q ∈ l, Plausible p W w Ω q.1 ∧ ∃ t, ∃ px py pt : ℝ, Tame t ∧ |px| ≤ 250 ∧ |py| ≤ 250 ∧ |pt| ≤ 250 ∧
      q.2 = shift (arith exp) L (.fin px) (.fin py) (.fin pt) t) :
    ∀ o ∈ (roundsOf (arith exp) L r l).2, Mag 122 o.left ∧ Mag 122 o.right :=
  (C121_finite hF B l fun q hq => ⟨(hl q hq).1, by
    obtain ⟨-, t, px, py, pt, ht, hx, hy, hth, e⟩ := hl q hq
    rw [e]
    exact C125_sane hU ht hx hy hth⟩).1

/-! ## The parameters -/

open Verif.Run (SlalomKind SlalomDirection) in
/-- C125: the parameters of all slaloms of all mazes with squares from 1 cm to 5 m are of the kind above, also when they are computed in single
precision, and the velocity of reference is right up to 0.001 %. Those of a run have straights of at least 14 % of a square. -/
theorem C125_parameters {s o : ℝ} (s0 : 0.01 ≤ s) (s1 : s ≤ 5) (o0 : 0 ≤ o) (o1 : o ≤ 0.036) (kind : SlalomKind) (d : SlalomDirection) :
    ∃ vRef, Formed vRef (outline (arith exp) (.fin s) (.fin o) kind d) ∧ |vRef - (Slalom.parameters s o kind d).vRef| ≤ s / 100000 ∧
      (kind ≠ .search90 → (∃ r : ℝ, (outline (arith exp) (.fin s) (.fin o) kind d).lStart = .fin r ∧ 0.14 * s ≤ r) ∧
        ∃ r : ℝ, (outline (arith exp) (.fin s) (.fin o) kind d).lEnd = .fin r ∧ 0.14 * s ≤ r) := by
  by_cases hk : kind = .search90
  · subst hk
    obtain ⟨v, F, h⟩ := search_formed (exp := exp) s0 s1 o0 o1 d
    exact ⟨v, F, h, fun hc => absurd rfl hc⟩
  have key : ∀ a1 a2 x y ρ θ : ℝ, (0.15 ≤ a1 ∧ a1 ≤ 1.1) → (0.15 ≤ a2 ∧ a2 ≤ 1.1) → |x| ≤ 1.1 → |y| ≤ 1.1 → 0.4 ≤ ρ → ρ ≤ 4.9 → 45 ≤ θ → θ ≤ 180 →
      outline (arith exp) (.fin s) (.fin o) kind d = createOutline (arith exp) ((arith exp).rnd a1) ((arith exp).rnd a2) ((arith exp).rnd x) ((arith exp).rnd y)
        ((arith exp).rnd ρ) θ (.fin s) d → (Slalom.parameters s o kind d).vRef = s * ρ →
      ∃ vRef, Formed vRef (outline (arith exp) (.fin s) (.fin o) kind d) ∧ |vRef - (Slalom.parameters s o kind d).vRef| ≤ s / 100000 ∧
      (kind ≠ .search90 → (∃ r : ℝ, (outline (arith exp) (.fin s) (.fin o) kind d).lStart = .fin r ∧ 0.14 * s ≤ r) ∧
        ∃ r : ℝ, (outline (arith exp) (.fin s) (.fin o) kind d).lEnd = .fin r ∧ 0.14 * s ≤ r) := by
    intro a1 a2 x y ρ θ h1 h2 h3 h4 h5 h6 h7 h8 e e'
    obtain ⟨v, F, q1, q2, q3⟩ := decimal_formed (exp := exp) s0 s1 h1 h2 h3 h4 h5 h6 h7 h8 d
    rw [e, e']
    exact ⟨v, F, q1, fun _ => ⟨q2, q3⟩⟩
  cases kind with
  | search90 => exact absurd rfl hk
  | fastRun45 =>
    exact key 0.1564414 0.3680321 0.739762 0.239762 3.3333333 45 (by norm_num) (by norm_num) (by norm_num [abs_of_pos]) (by norm_num [abs_of_pos])
      (by norm_num) (by norm_num) (by norm_num) (by norm_num) rfl (by cases d <;> rfl)
  | fastRun45Rev =>
    exact key 0.3635475 0.1564412 0.9500395 0.2429328 3.3333333 45 (by norm_num) (by norm_num) (by norm_num [abs_of_pos]) (by norm_num [abs_of_pos])
      (by norm_num) (by norm_num) (by norm_num) (by norm_num) rfl (by cases d <;> rfl)
  | fastRun90 =>
    exact key 0.22222222 0.22222222 1 0.7777778 4.697589 90 (by norm_num) (by norm_num) (by norm_num [abs_of_pos]) (by norm_num [abs_of_pos])
      (by norm_num) (by norm_num) (by norm_num) (by norm_num) rfl (by cases d <;> rfl)
  | fastRun135 =>
    exact key 0.24291888 0.15713444 0.6111111 0.8888889 3.928989 135 (by norm_num) (by norm_num) (by norm_num [abs_of_pos]) (by norm_num [abs_of_pos])
      (by norm_num) (by norm_num) (by norm_num) (by norm_num) rfl (by cases d <;> rfl)
  | fastRun135Rev =>
    exact key 0.15713444 0.24291888 0.52532303 0.88889056 3.928989 135 (by norm_num) (by norm_num) (by norm_num [abs_of_pos]) (by norm_num [abs_of_pos])
      (by norm_num) (by norm_num) (by norm_num) (by norm_num) rfl (by cases d <;> rfl)
  | fastRun180 =>
    exact key 0.26666668 0.26666668 0.26666668 1 4.5803113 180 (by norm_num) (by norm_num) (by norm_num [abs_of_pos]) (by norm_num [abs_of_pos])
      (by norm_num) (by norm_num) (by norm_num) (by norm_num) rfl (by cases d <;> rfl)
  | fastRunDiagonal90 =>
    exact key 0.17377333 0.17377333 0.70710665 0.53333336 3.2212 90 (by norm_num) (by norm_num) (by norm_num [abs_of_pos]) (by norm_num [abs_of_pos])
      (by norm_num) (by norm_num) (by norm_num) (by norm_num) rfl (by cases d <;> rfl)

theorem reference_low {s o : ℝ} (s0 : 0.01 ≤ s) (o1 : o ≤ 0.036) (kind : Run.SlalomKind) (d : Run.SlalomDirection) :
    0.6 * s ≤ (Slalom.parameters s o kind d).vRef := by
  have e : o / 0.09 ≤ 0.4 := by rw [div_le_iff₀ (by norm_num)]; linarith
  have key : ∀ a b x y r th : ℝ, 0.6 ≤ r → 0.6 * s ≤ (Slalom.createParams a b x y r th s d).vRef := by
    intro a b x y r th h
    have : 0.6 * s ≤ s * r := by nlinarith
    cases d <;> exact this
  unfold Slalom.parameters
  cases kind with
  | search90 =>
    dsimp only
    split_ifs
    · exact key _ _ _ _ _ _ (by norm_num)
    · refine key _ _ _ _ _ _ ?_
      linarith
  | _ => exact key _ _ _ _ _ _ (by norm_num)

/-- C125: a slalom of constant speed in a maze with squares from 1 cm to 5 m, of any kind and direction, with a speed from 14 % to 375 % of the speed it
was designed for (in real numbers), ends, and all its targets are of moderate size. -/
theorem C125_maze (hU : Circular L) (hL : Rooted L) {s o p v : ℝ} (s0 : 0.01 ≤ s) (s1 : s ≤ 5) (o0 : 0 ≤ o) (o1 : o ≤ 0.036) (hp : Brief p)
    (kind : Run.SlalomKind) (d : Run.SlalomDirection) (v0 : 1 / 2 ^ 6 ≤ v) (v1 : v ≤ 2) (slow : 0.14 * (Slalom.parameters s o kind d).vRef ≤ v)
    (fast : v ≤ 3.75 * (Slalom.parameters s o kind d).vRef) :
    ∃ l, Produces ((outline (arith exp) (.fin s) (.fin o) kind d).next (arith exp) L)
        ((outline (arith exp) (.fin s) (.fin o) kind d).constantSlalom (arith exp) L (.fin p) (.fin v)) l ∧ ∀ t ∈ l, Tame t := by
  obtain ⟨r, F, h, -⟩ := C125_parameters (exp := exp) s0 s1 o0 o1 kind d
  have low := reference_low s0 o1 kind d
  obtain ⟨h1, h2⟩ := abs_le.1 h
  obtain ⟨l1, l2, l3, P, -, -, -, H⟩ := C125_constant (exp := exp) hU hL F ⟨by linarith, v0, v1, by linarith, by linarith⟩ hp
  exact ⟨_, P, H⟩

/-! ## The same without rounding -/

section
variable (T : Control.Trig) (pi : ℝ)

theorem model_create (l1 l2 x y r th s : ℝ) (d : Run.SlalomDirection) :
    createOutline exact (.fin l1) (.fin l2) (.fin x) (.fin y) (.fin r) th (.fin s) d = shapeOf (Slalom.createParams l1 l2 x y r th s d) := by
  cases d <;> rfl

/-- C125: without rounding the parameters are those of the model in real numbers. -/
theorem C125_exact (s o : ℝ) (kind : Run.SlalomKind) (d : Run.SlalomDirection) :
    outline exact (.fin s) (.fin o) kind d = shapeOf (Slalom.parameters s o kind d) := by
  have lit : ∀ z : ℝ, exact.rnd z = .fin z := fun _ => rfl
  unfold outline Slalom.parameters
  dsimp only
  have e : exact.div (.fin o) (exact.rnd 0.09) = .fin (o / 0.09) := by rw [lit, exact_div _ _ (by norm_num)]
  rw [e]
  cases kind with
  | search90 =>
    dsimp only
    rw [lit, lit, lit, lit, lit, exact_sub, exact_sub, exact_add, exact_add, exact_mul]
    by_cases h : o / 0.09 ≤ 0.055555556
    · rw [if_pos (show (F.fin (o / 0.09)).le (.fin 0.055555556) from h), if_pos h, model_create]
    · rw [if_neg (show ¬ (F.fin (o / 0.09)).le (.fin 0.055555556) from h), if_neg h, model_create]
  | _ => exact model_create _ _ _ _ _ _ _ _

/-- A calculator that is the same in both models. -/
def Agrees (c : Straight.Overall) : Prop := ∀ t : ℝ, (overallOf c).calculate exact (.fin t) = axisOf (c.calculate t)

theorem model_clock (t p : ℝ) (tEnd : F) : Clock.next exact ⟨.fin t, tEnd, .fin p⟩ =
    (open Classical in if tEnd.lt (.fin t) then (none, ⟨.fin t, tEnd, .fin p⟩) else (some (.fin t), ⟨.fin (t + p), tEnd, .fin p⟩)) := rfl

theorem model_bend (c : Slalom.Curve) (h : Agrees c.calculator) :
    (bendOf c).next exact (libOf T pi) = ((c.next T).1.map targetOf, bendOf (c.next T).2) := by
  have hs : ∀ r : ℝ, (libOf T pi).sin (.fin r) = .fin (T.sin r) := fun _ => rfl
  have hc : ∀ r : ℝ, (libOf T pi).cos (.fin r) = .fin (T.cos r) := fun _ => rfl
  have lit : ∀ z : ℝ, exact.rnd z = .fin z := fun _ => rfl
  have hn : ∀ r : ℝ, (F.fin r).neg = .fin (-r) := fun _ => rfl
  have ha : ∀ r : ℝ, (axisOf (c.calculator.calculate r)).x = .fin (c.calculator.calculate r).x := fun _ => rfl
  have ha2 : ∀ r : ℝ, (axisOf (c.calculator.calculate r)).v = .fin (c.calculator.calculate r).v := fun _ => rfl
  have ha3 : ∀ r : ℝ, (axisOf (c.calculator.calculate r)).a = .fin (c.calculator.calculate r).a := fun _ => rfl
  unfold Bend.next Slalom.Curve.next
  rw [show (bendOf c).clock = ⟨.fin c.t, c.tEnd, .fin c.period⟩ from rfl, model_clock]
  by_cases hk : c.tEnd.lt (.fin c.t)
  · rw [if_pos hk, if_pos hk]
    rfl
  · rw [if_neg hk, if_neg hk]
    dsimp only
    unfold Bend.target Bend.mean
    dsimp only
    rw [show (bendOf c).calculator = overallOf c.calculator from rfl, show (bendOf c).clock.period = .fin c.period from rfl, show (bendOf c).v = .fin c.v from rfl,
      show (bendOf c).x = .fin c.x from rfl, show (bendOf c).y = .fin c.y from rfl]
    simp only [lit, exact_mul, exact_add, h _, ha, ha2, ha3, hs, hc, hn]
    rfl

/-- Two iterators that do the same, one in every step with the values `f` of the other. -/
def Alike {σ τ α β : Type} (f : β → α) (m : σ → Option α × σ) (n : τ → Option β × τ) (R : σ → τ → Prop) : Prop :=
  ∀ s t, R s t → (m s).1 = (n t).1.map f ∧ R (m s).2 (n t).2

theorem same_outputs {σ τ α β : Type} {f : β → α} {m : σ → Option α × σ} {n : τ → Option β × τ} {R : σ → τ → Prop} (H : Alike f m n R) :
    ∀ k s t, R s t → outputs m k s = (outputs n k t).map (Option.map f)
  | 0, _, _, _ => rfl
  | k + 1, s, t, h => by
    show _ :: _ = List.map _ (_ :: _)
    rw [List.map_cons, (H s t h).1, same_outputs H k _ _ (H s t h).2]

/-- The relation of two chains. -/
def Both {σ τ σ' τ' : Type} (R : σ → τ → Prop) (R' : σ' → τ' → Prop) (s : Option σ × σ') (t : Option τ × τ') : Prop :=
  R' s.2 t.2 ∧ match s.1, t.1 with
    | none, none => True
    | some a, some b => R a b
    | _, _ => False

theorem same_chain {σ τ σ' τ' α β : Type} {f : β → α} {m : σ → Option α × σ} {n : τ → Option β × τ} {m' : σ' → Option α × σ'} {n' : τ' → Option β × τ'}
    {R : σ → τ → Prop} {R' : σ' → τ' → Prop} (H : Alike f m n R) (H' : Alike f m' n' R') :
    Alike f (Slalom.chainNext m m') (Slalom.chainNext n n') (Both R R') := by
  rintro ⟨o, s⟩ ⟨o', t⟩ ⟨h, h'⟩
  cases o with
  | none =>
    cases o' with
    | none => exact ⟨(H' s t h).1, (H' s t h).2, trivial⟩
    | some b => exact h'.elim
  | some a =>
    cases o' with
    | none => exact h'.elim
    | some b =>
      obtain ⟨e1, e2⟩ := H a b h'
      unfold Slalom.chainNext
      dsimp only
      rcases hm : m a with ⟨x, a'⟩
      rcases hn : n b with ⟨y, b'⟩
      rw [hm, hn] at e1 e2
      cases y with
      | none =>
        obtain rfl : x = none := e1
        exact ⟨(H' s t h).1, (H' s t h).2, trivial⟩
      | some y =>
        obtain rfl : x = some (f y) := e1
        exact ⟨rfl, h, e2⟩

/-- A curve and the same in real numbers. -/
def BendSame (s : Bend) (c : Slalom.Curve) : Prop := s = bendOf c ∧ Agrees c.calculator

theorem same_bend : Alike targetOf (Bend.next exact (libOf T pi)) (Slalom.Curve.next T) BendSame := by
  rintro _ c ⟨rfl, h⟩
  rw [model_bend T pi c h]
  refine ⟨rfl, rfl, ?_⟩
  unfold Slalom.Curve.next
  split_ifs <;> exact h

/-- A straight and the same in real numbers. -/
def StretchSame (s : Stretch) (c : Straight.Straight) : Prop :=
  s.clock = ⟨.fin c.t, c.tEnd, .fin c.period⟩ ∧ ∀ t : ℝ, s.calculator.calculate exact (.fin t) = axisOf (c.calculator.calculate t)

theorem same_stretch : Alike targetOf (Stretch.next exact) Straight.Straight.next StretchSame := by
  rintro s c ⟨e, h⟩
  unfold Stretch.next Straight.Straight.next
  rw [e, model_clock]
  by_cases hk : c.tEnd.lt (.fin c.t)
  · rw [if_pos hk, if_pos hk]
    exact ⟨rfl, rfl, h⟩
  · rw [if_neg hk, if_neg hk]
    dsimp only
    refine ⟨?_, rfl, h⟩
    rw [Option.map_some, Option.map_some, h]
    rfl

theorem model_shift (px py pt : ℝ) (t : Control.Target) :
    shift exact (libOf T pi) (.fin px) (.fin py) (.fin pt) (targetOf t) = targetOf (Straight.shift T ⟨px, py, pt⟩ t) := rfl

theorem same_shift {σ τ : Type} {m : σ → Option Target × σ} {n : τ → Option Control.Target × τ} {R : σ → τ → Prop} (H : Alike targetOf m n R)
    (px py pt : ℝ) : Alike targetOf (shifted exact (libOf T pi) (.fin px) (.fin py) (.fin pt) m) (Straight.shiftNext T ⟨px, py, pt⟩ n) R := by
  intro s t h
  obtain ⟨e1, e2⟩ := H s t h
  refine ⟨?_, e2⟩
  show (m s).1.map _ = ((n t).1.map _).map _
  rw [e1]
  cases (n t).1 <;> rfl

theorem same_constant (D : ℝ) {v : ℝ} (hv : v ≠ 0) (p : ℝ) :
    StretchSame (constantStretch exact (.fin D) (.fin v) (.fin p)) (Straight.straightConstant D v p) := by
  refine ⟨rfl, fun t => ?_⟩
  have e : ∃ r : ℝ, (Straight.constant 0 D v).1.tEnd = .fin r := by
    show ∃ r : ℝ, (Straight.constant 0 D v).2 = .fin r
    dsimp only [Straight.constant]
    rw [exact_div _ _ hv]
    split_ifs
    · exact ⟨_, rfl⟩
    · exact ⟨_, rfl⟩
  obtain ⟨r, e⟩ := e
  show (constOf (Straight.constant 0 D v).1).calculate exact (.fin t) = axisOf ((Straight.constant 0 D v).1.calculate t)
  unfold ConstCalc.calculate Straight.ConstCalc.calculate
  rw [show (constOf (Straight.constant 0 D v).1).tEnd = (Straight.constant 0 D v).1.tEnd from rfl, e]
  by_cases h : (F.fin r).lt (.fin t) ∨ t < 0
  · rw [if_pos h, if_pos (show (F.fin r).lt (.fin t) ∨ (F.fin t).lt (.fin 0) from h)]
    rfl
  · rw [if_neg h, if_neg (show ¬ ((F.fin r).lt (.fin t) ∨ (F.fin t).lt (.fin 0)) from h)]
    rfl

theorem same_generate {G : Straight.Gen} (ha : G.aMax ≠ 0) (hj : G.jMax ≠ 0) (p D x y : ℝ) :
    StretchSame ((genOf G).stretch exact (libOf T pi) (.fin p) (.fin D) (.fin x) (.fin y)).1 (Straight.straightGenerate G p D x y).1 ∧
      ((genOf G).stretch exact (libOf T pi) (.fin p) (.fin D) (.fin x) (.fin y)).2 = .fin (Straight.straightGenerate G p D x y).2 := by
  unfold Gen.stretch Straight.straightGenerate
  rw [show F.fin 0 = F.fin (0:ℝ) from rfl, C124_model T pi ha hj]
  exact ⟨⟨rfl, fun t => C124_target 0 D x y t⟩, rfl⟩

theorem same_curve {q : Slalom.Params} {v : ℝ} (hv : v ≠ 0) (hr : q.vRef ≠ 0) (ha : q.ddtheta ≠ 0) (hj : q.dddtheta ≠ 0) (p : ℝ) :
    BendSame ((shapeOf q).bend exact (libOf T pi) (.fin p) (.fin v))
      (Slalom.generateCurve p q.lStart 0 0 q.theta v q.vRef q.dtheta q.ddtheta q.dddtheta) := by
  have hk : v / q.vRef ≠ 0 := div_ne_zero hv hr
  have e : (shapeOf q).turn exact (.fin v) = genOf ⟨v / q.vRef * q.dtheta, v / q.vRef * (v / q.vRef) * q.ddtheta, v / q.vRef * (v / q.vRef) * (v / q.vRef) * q.dddtheta⟩ := by
    unfold Outline.turn
    rw [show (shapeOf q).vRef = .fin q.vRef from rfl, exact_div _ _ hr]
    rfl
  unfold Outline.bend Slalom.generateCurve
  dsimp only
  rw [e, show (shapeOf q).theta = .fin q.theta from rfl,
    C124_model T pi (mul_ne_zero (mul_ne_zero hk hk) ha) (mul_ne_zero (mul_ne_zero (mul_ne_zero hk hk) hk) hj)]
  exact ⟨rfl, fun t => C124_target 0 q.theta 0 0 t⟩

theorem same_slalom (q : Slalom.Params) : Alike targetOf ((shapeOf q).next exact (libOf T pi)) (Slalom.slalomNext T q.curveEnd)
    (Both (Both StretchSame BendSame) StretchSame) :=
  same_chain (same_chain same_stretch (same_bend T pi)) (same_shift T pi same_stretch _ _ _)

/-- C125: without rounding the targets of a slalom are those of the model in real numbers. -/
theorem C125_model {q : Slalom.Params} (hr : q.vRef ≠ 0) (ha : q.ddtheta ≠ 0) (hj : q.dddtheta ≠ 0) (p : ℝ) {v : ℝ} (hv : v ≠ 0) (n : Nat) :
    outputs ((shapeOf q).next exact (libOf T pi)) n ((shapeOf q).constantSlalom exact (libOf T pi) (.fin p) (.fin v)) =
      (outputs (Slalom.slalomNext T q.curveEnd) n (Slalom.constantSlalom p q v)).map (Option.map targetOf) :=
  same_outputs (same_slalom T pi q) n _ _ ⟨same_constant _ hv p, same_curve T pi hv hr ha hj p, same_constant _ hv p⟩

/-- C125: the same for a slalom with a terminal velocity. -/
theorem C125_final {q : Slalom.Params} (hr : q.vRef ≠ 0) (ha : q.ddtheta ≠ 0) (hj : q.dddtheta ≠ 0) {G : Straight.Gen} (hA : G.aMax ≠ 0)
    (hJ : G.jMax ≠ 0) (p vStart vMiddle vEnd : ℝ) (hv : (Straight.straightGenerate G p q.lStart vStart vMiddle).2 ≠ 0) (n : Nat) :
    outputs ((shapeOf q).next exact (libOf T pi)) n
        ((shapeOf q).slalomWithTerminal exact (libOf T pi) (genOf G) (.fin p) (.fin vStart) (.fin vMiddle) (.fin vEnd)).1 =
      (outputs (Slalom.slalomNext T q.curveEnd) n (Slalom.slalomWithTerminal G p q vStart vMiddle vEnd).1).map (Option.map targetOf) ∧
    ((shapeOf q).slalomWithTerminal exact (libOf T pi) (genOf G) (.fin p) (.fin vStart) (.fin vMiddle) (.fin vEnd)).2 =
      .fin (Slalom.slalomWithTerminal G p q vStart vMiddle vEnd).2 := by
  obtain ⟨s1, e1⟩ := same_generate T pi hA hJ p q.lStart vStart vMiddle
  obtain ⟨s2, e2⟩ := same_generate T pi hA hJ p q.lEnd (Straight.straightGenerate G p q.lStart vStart vMiddle).2 vEnd
  have c := same_curve T pi hv hr ha hj p
  refine ⟨same_outputs (same_slalom T pi q) n _ _ ⟨?_, ?_, s1⟩, ?_⟩
  · show StretchSame ((genOf G).stretch exact (libOf T pi) (.fin p) (.fin q.lEnd) ((genOf G).stretch exact (libOf T pi) (.fin p) (.fin q.lStart) (.fin vStart) (.fin vMiddle)).2 (.fin vEnd)).1 _
    rw [e1]; exact s2
  · show BendSame ((shapeOf q).bend exact (libOf T pi) (.fin p) ((genOf G).stretch exact (libOf T pi) (.fin p) (.fin q.lStart) (.fin vStart) (.fin vMiddle)).2) _
    rw [e1]; exact c
  · show ((genOf G).stretch exact (libOf T pi) (.fin p) (.fin q.lEnd) ((genOf G).stretch exact (libOf T pi) (.fin p) (.fin q.lStart) (.fin vStart) (.fin vMiddle)).2 (.fin vEnd)).2 = _
    rw [e1]; exact e2

end

/-! ## Cases -/

theorem circular_real : Circular (libOf Control.Trig.real 3.14) where
  sin r := ⟨Real.sin r, rfl, (Real.abs_sin_le_one r).trans (by norm_num)⟩
  cos r := ⟨Real.cos r, rfl, (Real.abs_cos_le_one r).trans (by norm_num)⟩

/-- The slalom of the search in the maze of the tests: squares of 9 cm, the robot 1 cm ahead of the border, 0.25 m/s. -/
example (exp : F → F) : ∃ l, Produces ((outline (arith exp) (.fin 0.09) (.fin 0.01) .search90 .left).next (arith exp) (libOf Control.Trig.real 3.14))
    ((outline (arith exp) (.fin 0.09) (.fin 0.01) .search90 .left).constantSlalom (arith exp) (libOf Control.Trig.real 3.14) (.fin 0.001) (.fin 0.25)) l ∧ ∀ t ∈ l, Tame t := by
  have e : (Slalom.parameters 0.09 0.01 .search90 .left).vRef = 0.09 * ((0.5 - 0.01 / 0.09) * 6.03975) := by
    unfold Slalom.parameters
    dsimp only
    rw [if_neg (by norm_num)]
    rfl
  exact C125_maze (exp := exp) circular_real (rooted_real _ _) (s := 0.09) (o := 0.01) (p := 0.001) (v := 0.25) (by norm_num) (by norm_num) (by norm_num) (by norm_num)
    ⟨by norm_num, by norm_num⟩ .search90 .left (by norm_num) (by norm_num) (by rw [e]; norm_num) (by rw [e]; norm_num)

/-- A slalom of a run in the same maze: from 0.5 m/s at the start to 1 m/s at the end, with at most 2 m/s, 16 m/s² and 128 m/s³. -/
example (exp : F → F) : ∃ l, Produces ((outline (arith exp) (.fin 0.09) (.fin 0) .fastRun90 .right).next (arith exp) (libOf Control.Trig.real 3.14))
    ((outline (arith exp) (.fin 0.09) (.fin 0) .fastRun90 .right).slalomWithTerminal (arith exp) (libOf Control.Trig.real 3.14) ⟨.fin 2, .fin 16, .fin 128⟩
      (.fin 0.001) (.fin 0.5) (.fin 0.5) (.fin 1)).1 l ∧ ∀ t ∈ l, Tame t := by
  obtain ⟨r, F, h, H⟩ := C125_parameters (exp := exp) (s := 0.09) (o := 0) (by norm_num) (by norm_num) le_rfl (by norm_num) .fastRun90 .right
  obtain ⟨⟨a, ea, ha⟩, ⟨b, eb, hb⟩⟩ := H (by decide)
  have e : (Slalom.parameters 0.09 0 .fastRun90 .right).vRef = 0.09 * 4.697589 := rfl
  rw [e] at h
  obtain ⟨h1, h2⟩ := abs_le.1 h
  have dy := fun (m e : ℤ) (h1 : |m| ≤ 2 ^ 24) (h2 : -149 ≤ e) => round24_fix h1 h2
  have S : Suitable r 0.5 := ⟨by norm_num at h1 ⊢; linarith, by norm_num, by norm_num, by norm_num at h1 h2 ⊢; linarith, by norm_num at h1 h2 ⊢; linarith⟩
  have r2 : round24 2 = 2 := by have := dy 1 1 (by norm_num) (by norm_num); norm_num at this; exact this
  have r1 : round24 1 = 1 := by have := dy 1 0 (by norm_num) (by norm_num); norm_num at this; exact this
  have r5 : round24 0.5 = 0.5 := by have := dy 1 (-1) (by norm_num) (by norm_num); norm_num at this ⊢; exact this
  obtain ⟨l1, l2, l3, u, u', P, -, -, -, -, -, -, -, -, -, T⟩ := C125_terminal (exp := exp) (p := 0.001) circular_real (rooted_real _ _)
    (V := 2) (a := 16) (j := 128) (g := ⟨.fin 2, .fin 16, .fin 128⟩) ⟨⟨rfl, rfl, rfl, r2, by norm_num, by norm_num, by norm_num⟩, by norm_num, by norm_num, by norm_num⟩ F S S
    (y := 1) ⟨r5, by norm_num, by norm_num⟩ ⟨r5, by norm_num, by norm_num⟩ ⟨r1, by norm_num, by norm_num⟩ ⟨by norm_num, by norm_num⟩
    ⟨a, ea, by norm_num at ha ⊢; linarith⟩ ⟨b, eb, by norm_num at hb ⊢; linarith⟩
  exact ⟨_, P, T⟩

/-- The model in real numbers of the same slalom. -/
example (n : Nat) :
    outputs ((outline exact (.fin 0.09) (.fin 0) .fastRun90 .right).next exact (libOf Control.Trig.real 3.14)) n
        ((outline exact (.fin 0.09) (.fin 0) .fastRun90 .right).constantSlalom exact (libOf Control.Trig.real 3.14) (.fin 0.001) (.fin 0.5)) =
      (outputs (Slalom.slalomNext Control.Trig.real (Slalom.parameters 0.09 0 .fastRun90 .right).curveEnd) n
        (Slalom.constantSlalom 0.001 (Slalom.parameters 0.09 0 .fastRun90 .right) 0.5)).map (Option.map targetOf) := by
  rw [C125_exact]
  have hp := Real.pi_pos
  exact C125_model _ _ (show (0.09 * 4.697589 : ℝ) ≠ 0 by norm_num) (show 36 * Real.pi ≠ 0 by positivity) (show 1200 * Real.pi ≠ 0 by positivity) _ (by norm_num) n

end Verif.Props
