import Verif.Spec.OldRun
import Verif.Proof.RunTraj
import Verif.Proof.OldGraph
/-! Routes of the former fast runs. -/
namespace Verif.Proof.OldR
open Verif Verif.Run Verif.Spec Verif.Proof Verif.Old Verif.Old.FastRun

variable {W : Nat} {n m : Node}

theorem cell_kind (dx dy : Int) (p : Posture) (h : p = .north → dx = 0 → dy % 2 = 0) :
    cellRoute dx dy (relativeDir .north p) = kindCentre dx dy p := by
  unfold cellRoute kindCentre
  cases p <;> simp [relativeDir, Nat.shiftRight_eq_div_pow] at h ⊢
  · by_cases h0 : dx = 0
    · simp [h0, h h0]
    · simp [h0]

theorem bound_left (dx dy : Int) (p : Posture) (t : TrajectoryKind) (h2 : p ∈ [Posture.north, .east, .south, .west] → dy % 2 = 0) :
    boundRoute dx dy (relativeDir .northEast p) = some t ↔ kindLeft dx dy p = some t ∨
      (dx = 2 ∧ dy = 0 ∧ p = .southEast ∧ t = .slalom .fastRunDiagonal90 .right) := by
  unfold boundRoute kindLeft
  cases p <;> simp [relativeDir] at h2 ⊢ <;> grind

theorem bound_right (dx dy : Int) (p : Posture) (t : TrajectoryKind) (h2 : p ∈ [Posture.north, .east, .south, .west] → dx % 2 = 0) :
    boundRoute dx dy (relativeDir .northEast p) = some t ↔ kindRight dx dy p = some t ∨
      (dx = 0 ∧ dy = 2 ∧ p = .northWest ∧ t = .slalom .fastRunDiagonal90 .left) := by
  unfold boundRoute kindRight
  cases p <;> simp [relativeDir] at h2 ⊢ <;> grind

theorem i8_small {a b : Nat} (ha : a < 128) (hb : b < 128) : i8 ((a : Int) - b) = .ok ((a : Int) - b) := by
  unfold i8
  rw [if_pos (by omega)]

/-- The pose of `m` seen from `n`. -/
theorem difference_centre (hn : n.x < 128 ∧ n.y < 128) (hm : m.x < 128 ∧ m.y < 128) (hp : n.posture ∈ [Posture.north, .east, .south, .west]) :
    ∃ dx dy p, n.relative m = .ok (dx, dy, p) ∧ difference n m .north = .ok (dx, dy, relativeDir .north p) := by
  unfold Node.relative difference
  rw [asI8_small _ hn.1, asI8_small _ hn.2, asI8_small _ hm.1, asI8_small _ hm.2, i8_small hm.1 hn.1, i8_small hm.2 hn.2]
  generalize (m.x : Int) - n.x = a
  generalize (m.y : Int) - n.y = b
  revert hp
  cases n.posture <;> cases m.posture <;> intro hp <;> first | exact ⟨_, _, _, rfl, rfl⟩ | exact absurd hp (by decide)

theorem difference_wall (hn : n.x < 128 ∧ n.y < 128) (hm : m.x < 128 ∧ m.y < 128)
    (hp : n.posture ∈ [Posture.northEast, .southEast, .southWest, .northWest]) :
    ∃ dx dy p, n.relative m = .ok (dx, dy, p) ∧ difference n m .northEast = .ok (dx, dy, relativeDir .northEast p) := by
  unfold Node.relative difference
  rw [asI8_small _ hn.1, asI8_small _ hn.2, asI8_small _ hm.1, asI8_small _ hm.2, i8_small hm.1 hn.1, i8_small hm.2 hn.2]
  generalize (m.x : Int) - n.x = a
  generalize (m.y : Int) - n.y = b
  revert hp
  cases n.posture <;> cases m.posture <;> intro hp <;> first | exact ⟨_, _, _, rfl, rfl⟩ | exact absurd hp (by decide)

theorem grazes_iff (hn : Legal W n) (hc : ¬ (n.x % 2 = 0 ∧ n.y % 2 = 0)) (dx dy : Int) (p : Posture)
    (h1 : inFrame (e1 n.posture) (e2 n.posture) (dx, dy) = ((m.x : Int) - n.x, (m.y : Int) - n.y))
    (h2 : heading m.posture = inFrame (e1 n.posture) (e2 n.posture) (heading p)) (t : TrajectoryKind) :
    Grazes n m t ↔ (dx = (sw (IsLeft n) (2, 0)).1 ∧ dy = (sw (IsLeft n) (2, 0)).2 ∧ heading p = sw (IsLeft n) (1, -1)) ∧
      t = .slalom .fastRunDiagonal90 (if IsLeft n then .right else .left) := by
  have hside : ∀ L : Bool, (if (cross (if L then e1 n.posture else e2 n.posture) (if L then e2 n.posture else e1 n.posture) < 0)
      then SlalomDirection.left else .right) = (if L then .right else .left) := by
    intro L
    cases L
    · rw [if_pos ((cross_wall _ _).mpr rfl)]; rfl
    · rw [if_neg (fun h => by simpa using (cross_wall _ _).mp h)]; rfl
  unfold Grazes
  constructor
  · rintro ⟨-, f, s, hf, hx, hy, hh, ht⟩
    obtain ⟨rfl, rfl⟩ := (wall_frame hn hc f s).mp hf
    rw [inFrame_wall] at hx hy hh
    exact ⟨(rel_iff m dx dy p _ _ h1 h2).mp ⟨hx, hy, hh⟩, by rw [ht, hside]⟩
  · rintro ⟨hr, ht⟩
    obtain ⟨hx, hy, hh⟩ := (rel_iff m dx dy p _ _ h1 h2).mpr hr
    refine ⟨hc, _, _, (wall_frame hn hc _ _).mpr ⟨rfl, rfl⟩, ?_, ?_, ?_, ?_⟩
    · rw [inFrame_wall]; exact hx
    · rw [inFrame_wall]; exact hy
    · rw [inFrame_wall]; exact hh
    · rw [ht, hside]

theorem location_of (n : Node) : location n = if n.x % 2 = 0 then (if n.y % 2 = 0 then .cell else .horizontalBound)
    else if n.y % 2 = 0 then .verticalBound else .pillar := by
  unfold location
  simp only [Nat.and_one_is_mod]

/-- `route` finds the trajectories that lead from one pose to the other, and those that graze. -/
theorem route_iff (hW : W ≤ 64) (hn : Legal W n) (hm : Legal W m) :
    ∃ o, route n m = .ok o ∧ ∀ t, o = some t ↔ (∃ k, Leads n k m t) ∨ Grazes n m t := by
  have hn1 : n.x < 128 ∧ n.y < 128 := ⟨by have := hn.1; omega, by have := hn.2.1; omega⟩
  have hm1 : m.x < 128 ∧ m.y < 128 := ⟨by have := hm.1; omega, by have := hm.2.1; omega⟩
  obtain ⟨dx, dy, p, hr, h1, h2⟩ := relative_eq (n := n) m hn1.1 hn1.2 hm1.1 hm1.2
  by_cases hc : n.x % 2 = 0 ∧ n.y % 2 = 0
  · obtain ⟨dx', dy', p', e1', e2'⟩ := difference_centre hn1 hm1 (by rcases hn.2.2 with h | h; exact h.2.2; omega)
    rw [hr] at e1'
    cases e1'
    refine ⟨kindCentre dx dy p, ?_, fun t => ?_⟩
    · unfold route
      rw [location_of, if_pos hc.1, if_pos hc.2]
      simp only [e2', bind, Except.bind, pure, Except.pure]
      rw [cell_kind]
      rintro rfl rfl
      obtain ⟨-, -, hm2⟩ := hm
      have hp := (show n.posture ∈ [Posture.north, .east, .south, .west] by rcases hn.2.2 with h | h; exact h.2.2; omega)
      have key : ∀ q r : Posture, q ∈ [Posture.north, .east, .south, .west] → heading r = inFrame (e1 q) (e2 q) (heading .north) →
          inFrame (e1 q) (e2 q) (0, dy) = ((m.x : Int) - n.x, (m.y : Int) - n.y) →
          ((m.x % 2 = 0 ∧ m.y % 2 = 0 ∧ r ∈ [Posture.north, .east, .south, .west]) ∨
            ((m.x + m.y) % 2 = 1 ∧ r ∈ [Posture.northEast, .southEast, .southWest, .northWest])) → dy % 2 = 0 := by
        intro q r hp h2 h1 hm2
        cases q <;> first | (exact absurd hp (by decide)) | skip
        all_goals
          simp only [inFrame, e1, e2, Prod.mk.injEq] at h1
          cases r <;> first | (exact absurd h2 (by decide)) | skip
          simp at hm2
          omega
      exact key _ _ hp h2 h1 hm2
    · rw [kindCentre_iff, ← leads_centre m hn hc dx dy p h1 h2 t]
      exact ⟨Or.inl, fun h => h.resolve_right fun h => h.1 hc⟩
  · have hp := (show n.posture ∈ [Posture.northEast, .southEast, .southWest, .northWest] by
      rcases hn.2.2 with h | h; exact absurd ⟨h.1, h.2.1⟩ hc; exact h.2)
    obtain ⟨dx', dy', p', e1', e2'⟩ := difference_wall hn1 hm1 hp
    rw [hr] at e1'
    cases e1'
    refine ⟨boundRoute dx dy (relativeDir .northEast p), ?_, fun t => ?_⟩
    · unfold route
      rw [location_of]
      obtain ⟨_, _, ⟨h, h', hp⟩ | ⟨h, hp⟩⟩ := hn
      · omega
      · have : (n.x % 2 = 1 ∧ n.y % 2 = 0) ∨ (n.x % 2 = 0 ∧ n.y % 2 = 1) := by omega
        rcases this with ⟨a, b⟩ | ⟨a, b⟩ <;> rw [a, b] <;> simp [e2', bind, Except.bind, pure, Except.pure]
    · rw [leads_wall m hn hc dx dy p h1 h2 t, ← kindWall_iff, grazes_iff hn hc dx dy p h1 h2 t]
      have hpar : p ∈ [Posture.north, .east, .south, .west] → if IsLeft n then dy % 2 = 0 else dx % 2 = 0 := by
        intro hpp
        unfold IsLeft
        obtain ⟨-, -, hm2⟩ := hm
        obtain ⟨-, -, hn2⟩ := hn
        revert h1 h2 hp hm2 hn2 hpp
        generalize n.posture = q
        generalize m.posture = r
        cases q <;> intro h1 h2 hp hpp hm2 hn2 <;> first | (exact absurd hp (by decide)) | skip
        all_goals
          simp only [inFrame, e1, e2, Prod.mk.injEq] at h1
          simp at hn2
          cases p <;> first | (exact absurd hpp (by decide)) | skip
          all_goals
            cases r <;> first | (exact absurd h2 (by decide)) | skip
            simp at hm2
            split <;> rename_i hL <;> simp at hL <;> first | omega | skip
      cases hL : IsLeft n with
      | true =>
        rw [hL] at hpar
        rw [bound_left _ _ _ _ (by simpa using hpar)]
        simp only [if_true, sw]
        refine or_congr Iff.rfl ⟨fun ⟨a, b, c, d⟩ => ⟨⟨a, b, by rw [c]; rfl⟩, d⟩, fun ⟨⟨a, b, c⟩, d⟩ => ⟨a, b, heading_inj _ _ (c.trans rfl), d⟩⟩
      | false =>
        rw [hL] at hpar
        rw [bound_right _ _ _ _ (by simpa using hpar)]
        simp only [sw]
        refine or_congr Iff.rfl ⟨fun ⟨a, b, c, d⟩ => ⟨⟨a, b, by rw [c]; rfl⟩, d⟩, fun ⟨⟨a, b, c⟩, d⟩ => ⟨a, b, heading_inj _ _ (c.trans rfl), d⟩⟩

/-! ## Commands -/

variable {isWall : Search.Coord → Bool} {cost : EdgeKind → Nat}

theorem drivable_leads {k : EdgeKind} (h : Drivable W isWall n k m) : ∃ t, Leads n k m t := by
  obtain ⟨crossed, ⟨f, s, fin, head, cr, q1, q2, q3, q4, q5, q6⟩, -⟩ := h
  have hex : ∃ t, trajOf (n.x % 2 = 0 ∧ n.y % 2 = 0) (if cross f s < 0 then .right else .left) k = some t := by
    unfold Shape at q2
    by_cases hc : n.x % 2 = 0 ∧ n.y % 2 = 0
    · rw [if_pos hc] at q2
      cases q2 <;> simp [trajOf, hc]
    · rw [if_neg hc] at q2
      cases q2 <;> simp [trajOf, hc]
  obtain ⟨t, ht⟩ := hex
  exact ⟨t, f, s, fin, head, cr, q1, q2, q3, q4, q5, ht⟩

theorem drivable_route (hW : W ≤ 64) (hn : Legal W n) {k : EdgeKind} (h : Drivable W isWall n k m) :
    ∃ t, route n m = .ok (some t) ∧ Leads n k m t := by
  obtain ⟨t, ht⟩ := drivable_leads h
  obtain ⟨o, h1, h2⟩ := route_iff hW hn (drivable_legal hn k m h)
  exact ⟨t, by rw [h1, (h2 t).mpr (Or.inl ⟨k, ht⟩)], ht⟩

theorem fast_get {path : List Node} {c : Nat} (h : FastPath W isWall cost path c) (hl : ∀ n ∈ path.head?, Legal W n) :
    ∀ i n m, path[i]? = some n → path[i + 1]? = some m → Legal W n ∧ ∃ k, Drivable W isWall n k m := by
  induction h with
  | single n =>
    intro i n' m h1 h2
    simp at h2
  | cons a b k l c hd _ ih =>
    have ha := hl a rfl
    intro i n m h1 h2
    cases i with
    | zero =>
      simp at h1 h2
      subst h1 h2
      exact ⟨ha, k, hd⟩
    | succ i =>
      simp only [List.getElem?_cons_succ] at h1 h2
      exact ih (by rintro n ⟨⟩; exact drivable_legal ha k _ hd) i n m h1 h2

theorem speed_runState {i len : Nat} (h : i + 1 < len) : Speed i (len - 2 - i) (runState i len) := by
  unfold runState
  split_ifs <;> unfold Speed <;> simp only <;> omega

theorem next_eq (hW : W ≤ 64) {path : List Node} {c : Nat} (h : FastPath W isWall cost path c) (hl : ∀ n ∈ path.head?, Legal W n) {cur : Node}
    {i : Nat} (hi : i + 1 < path.length) :
    ∃ n m k t, path[i]? = some n ∧ path[i + 1]? = some m ∧ Drivable W isWall n k m ∧ Leads n k m t ∧
      RunCommander.nextCommand ⟨cur, path, i⟩ = .ok (.command ⟨n, t, runState i path.length⟩, ⟨cur, path, i + 1⟩) := by
  have e1 : path[i]? = some path[i] := List.getElem?_eq_getElem (by omega)
  have e2 : path[i + 1]? = some path[i + 1] := List.getElem?_eq_getElem hi
  obtain ⟨hn, k, hd⟩ := fast_get h hl i _ _ e1 e2
  obtain ⟨t, h1, h2⟩ := drivable_route hW hn hd
  refine ⟨_, _, k, t, e1, e2, hd, h2, ?_⟩
  unfold RunCommander.nextCommand
  simp only [ge_iff_le, if_neg (show ¬ path.length ≤ i + 1 by omega), e1, e2, h1, bind, Except.bind, pure, Except.pure]

theorem next_finish {path : List Node} {cur : Node} {i : Nat} (hi : path.length ≤ i + 1) :
    RunCommander.nextCommand ⟨cur, path, i⟩ = .ok (.finish, ⟨cur, path, i⟩) := by
  unfold RunCommander.nextCommand
  simp only [ge_iff_le, if_pos hi, pure, Except.pure]

theorem replies_finish {path : List Node} {cur : Node} {i : Nat} (hi : path.length ≤ i + 1) (k : Nat) :
    replies RunCommander.nextCommand k ⟨cur, path, i⟩ = .ok (List.replicate k .finish, ⟨cur, path, i⟩) := by
  induction k with
  | zero => rfl
  | succ k ih =>
    unfold replies
    simp only [next_finish hi, ih, bind, Except.bind, pure, Except.pure, List.replicate_succ]

/-- The replies for the rest of a path. -/
theorem replies_from (hW : W ≤ 64) {path : List Node} {c : Nat} (h : FastPath W isWall cost path c) (hl : ∀ n ∈ path.head?, Legal W n) (cur : Node) :
    ∀ (j i : Nat), i + j + 1 = path.length → ∃ cs : List RunCommand, cs.length = j ∧
      (∀ (l : Nat) (c : RunCommand), cs[l]? = some c → path[i + l]? = some c.node ∧
        (∃ m k, path[i + l + 1]? = some m ∧ Drivable W isWall c.node k m ∧ Leads c.node k m c.route) ∧ Speed (i + l) (j - 1 - l) c.state) ∧
      ∀ k, replies RunCommander.nextCommand k ⟨cur, path, i⟩ =
        .ok ((cs.take k).map .command ++ List.replicate (k - j) .finish, ⟨cur, path, i + min k j⟩) := by
  intro j
  induction j with
  | zero =>
    intro i hi
    refine ⟨[], rfl, by simp, fun k => ?_⟩
    rw [replies_finish (by omega)]
    simp
  | succ j ih =>
    intro i hi
    obtain ⟨cs, h1, h2, h3⟩ := ih (i + 1) (by omega)
    obtain ⟨n, m, k, t, e1, e2, hd, ht, hnext⟩ := next_eq hW h hl (cur := cur) (i := i) (by omega)
    refine ⟨⟨n, t, runState i path.length⟩ :: cs, by simp [h1], ?_, ?_⟩
    · intro l c hc
      cases l with
      | zero =>
        simp at hc
        subst hc
        refine ⟨e1, ⟨m, k, e2, hd, ht⟩, ?_⟩
        have := speed_runState (i := i) (len := path.length) (by omega)
        rwa [show path.length - 2 - i = j + 1 - 1 - 0 by omega] at this
      | succ l =>
        simp only [List.getElem?_cons_succ] at hc
        obtain ⟨q1, q2, q3⟩ := h2 l c hc
        rw [show i + (l + 1) = i + 1 + l by omega, show j + 1 - 1 - (l + 1) = j - 1 - l by omega]
        exact ⟨q1, q2, q3⟩
    · intro k
      cases k with
      | zero => simp [replies]
      | succ k =>
        unfold replies
        simp only [hnext, h3 k, bind, Except.bind, pure, Except.pure, List.take_succ_cons, List.map_cons, List.cons_append]
        rw [show k + 1 - (j + 1) = k - j by omega, show i + 1 + min k j = i + min (k + 1) (j + 1) by omega]

theorem commands_of (hW : W ≤ 64) {path : List Node} {c : Nat} (h : FastPath W isWall cost path c) (hl : ∀ n ∈ path.head?, Legal W n) (cur : Node) :
    ∃ cs, Commands W isWall path cs ∧ ∀ k, replies RunCommander.nextCommand k ⟨cur, path, 0⟩ =
      .ok ((cs.take k).map .command ++ List.replicate (k - cs.length) .finish, ⟨cur, path, min k cs.length⟩) := by
  have hp : 1 ≤ path.length := by cases h <;> simp
  obtain ⟨cs, h1, h2, h3⟩ := replies_from hW h hl cur (path.length - 1) 0 (by omega)
  refine ⟨cs, ⟨by omega, fun i c hc => ?_⟩, fun k => ?_⟩
  · obtain ⟨q1, q2, q3⟩ := h2 i c hc
    simp only [Nat.zero_add] at q1 q2 q3
    rw [h1]
    exact ⟨q1, q2, q3⟩
  · rw [h3 k, h1, Nat.zero_add]

theorem drivable_mono {isWall' : Search.Coord → Bool} (h : ∀ c, Valid W c → isWall c = false → isWall' c = false) {k : EdgeKind}
    (hd : Drivable W isWall n k m) : Drivable W isWall' n k m := by
  obtain ⟨cr, h1, h2, h3, h4⟩ := hd
  refine ⟨cr, h1, h2, h3, fun d hd => ?_⟩
  obtain ⟨c, e1, e2, e3, e4⟩ := h4 d hd
  exact ⟨c, e1, e2, e3, h c e3 e4⟩

theorem uncertain_open {real : Wall → Bool} {b : Belief} (hT : TrueBelief W real b) (w : Wall) (h : uncertain b w = false) :
    real w = false ∧ b.checked w = true ∧ b.present w = false := by
  unfold uncertain at h
  simp at h
  exact ⟨by rw [← hT.known w h.1, h.2], h.1, h.2⟩

end Verif.Proof.OldR
