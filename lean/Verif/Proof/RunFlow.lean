import Verif.Proof.RunNode
import Verif.Props.Coord
/-! Which moves the run planner considers. -/
namespace Verif.Proof
open Verif Verif.Run Verif.Spec

abbrev E := Node × EdgeKind

/-- `F` appends at most `k` entries, exactly those in `S`, and goes on exactly when `b`. -/
def Yields (F : Flow) (b : Prop) (S : E → Prop) (k : Nat) : Prop :=
  ∀ l : List E, l.length + k ≤ NEIGHBOR_MAX →
    ∃ l' b', F l = .ok (l ++ l', b') ∧ (b' = true ↔ b) ∧ (∀ e, e ∈ l' ↔ S e) ∧ l'.length ≤ k

theorem Yields.then {F G : Flow} {b c : Prop} {S T : E → Prop} {k m : Nat} (hF : Yields F b S k)
    (hG : b → Yields G c T m) : Yields (F.then G) (b ∧ c) (fun e => S e ∨ (b ∧ T e)) (k + m) := by
  intro l hl
  obtain ⟨l1, b1, h1, hb1, hS, hk⟩ := hF l (by omega)
  unfold Flow.then
  rw [h1]
  cases b1 with
  | false =>
    have hb : ¬ b := fun h => Bool.false_ne_true (hb1.mpr h)
    exact ⟨l1, false, rfl, by simp [hb], by simp [hb, hS], by omega⟩
  | true =>
    have hb : b := hb1.mp rfl
    obtain ⟨l2, b2, h2, hb2, hT, hm⟩ := hG hb (l ++ l1) (by rw [List.length_append]; omega)
    refine ⟨l1 ++ l2, b2, ?_, by simp [hb, hb2], by simp [hb, hS, hT], by rw [List.length_append]; omega⟩
    show G (l ++ l1) = _
    rw [h2, List.append_assoc]

theorem Yields.andThen {F G : Flow} {b c : Prop} {S T : E → Prop} {k m : Nat} (hF : Yields F b S k)
    (hG : Yields G c T m) : Yields (F.andThen G) c (fun e => S e ∨ T e) (k + m) := by
  intro l hl
  obtain ⟨l1, b1, h1, hb1, hS, hk⟩ := hF l (by omega)
  obtain ⟨l2, b2, h2, hb2, hT, hm⟩ := hG (l ++ l1) (by rw [List.length_append]; omega)
  unfold Flow.andThen
  rw [h1]
  refine ⟨l1 ++ l2, b2, ?_, hb2, by simp [hS, hT], by rw [List.length_append]; omega⟩
  show G (l ++ l1) = _
  rw [h2, List.append_assoc]

theorem Yields.stop : Yields (fun l => .ok (l, false)) False (fun _ => False) 0 := by
  intro l _
  exact ⟨[], false, by simp, by simp, by simp, by simp⟩

theorem Yields.congr {F : Flow} {b c : Prop} {S T : E → Prop} {k m : Nat} (hF : Yields F b S k)
    (hb : b ↔ c) (hS : ∀ e, S e ↔ T e) (hk : k ≤ m) : Yields F c T m := by
  intro l hl
  obtain ⟨l1, b1, h1, hb1, hS', hk'⟩ := hF l (by omega)
  exact ⟨l1, b1, h1, hb1.trans hb, fun e => (hS' e).trans (hS e), by omega⟩

theorem Yields.then_stop {F G : Flow} {b : Prop} {S : E → Prop} {k : Nat} (hF : Yields F b S k)
    (hb : ¬ b) : Yields (F.then G) False S k := by
  intro l hl
  obtain ⟨l1, b1, h1, hb1, hS, hk⟩ := hF l (by omega)
  have : b1 = false := by cases b1 with
    | false => rfl
    | true => exact absurd (hb1.mp rfl) hb
  subst this
  unfold Flow.then
  rw [h1]
  exact ⟨l1, false, rfl, by simp, hS, hk⟩

/-- The loops of the run planner: round `i` yields `g i` and goes on exactly when `ok i`. -/
theorem Yields.loop {body : Nat → Flow} {ok : Nat → Prop} {g : Nat → E} (N : Nat)
    (hbody : ∀ i, 1 ≤ i → i < N → Yields (body i) (ok i) (fun e => ok i ∧ e = g i) 1)
    (hlast : Yields (body N) False (fun _ => False) 0) (hN : ¬ ok N) :
    ∀ (d i fuel : Nat), 1 ≤ i → i + d = N → d < fuel →
      Yields (tryForEach body fuel i) False
        (fun e => ∃ j, i ≤ j ∧ (∀ k, i ≤ k → k ≤ j → ok k) ∧ e = g j) d
  | 0, i, fuel + 1, h1, hd, _ => by
      have hi : i = N := by omega
      subst hi
      refine Yields.congr (hlast.then_stop (by simp)) Iff.rfl ?_ (Nat.le_refl _)
      intro e
      constructor
      · exact False.elim
      · rintro ⟨j, hj, h, -⟩
        exact hN (h i (Nat.le_refl _) hj)
  | d + 1, i, fuel + 1, h1, hd, hf => by
      have ih := Yields.loop N hbody hlast hN d (i + 1) fuel (by omega) (by omega) (by omega)
      refine Yields.congr ((hbody i h1 (by omega)).then (fun _ => ih)) (by simp) ?_ (by omega)
      intro e
      constructor
      · rintro (⟨h, rfl⟩ | ⟨h, j, hj, hk, rfl⟩)
        · exact ⟨i, Nat.le_refl _, fun k h1 h2 => by rwa [show k = i by omega], rfl⟩
        · refine ⟨j, by omega, fun k h1 h2 => ?_, rfl⟩
          by_cases hki : k = i
          · rwa [hki]
          · exact hk k (by omega) h2
      · rintro ⟨j, hj, hk, rfl⟩
        have hi := hk i (Nat.le_refl _) hj
        by_cases hij : j = i
        · exact Or.inl ⟨hi, by rw [hij]⟩
        · exact Or.inr ⟨hi, j, by omega, fun k h1 h2 => hk k (by omega) h2, rfl⟩
  | _, _, 0, _, _, h => by omega

/-- The two unit vectors of the frame in which the code describes the moves of a posture. -/
def e1 : Posture → V
  | .north | .northEast => (1, 0) | .east | .southEast => (0, -1)
  | .south | .southWest => (-1, 0) | .west | .northWest => (0, 1)
def e2 : Posture → V
  | .north | .northEast => (0, 1) | .east | .southEast => (1, 0)
  | .south | .southWest => (0, -1) | .west | .northWest => (-1, 0)

theorem rot_eq (n : Node) (dx dy : Int) : n.rot dx dy = inFrame (e1 n.posture) (e2 n.posture) (dx, dy) := by
  obtain ⟨x, y, p⟩ := n
  cases p <;> simp [Node.rot, inFrame, e1, e2]

/-- The posture with direction `d` relative to `p`. -/
def turned : Posture → Posture → Posture := fun p d =>
  match p with
  | .north | .northEast => d
  | .east | .southEast =>
    match d with
    | .north => .east | .northEast => .southEast | .east => .south | .southEast => .southWest
    | .south => .west | .southWest => .northWest | .west => .north | .northWest => .northEast
  | .south | .southWest =>
    match d with
    | .north => .south | .northEast => .southWest | .east => .west | .southEast => .northWest
    | .south => .north | .southWest => .northEast | .west => .east | .northWest => .southEast
  | .west | .northWest =>
    match d with
    | .north => .west | .northEast => .northWest | .east => .north | .southEast => .northEast
    | .south => .east | .southWest => .southEast | .west => .south | .northWest => .southWest

theorem rotPosture_eq (n : Node) (d : Posture) : n.rotPosture d = .ok (turned n.posture d) := by
  obtain ⟨x, y, p⟩ := n
  cases p <;> cases d <;> rfl

theorem heading_turned (p d : Posture) : heading (turned p d) = inFrame (e1 p) (e2 p) (heading d) := by
  cases p <;> cases d <;> rfl

theorem heading_inj : ∀ p q : Posture, heading p = heading q → p = q := by
  intro p q; cases p <;> cases q <;> first | (intro _; rfl) | (intro h; simp [heading] at h)

/-- The point at displacement `d` (in the frame of the code) lies in the maze. -/
def InAt (W : Nat) (n : Node) (d : V) : Prop :=
  let v := inFrame (e1 n.posture) (e2 n.posture) d
  0 ≤ n.x + v.1 ∧ n.x + v.1 < 2 * W ∧ 0 ≤ n.y + v.2 ∧ n.y + v.2 < 2 * W

/-- The pose at displacement `d` with relative posture `p`. -/
def nodeAt (n : Node) (d : V) (p : Posture) : Node :=
  let v := inFrame (e1 n.posture) (e2 n.posture) d
  ⟨(n.x + v.1).toNat, (n.y + v.2).toNat, turned n.posture p⟩

/-- The wall at displacement `d` is open. -/
def OpenD (W : Nat) (isWall : Search.Coord → Bool) (n : Node) (d : V) : Prop :=
  OpenAt W isWall n (inFrame (e1 n.posture) (e2 n.posture) d)

theorem openD_in {W isWall n d} (h : OpenD W isWall n d) : InAt W n d := by
  obtain ⟨c, h1, h2, ⟨h3, h4, -⟩, -⟩ := h
  unfold InAt
  simp only
  omega

theorem inFrame_bound (p : Posture) (d : V) (h1 : -127 ≤ d.1) (h2 : d.1 ≤ 127) (h3 : -127 ≤ d.2)
    (h4 : d.2 ≤ 127) :
    -128 ≤ (inFrame (e1 p) (e2 p) d).1 ∧ -128 ≤ (inFrame (e1 p) (e2 p) d).2 := by
  cases p <;> simp only [inFrame, e1, e2] <;> omega

variable {W : Nat} {isWall : Search.Coord → Bool} {n : Node}

theorem cont_yields (hW : Supported W) (hn : Legal W n) (dx dy : Int)
    (h1 : -127 ≤ dx) (h2 : dx ≤ 127) (h3 : -127 ≤ dy) (h4 : dy ≤ 127)
    (hp : ((n.x : Int) + (inFrame (e1 n.posture) (e2 n.posture) (dx, dy)).1 + (n.y +
      (inFrame (e1 n.posture) (e2 n.posture) (dx, dy)).2)) % 2 = 1) :
    Yields (n.cont W isWall dx dy) (OpenD W isWall n (dx, dy)) (fun _ => False) 0 := by
  intro l _
  have hb := inFrame_bound n.posture (dx, dy) h1 h2 h3 h4
  unfold Node.cont
  rw [rot_eq]
  unfold OpenD
  generalize inFrame (e1 n.posture) (e2 n.posture) (dx, dy) = v at *
  obtain ⟨vx, vy⟩ := v
  simp only at hb hp
  simp only
  rw [coordRelative_eq W n.x n.y hW hn.1 hn.2.1 vx vy hb.1 hb.2]
  by_cases hin : 0 ≤ (n.x : Int) + vx ∧ (n.x : Int) + vx < 2 * W ∧ 0 ≤ (n.y : Int) + vy ∧ (n.y : Int) + vy < 2 * W
  · rw [if_pos hin]
    have hv : Valid W ⟨(n.x + vx).toNat, (n.y + vy).toNat⟩ := by
      refine ⟨?_, ?_, ?_⟩ <;> simp only <;> omega
    have hnew : Search.Coord.new W (n.x + vx).toNat (n.y + vy).toNat =
        some ⟨(n.x + vx).toNat, (n.y + vy).toNat⟩ := by
      have := hW.le
      exact (Verif.Props.C01_valid W hW _ _ (by omega) (by omega) _).mpr ⟨hv, rfl, rfl⟩
    have hpar : (((n.x : Int) + vx).toNat % 2 = 1 ∧ ((n.y : Int) + vy).toNat % 2 = 0) ∨
          (((n.x : Int) + vx).toNat % 2 = 0 ∧ ((n.y : Int) + vy).toNat % 2 = 1) := by omega
    refine ⟨[], !isWall ⟨(n.x + vx).toNat, (n.y + vy).toNat⟩, ?_, ?_, by simp, by simp⟩
    · simp only [List.append_nil]
      rw [hnew, and_one, and_one]
      rcases hpar with ⟨a, b⟩ | ⟨a, b⟩ <;> rw [a, b] <;> rfl
    · constructor
      · intro h
        exact ⟨_, by simp only; omega, by simp only; omega, hv, by simpa using h⟩
      · rintro ⟨c, hx, hy, -, hw⟩
        have : c = ⟨(n.x + vx).toNat, (n.y + vy).toNat⟩ := by
          obtain ⟨cx, cy⟩ := c
          simp only at hx hy
          congr 1 <;> omega
        rw [← this, hw]; rfl
  · rw [if_neg hin]
    refine ⟨[], false, by simp; rfl, ?_, by simp, by simp⟩
    constructor
    · intro h; cases h
    · rintro ⟨c, hx, hy, hv, -⟩
      exact absurd (by have := hv.1; have := hv.2.1; simp only at hx hy; omega) hin

theorem add_yields (hW : Supported W) (hn : Legal W n) (dx dy : Int) (p : Posture) (k : EdgeKind)
    (h1 : -127 ≤ dx) (h2 : dx ≤ 127) (h3 : -127 ≤ dy) (h4 : dy ≤ 127) :
    Yields (n.add W dx dy p k) (InAt W n (dx, dy))
      (fun e => InAt W n (dx, dy) ∧ e = (nodeAt n (dx, dy) p, k)) 1 := by
  intro l hl
  have hb := inFrame_bound n.posture (dx, dy) h1 h2 h3 h4
  unfold Node.add
  rw [rot_eq, rotPosture_eq]
  unfold InAt nodeAt Node.newRelative
  generalize inFrame (e1 n.posture) (e2 n.posture) (dx, dy) = v at *
  obtain ⟨vx, vy⟩ := v
  simp only at hb
  have hrel := coordRelative_eq W n.x n.y hW hn.1 hn.2.1 vx vy hb.1 hb.2
  simp only [bind, Except.bind, pure, Except.pure, hrel]
  by_cases hin : 0 ≤ (n.x : Int) + vx ∧ (n.x : Int) + vx < 2 * W ∧ 0 ≤ (n.y : Int) + vy ∧ (n.y : Int) + vy < 2 * W
  · rw [if_pos hin]
    refine ⟨[(⟨(n.x + vx).toNat, (n.y + vy).toNat, turned n.posture p⟩, k)], true, ?_, by simp [hin], ?_, by simp⟩
    · simp only [Option.map_some, pushCap]
      rw [if_pos (by omega)]
    · intro e
      simp [hin]
  · rw [if_neg hin]
    exact ⟨[], false, by simp, by simp only [Bool.false_eq_true, false_iff]; exact hin, by
      intro e; simp only [List.not_mem_nil, false_iff]; exact fun h => hin h.1, by simp⟩


theorem parity (p : Posture) (d : V) (N : Int) (h : (N + d.1 + d.2) % 2 = 1) :
    (N + (inFrame (e1 p) (e2 p) d).1 + (inFrame (e1 p) (e2 p) d).2) % 2 = 1 := by
  cases p <;> simp only [inFrame, e1, e2] <;> omega

theorem cont_yields' (hW : Supported W) (hn : Legal W n) (dx dy : Int)
    (h1 : -127 ≤ dx) (h2 : dx ≤ 127) (h3 : -127 ≤ dy) (h4 : dy ≤ 127)
    (hp : ((n.x : Int) + n.y + dx + dy) % 2 = 1) :
    Yields (n.cont W isWall dx dy) (OpenD W isWall n (dx, dy)) (fun _ => False) 0 := by
  refine cont_yields hW hn dx dy h1 h2 h3 h4 ?_
  have := parity n.posture (dx, dy) (n.x + n.y) hp
  omega

/-- Adding a pose after crossing a wall. -/
theorem inAt_convex {a b c : V} (d : V) (i j k : Int) (ha : a = (i * d.1, i * d.2)) (hb : b = (j * d.1, j * d.2))
    (hc : c = (k * d.1, k * d.2)) (hA : InAt W n a) (hB : InAt W n b) (hd1 : d.1 = 0 ∨ d.1 = 1)
    (hd2 : d.2 = 0 ∨ d.2 = 1) (h1 : i ≤ k) (h2 : k ≤ j) : InAt W n c := by
  obtain ⟨d1, d2⟩ := d
  subst ha hb hc
  simp only at hd1 hd2
  unfold InAt at *
  obtain ⟨x, y, p⟩ := n
  cases p <;> rcases hd1 with rfl | rfl <;> rcases hd2 with rfl | rfl <;>
    simp only [inFrame, e1, e2] at * <;> omega

theorem loop_yields (hW : Supported W) (hn : Legal W n) (a b : Nat → Int × Int) (p : Posture) (kind : Nat → EdgeKind)
    (N fuel : Nat) (hN : N ≤ fuel) (h1 : 1 ≤ N)
    (ha : ∀ i, 1 ≤ i → i ≤ N → -127 ≤ (a i).1 ∧ (a i).1 ≤ 127 ∧ -127 ≤ (a i).2 ∧ (a i).2 ≤ 127 ∧
      ((n.x : Int) + n.y + (a i).1 + (a i).2) % 2 = 1)
    (hb : ∀ i, 1 ≤ i → i ≤ N → -127 ≤ (b i).1 ∧ (b i).1 ≤ 127 ∧ -127 ≤ (b i).2 ∧ (b i).2 ≤ 127)
    (hlast : ¬ InAt W n (a N)) :
    Yields (tryForEach (fun i => (n.cont W isWall (a i).1 (a i).2).then
        (n.add W (b i).1 (b i).2 p (kind i))) fuel 1) False
      (fun e => ∃ j, 1 ≤ j ∧ (∀ k, 1 ≤ k → k ≤ j → OpenD W isWall n (a k) ∧ InAt W n (b k)) ∧
        e = (nodeAt n (b j) p, kind j)) (N - 1) := by
  have hc : ∀ i, 1 ≤ i → i ≤ N → Yields (n.cont W isWall (a i).1 (a i).2) (OpenD W isWall n (a i)) (fun _ => False) 0 :=
    fun i h1 h2 => by
      obtain ⟨q1, q2, q3, q4, q5⟩ := ha i h1 h2
      exact cont_yields' hW hn _ _ q1 q2 q3 q4 q5
  refine Yields.loop (ok := fun k => OpenD W isWall n (a k) ∧ InAt W n (b k)) N ?_ ?_ ?_ (N - 1) 1 fuel
    (Nat.le_refl _) (by omega) (by omega)
  · intro i hi hiN
    obtain ⟨q1, q2, q3, q4⟩ := hb i hi (by omega)
    refine Yields.congr ((hc i hi (by omega)).then (fun _ => add_yields hW hn (b i).1 (b i).2 p (kind i) q1 q2 q3 q4))
      Iff.rfl ?_ (by omega)
    intro e
    constructor
    · rintro (h | ⟨h, h', h''⟩)
      · exact h.elim
      · exact ⟨⟨h, h'⟩, h''⟩
    · rintro ⟨⟨h, h'⟩, h''⟩
      exact Or.inr ⟨h, h', h''⟩
  · exact (hc N h1 (Nat.le_refl _)).then_stop (fun h => hlast (openD_in h))
  · exact fun h => hlast (openD_in h.1)

end Verif.Proof
