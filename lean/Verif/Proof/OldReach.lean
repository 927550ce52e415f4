import Verif.Proof.OldCells
/-! Which walls the mouse can reach. -/
namespace Verif.Proof.OldS
open Verif Verif.Run Verif.Spec Verif.Old Verif.Proof Verif.Proof.OldN

variable {W : Nat} {n m cur : Node} {isWall real : Search.Coord → Bool} {cost : Pattern → Nat}

theorem between_symm {C D : V} {c : Search.Coord} (h : Between C c D) : Between D c C := by
  obtain ⟨h1, h2, e, he, h3, h4, rfl⟩ := h
  refine ⟨by simp only; omega, by simp only; omega, (-e.1, -e.2), ?_, by simp only; omega, by simp only; omega, ?_⟩
  · simp only [List.mem_cons, List.not_mem_nil, or_false] at he
    rcases he with rfl | rfl | rfl | rfl <;> decide
  · ext <;> simp only <;> omega

theorem connected_symm {C D : V} (h : Connected W isWall C D) : Connected W isWall D C := by
  unfold Connected at h ⊢
  induction h with
  | refl => exact .refl
  | tail _ h ih =>
    obtain ⟨c, h1, h2⟩ := h
    exact .head ⟨c, between_symm h1, h2⟩ ih

theorem connected_mono {C D : V} (hle : ∀ c, isWall c = false → real c = false) (h : Connected W isWall C D) : Connected W real C D := by
  unfold Connected at h ⊢
  refine Relation.ReflTransGen.mono ?_ _ _ h
  rintro a b ⟨c, h1, h2, h3⟩
  exact ⟨c, h1, h2, hle c h3⟩

/-- One move of the mouse from an open pose. -/
def Hop (W : Nat) (real : Search.Coord → Bool) (u v : Node) : Prop := OpenPose W real u ∧ SearchLegal W v ∧ ∃ k, MovesTo u k v

/-- From a pose that looks into a cell one move leads to each of its walls. -/
theorem exit_move {A A' : V} {c : Search.Coord} (hn : SearchLegal W n) (hA : aheadCell n = A) (hB : Between A c A') (hc : Valid W c) :
    ∃ v, SearchLegal W v ∧ v.x = c.x ∧ v.y = c.y ∧ aheadCell v = A' ∧ ∃ k, MovesTo n k v := by
  have ha := axis hn
  obtain ⟨x, y, p⟩ := n
  obtain ⟨cx, cy⟩ := c
  obtain ⟨h1, h2, e, he, h3, h4, rfl⟩ := hB
  subst hA
  obtain ⟨h5, h6, h7⟩ := hc
  obtain ⟨g1, g2, g3⟩ := hn
  simp only [aheadCell] at *
  simp only [List.mem_cons, List.not_mem_nil, or_false] at he ha
  rcases he with rfl | rfl | rfl | rfl
  · refine ⟨⟨cx, cy, .north⟩, ⟨h5, h6, Or.inr ?_⟩, rfl, rfl, ?_, ?_⟩
    · rcases ha with rfl | rfl | rfl | rfl <;> simp [heading] at * <;> omega
    · rw [show heading .north = (0, 1) from rfl]; simp only [Prod.mk.injEq]; omega
    · rcases ha with rfl | rfl | rfl | rfl
      · exact ⟨.front, by simp [MovesTo, heading] at *; omega⟩
      · exact ⟨.left, by simp [MovesTo, heading, rightOf] at *; omega⟩
      · exact ⟨.back, by simp [MovesTo, heading] at *; omega⟩
      · exact ⟨.right, by simp [MovesTo, heading, rightOf] at *; omega⟩
  · refine ⟨⟨cx, cy, .east⟩, ⟨h5, h6, Or.inl ?_⟩, rfl, rfl, ?_, ?_⟩
    · rcases ha with rfl | rfl | rfl | rfl <;> simp [heading] at * <;> omega
    · rw [show heading .east = (1, 0) from rfl]; simp only [Prod.mk.injEq]; omega
    · rcases ha with rfl | rfl | rfl | rfl
      · exact ⟨.right, by simp [MovesTo, heading, rightOf] at *; omega⟩
      · exact ⟨.front, by simp [MovesTo, heading] at *; omega⟩
      · exact ⟨.left, by simp [MovesTo, heading, rightOf] at *; omega⟩
      · exact ⟨.back, by simp [MovesTo, heading] at *; omega⟩
  · refine ⟨⟨cx, cy, .south⟩, ⟨h5, h6, Or.inr ?_⟩, rfl, rfl, ?_, ?_⟩
    · rcases ha with rfl | rfl | rfl | rfl <;> simp [heading] at * <;> omega
    · rw [show heading .south = (0, -1) from rfl]; simp only [Prod.mk.injEq]; omega
    · rcases ha with rfl | rfl | rfl | rfl
      · exact ⟨.back, by simp [MovesTo, heading] at *; omega⟩
      · exact ⟨.right, by simp [MovesTo, heading, rightOf] at *; omega⟩
      · exact ⟨.front, by simp [MovesTo, heading] at *; omega⟩
      · exact ⟨.left, by simp [MovesTo, heading, rightOf] at *; omega⟩
  · refine ⟨⟨cx, cy, .west⟩, ⟨h5, h6, Or.inl ?_⟩, rfl, rfl, ?_, ?_⟩
    · rcases ha with rfl | rfl | rfl | rfl <;> simp [heading] at * <;> omega
    · rw [show heading .west = (-1, 0) from rfl]; simp only [Prod.mk.injEq]; omega
    · rcases ha with rfl | rfl | rfl | rfl
      · exact ⟨.left, by simp [MovesTo, heading, rightOf] at *; omega⟩
      · exact ⟨.back, by simp [MovesTo, heading] at *; omega⟩
      · exact ⟨.right, by simp [MovesTo, heading, rightOf] at *; omega⟩
      · exact ⟨.front, by simp [MovesTo, heading] at *; omega⟩

/-- A move leaves the cell ahead. -/
theorem move_exits {k : SearchKind} (hn : SearchLegal W n) (h : MovesTo n k m) :
    Between (aheadCell n) ⟨m.x, m.y⟩ (aheadCell m) := by
  have ha := axis hn
  obtain ⟨x, y, p⟩ := n
  obtain ⟨x', y', p'⟩ := m
  obtain ⟨-, -, g⟩ := hn
  simp only [List.mem_cons, List.not_mem_nil, or_false] at ha
  have key : ∀ e ∈ units, (x' : Int) = (aheadCell ⟨x, y, p⟩).1 + e.1 → (y' : Int) = (aheadCell ⟨x, y, p⟩).2 + e.2 →
      heading p' = e → Between (aheadCell ⟨x, y, p⟩) ⟨x', y'⟩ (aheadCell ⟨x', y', p'⟩) := by
    intro e he h1 h2 h3
    refine ⟨?_, ?_, e, he, h1, h2, ?_⟩
    · rcases ha with rfl | rfl | rfl | rfl <;> simp [aheadCell, heading] at g ⊢ <;> omega
    · rcases ha with rfl | rfl | rfl | rfl <;> simp [aheadCell, heading] at g ⊢ <;> omega
    · simp only [aheadCell] at h1 h2 ⊢
      rw [h3, h1, h2]
      ext <;> simp only <;> omega
  cases k with
  | back =>
    obtain ⟨h1, h2, h3⟩ := h
    refine key (-(heading p).1, -(heading p).2) ?_ ?_ ?_ h3
    · rcases ha with rfl | rfl | rfl | rfl <;> simp [heading, units]
    · simp only [aheadCell] at h1 ⊢; omega
    · simp only [aheadCell] at h2 ⊢; omega
  | front =>
    obtain ⟨h1, h2, h3⟩ := h
    refine key (heading p) ?_ ?_ ?_ h3
    · rcases ha with rfl | rfl | rfl | rfl <;> simp [heading, units]
    · simp only [aheadCell] at h1 ⊢; omega
    · simp only [aheadCell] at h2 ⊢; omega
  | right =>
    obtain ⟨h1, h2, h3⟩ := h
    refine key (rightOf (heading p)) ?_ ?_ ?_ h3
    · rcases ha with rfl | rfl | rfl | rfl <;> simp [heading, units, rightOf]
    · simp only [aheadCell] at h1 ⊢; omega
    · simp only [aheadCell] at h2 ⊢; omega
  | left =>
    obtain ⟨h1, h2, h3⟩ := h
    refine key (-(rightOf (heading p)).1, -(rightOf (heading p)).2) ?_ ?_ ?_ h3
    · rcases ha with rfl | rfl | rfl | rfl <;> simp [heading, units, rightOf]
    · simp only [aheadCell] at h1 ⊢; omega
    · simp only [aheadCell] at h2 ⊢; omega
  | init => exact h.elim
  | final => exact h.elim

theorem openPose_at (hv : Valid W ⟨n.x, n.y⟩) (h : isWall ⟨n.x, n.y⟩ = false) : OpenPose W isWall n :=
  ⟨⟨n.x, n.y⟩, by simp, by simp, hv, h⟩

theorem openPose_wall (h : OpenPose W isWall n) : isWall ⟨n.x, n.y⟩ = false := by
  obtain ⟨c, h1, h2, -, h3⟩ := h
  have : c = ⟨n.x, n.y⟩ := by
    obtain ⟨x, y⟩ := c
    simp only [Search.Coord.mk.injEq] at h1 h2 ⊢
    omega
  exact this ▸ h3

/-- The mouse can get to every wall of a cell that is connected with the cell ahead. -/
theorem reach {A A' : V} {c : Search.Coord} (hn : SearchLegal W n) (ho : OpenPose W real n) (hA : Connected W real (aheadCell n) A)
    (hB : Between A c A') (hc : Valid W c) :
    ∃ v, SearchLegal W v ∧ v.x = c.x ∧ v.y = c.y ∧ aheadCell v = A' ∧ ∃ u, Relation.ReflTransGen (Hop W real) n u ∧ Hop W real u v := by
  have key : ∃ q, SearchLegal W q ∧ OpenPose W real q ∧ aheadCell q = A ∧ Relation.ReflTransGen (Hop W real) n q := by
    clear hB hc
    unfold Connected at hA
    induction hA with
    | refl => exact ⟨n, hn, ho, rfl, .refl⟩
    | tail _ h ih =>
      obtain ⟨q, h1, h2, h3, h4⟩ := ih
      obtain ⟨d, h5, h6, h7⟩ := h
      obtain ⟨v, g1, g2, g3, g4, g5⟩ := exit_move h1 h3 h5 h6
      have e : (⟨v.x, v.y⟩ : Search.Coord) = d := by rw [g2, g3]
      exact ⟨v, g1, openPose_at (by rw [e]; exact h6) (by rw [e]; exact h7), g4, h4.tail ⟨h2, g1, g5⟩⟩
  obtain ⟨q, h1, h2, h3, h4⟩ := key
  obtain ⟨v, g1, g2, g3, g4, g5⟩ := exit_move h1 h3 hB hc
  exact ⟨v, g1, g2, g3, g4, q, h4, h2, g1, g5⟩

/-- A step of a way that avoids the other next poses. -/
def WayHop (W : Nat) (isWall : Search.Coord → Bool) (cost : Pattern → Nat) (cur u v : Node) : Prop := ∃ w, wayEdges W isWall cost cur u w v

/-- The last of the next poses on a way. -/
theorem first_step (hle : ∀ c, real c = false → isWall c = false) {u v : Node} (h : Relation.ReflTransGen (Hop W real) cur u)
    (hv : Hop W real u v) (ho : OpenPose W isWall v) :
    ∃ x k, SearchMove W isWall cur k x ∧ (OpenPose W real x ∨ x = v) ∧ Relation.ReflTransGen (WayHop W isWall cost cur) x v := by
  have mono : ∀ x, OpenPose W real x → OpenPose W isWall x := by
    rintro x ⟨c, h1, h2, h3, h4⟩
    exact ⟨c, h1, h2, h3, hle c h4⟩
  induction h generalizing v with
  | refl =>
    obtain ⟨-, -, k, hk⟩ := hv
    exact ⟨v, k, ⟨hk, ho⟩, Or.inr rfl, .refl⟩
  | tail h1 h2 ih =>
    rename_i y u
    obtain ⟨g1, g2, k, g3⟩ := hv
    by_cases hs : ∃ k, SearchMove W isWall cur k v
    · obtain ⟨k, hk⟩ := hs
      exact ⟨v, k, hk, Or.inr rfl, .refl⟩
    · obtain ⟨x, k', h3, h4, h5⟩ := ih h2 (mono _ g1)
      refine ⟨x, k', h3, ?_, h5.tail ⟨_, mono _ g1, ⟨k, g3, rfl⟩, hs⟩⟩
      rcases h4 with h4 | rfl
      · exact Or.inl h4
      · exact Or.inl g1

/-! ## Simple ways -/

theorem trip_of {α : Type} {E : Edges α} {u v : α} (h : Relation.ReflTransGen (fun a b => ∃ w, E a w b) u v) :
    ∃ p c, Trip E u p c v := by
  induction h using Relation.ReflTransGen.head_induction_on with
  | refl => exact ⟨_, _, .here v⟩
  | head h _ ih =>
    obtain ⟨w, h⟩ := h
    obtain ⟨p, c, ih⟩ := ih
    exact ⟨_, _, .step h ih⟩

theorem trip_from {α : Type} {E : Edges α} {u v x : α} {p : List α} {c : Nat} (h : Trip E u p c v) (hx : x ∈ p) :
    ∃ p' c', Trip E x p' c' v ∧ p'.Sublist p ∧ c' ≤ c := by
  induction h with
  | here u =>
    rw [List.mem_singleton] at hx
    subst hx
    exact ⟨_, _, .here x, List.Sublist.refl _, Nat.le_refl _⟩
  | step he ht ih =>
    rcases List.mem_cons.mp hx with rfl | hx
    · exact ⟨_, _, .step he ht, List.Sublist.refl _, Nat.le_refl _⟩
    · obtain ⟨p', c', h1, h2, h3⟩ := ih hx
      exact ⟨p', c', h1, h2.cons _, by omega⟩

theorem trip_simple {α : Type} {E : Edges α} {u v : α} {p : List α} {c : Nat} (h : Trip E u p c v) :
    ∃ p' c', Trip E u p' c' v ∧ p'.Nodup ∧ c' ≤ c := by
  induction h with
  | here u => exact ⟨_, _, .here u, by simp, Nat.le_refl _⟩
  | step he ht ih =>
    rename_i u x v w c p
    obtain ⟨p', c', h1, h2, h3⟩ := ih
    by_cases hu : u ∈ p'
    · obtain ⟨p2, c2, h4, h5, h6⟩ := trip_from h1 hu
      exact ⟨p2, c2, h4, h5.nodup h2, by omega⟩
    · exact ⟨_, _, .step he h1, List.nodup_cons.mpr ⟨hu, h2⟩, by omega⟩

theorem trip_cost {α : Type} {E : Edges α} {u v : α} {p : List α} {c M : Nat} (h : Trip E u p c v) (hM : ∀ a w b, E a w b → w ≤ M) :
    c + M ≤ p.length * M := by
  induction h with
  | here u => simp
  | step he ht ih =>
    have := hM _ _ _ he
    rw [List.length_cons, Nat.succ_mul]
    omega

theorem way_legal {u v : Node} {p : List Node} {c : Nat} (hv : SearchLegal W v) (h : Trip (wayEdges W isWall cost cur) u p c v) :
    ∀ x ∈ p, SearchLegal W x := by
  induction h with
  | here u => intro x hx; rw [List.mem_singleton] at hx; exact hx ▸ hv
  | step he ht ih =>
    rename_i u x v w c p
    have ih := ih hv
    intro y hy
    rcases List.mem_cons.mp hy with rfl | hy
    · obtain ⟨h1, ⟨k, h2, -⟩, -⟩ := he
      have hx : SearchLegal W x := ih x (by cases ht <;> simp)
      exact openPose_legal h1 h2 hx
    · exact ih y hy

/-- A reachable target is reached for less than the largest cost. -/
theorem least_below {MAX M : Nat} (hM : ∀ k ∈ moves, cost (kindPattern k) ≤ M) (hlt : 4 * (W * W) * M < MAX) {k : SearchKind} {S : List Node}
    (hk : SearchMove W isWall cur k n) {v : Node} (hv : SearchLegal W v) (hS : v ∈ S)
    (h : Relation.ReflTransGen (WayHop W isWall cost cur) n v) :
    ∃ t, LeastTotal W isWall cost cur S n t ∧ t < MAX := by
  obtain ⟨p, c, h1⟩ := trip_of h
  obtain ⟨p', c', h2, h3, -⟩ := trip_simple h1
  have h4 := few_nodes h3 (way_legal hv h2)
  have h5 := trip_cost (M := M) h2 (by rintro a w b ⟨-, ⟨k, hk, rfl⟩, -⟩; exact hM k (turns_kind hk))
  have h6 := hM k (turns_kind hk.1)
  have h7 : p'.length * M ≤ 4 * (W * W) * M := Nat.mul_le_mul_right _ h4
  have hex : ∃ t, Total W isWall cost cur S n t := ⟨_, k, p', c', v, hk, h2, hS, rfl⟩
  classical
  refine ⟨Nat.find hex, ⟨Nat.find_spec hex, fun t' h' => Nat.find_min' hex h'⟩, ?_⟩
  have : Nat.find hex ≤ cost (kindPattern k) + c' := Nat.find_min' hex ⟨k, p', c', v, hk, h2, hS, rfl⟩
  omega

/-! ## Walks by index -/

theorem walk_length {C : V} {cs : List Search.Coord} {cells : List V} (h : CellWalk C cs cells) : cells.length = cs.length + 1 := by
  induction h with
  | stay C => rfl
  | step C D c cs cells hb hw ih => simp [ih]

theorem walk_head {C : V} {cs : List Search.Coord} {cells : List V} (h : CellWalk C cs cells) : cells[0]? = some C := by
  cases h <;> rfl

theorem walk_get {C : V} {cs : List Search.Coord} {cells : List V} (h : CellWalk C cs cells) :
    ∀ (i : Nat) (c : Search.Coord), cs[i]? = some c → ∃ A B, cells[i]? = some A ∧ cells[i + 1]? = some B ∧ Between A c B := by
  induction h with
  | stay C => intro i c h; simp at h
  | step C D d cs cells hb hw ih =>
    intro i c h
    cases i with
    | zero =>
      simp only [List.getElem?_cons_zero, Option.some.injEq] at h
      subst h
      exact ⟨C, D, rfl, by simpa using walk_head hw, hb⟩
    | succ i =>
      simp only [List.getElem?_cons_succ] at h ⊢
      exact ih i c h

/-- Stretches of a walk across open walls. -/
theorem walk_connected {C : V} {cs : List Search.Coord} {cells : List V} (h : CellWalk C cs cells) (i : Nat) :
    ∀ (j : Nat), (∀ k c, i ≤ k → k < i + j → cs[k]? = some c → Valid W c ∧ isWall c = false) → i + j ≤ cs.length →
      ∃ A B, cells[i]? = some A ∧ cells[i + j]? = some B ∧ Connected W isWall A B
  | 0, _, hl => by
    have := walk_length h
    have : i < cells.length := by omega
    exact ⟨cells[i], cells[i], by simp [this], by simp [this], .refl⟩
  | j + 1, hopen, hl => by
    obtain ⟨A, B, h1, h2, h3⟩ := walk_connected h i j (fun k c hk hk' => hopen k c hk (by omega)) (by omega)
    have hlt : i + j < cs.length := by omega
    obtain ⟨A', B', h4, h5, h6⟩ := walk_get h (i + j) cs[i + j] (by simp [hlt])
    rw [h2] at h4
    cases h4
    obtain ⟨h7, h8⟩ := hopen (i + j) cs[i + j] (by omega) (by omega) (by simp [hlt])
    exact ⟨A, B', h1, h5, h3.tail ⟨_, h6, h7, h8⟩⟩

end Verif.Proof.OldS
