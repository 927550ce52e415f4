/-! # Shortlex order on lists of numbers (used to compare paths) -/
namespace Verif

def lexLt : List Nat → List Nat → Prop
  | a :: as, b :: bs => a < b ∨ (a = b ∧ lexLt as bs)
  | _, _ => False

/-- Shorter first, lexicographic for equal lengths. -/
def sl (a b : List Nat) : Prop := a.length < b.length ∨ (a.length = b.length ∧ lexLt a b)

theorem lexLt_irrefl : ∀ a, ¬ lexLt a a
  | [] => by simp [lexLt]
  | a :: as => by simp [lexLt, lexLt_irrefl as]

theorem lexLt_trans : ∀ {a b c}, lexLt a b → lexLt b c → lexLt a c
  | a :: as, b :: bs, c :: cs => by
    simp only [lexLt]
    rintro (h | ⟨rfl, h⟩) (h' | ⟨rfl, h'⟩)
    · left; omega
    · left; omega
    · left; omega
    · right; exact ⟨rfl, lexLt_trans h h'⟩
  | [], _, _ => by simp [lexLt]
  | _ :: _, [], _ => by simp [lexLt]
  | _ :: _, _ :: _, [] => by simp [lexLt]

theorem lexLt_tri : ∀ {a b : List Nat}, a.length = b.length → lexLt a b ∨ a = b ∨ lexLt b a
  | [], [] => by simp
  | a :: as, b :: bs => by
    intro h
    have := @lexLt_tri as bs (by simpa using h)
    simp only [lexLt, List.cons.injEq]
    rcases Nat.lt_trichotomy a b with h | h | h
    · simp [h]
    · subst h; simp only [true_and]; rcases this with h | h | h <;> simp [h]
    · simp [h]
  | [], _ :: _ => by simp
  | _ :: _, [] => by simp

theorem lexLt_append : ∀ {a b : List Nat} (c d : List Nat), a.length = b.length → lexLt a b →
    lexLt (a ++ c) (b ++ d)
  | [], _, _, _ => by simp [lexLt]
  | _ :: _, [], _, _ => by simp [lexLt]
  | a :: as, b :: bs, c, d => by
    intro hl h
    simp only [lexLt, List.cons_append] at h ⊢
    rcases h with h | ⟨h, h'⟩
    · left; exact h
    · right; exact ⟨h, lexLt_append c d (by simpa using hl) h'⟩

theorem lexLt_append_left : ∀ (a : List Nat) {c d : List Nat}, lexLt c d → lexLt (a ++ c) (a ++ d)
  | [], _, _, h => h
  | a :: as, _, _, h => by
    simp only [lexLt, List.cons_append, Nat.lt_irrefl, true_and, false_or]
    exact lexLt_append_left as h

theorem sl_irrefl (a) : ¬ sl a a := by simp [sl, lexLt_irrefl]

theorem sl_trans {a b c} (h : sl a b) (h' : sl b c) : sl a c := by
  rcases h with h | ⟨h, hl⟩ <;> rcases h' with h' | ⟨h', hl'⟩
  · left; omega
  · left; omega
  · left; omega
  · right; exact ⟨by omega, lexLt_trans hl hl'⟩

theorem sl_tri (a b) : sl a b ∨ a = b ∨ sl b a := by
  rcases Nat.lt_trichotomy a.length b.length with h | h | h
  · left; left; exact h
  · rcases lexLt_tri h with h' | h' | h'
    · left; right; exact ⟨h, h'⟩
    · right; left; exact h'
    · right; right; right; exact ⟨h.symm, h'⟩
  · right; right; left; exact h

theorem sl_asymm {a b} (h : sl a b) : ¬ sl b a := fun h' => sl_irrefl _ (sl_trans h h')

/-- `a ≤ b` in shortlex order. -/
def sle (a b : List Nat) : Prop := sl a b ∨ a = b

theorem sle_refl (a) : sle a a := .inr rfl
theorem sle_trans {a b c} (h : sle a b) (h' : sle b c) : sle a c := by
  rcases h with h | rfl
  · rcases h' with h' | rfl
    · exact .inl (sl_trans h h')
    · exact .inl h
  · exact h'
theorem sl_of_sle_of_sl {a b c} (h : sle a b) (h' : sl b c) : sl a c := by
  rcases h with h | rfl
  · exact sl_trans h h'
  · exact h'
theorem sl_of_sl_of_sle {a b c} (h : sl a b) (h' : sle b c) : sl a c := by
  rcases h' with h' | rfl
  · exact sl_trans h h'
  · exact h
theorem sle_of_not_sl {a b} (h : ¬ sl a b) : sle b a := by
  rcases sl_tri a b with h' | h' | h'
  · exact absurd h' h
  · exact .inr h'.symm
  · exact .inl h'
theorem not_sl_of_sle {a b} (h : sle a b) : ¬ sl b a := by
  rcases h with h | rfl
  · exact sl_asymm h
  · exact sl_irrefl _
theorem sle_antisymm {a b} (h : sle a b) (h' : sle b a) : a = b := by
  rcases h with h | h
  · exact absurd h (not_sl_of_sle h')
  · exact h

theorem sl_snoc {a b} (x y : Nat) (h : sl a b) : sl (a ++ [x]) (b ++ [y]) := by
  rcases h with h | ⟨h, h'⟩
  · left; simpa using h
  · right; exact ⟨by simpa using h, lexLt_append _ _ h h'⟩

theorem sl_snoc_self (a : List Nat) {x y : Nat} (h : x < y) : sl (a ++ [x]) (a ++ [y]) :=
  .inr ⟨by simp, lexLt_append_left a (by simp [lexLt, h])⟩

theorem sl_append_one (a : List Nat) (x : Nat) : sl a (a ++ [x]) := .inl (by simp)

theorem sle_length {a b} (h : sle a b) : a.length ≤ b.length := by
  rcases h with (h | ⟨h, -⟩) | rfl <;> omega

end Verif
