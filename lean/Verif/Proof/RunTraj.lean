import Verif.Proof.RunSucc2
/-! Trajectories of moves. -/
namespace Verif.Proof
open Verif Verif.Run Verif.Spec

variable {W : Nat} {n : Node}

theorem inFrame_inj (p : Posture) (c d : V) (h : inFrame (e1 p) (e2 p) c = inFrame (e1 p) (e2 p) d) : c = d := by
  obtain ⟨c1, c2⟩ := c
  obtain ⟨d1, d2⟩ := d
  cases p <;> simp only [inFrame, e1, e2, Prod.mk.injEq] at * <;> omega

theorem relative_eq (m : Node) (hn1 : n.x < 128) (hn2 : n.y < 128) (hm1 : m.x < 128) (hm2 : m.y < 128) :
    ∃ dx dy p, n.relative m = .ok (dx, dy, p) ∧
      inFrame (e1 n.posture) (e2 n.posture) (dx, dy) = ((m.x : Int) - n.x, (m.y : Int) - n.y) ∧
      heading m.posture = inFrame (e1 n.posture) (e2 n.posture) (heading p) := by
  unfold Node.relative
  rw [asI8_small _ hn1, asI8_small _ hn2, asI8_small _ hm1, asI8_small _ hm2]
  generalize (m.x : Int) - n.x = a
  generalize (m.y : Int) - n.y = b
  cases n.posture <;> cases m.posture <;>
    exact ⟨_, _, _, rfl, by simp [inFrame, e1, e2], by rfl⟩

theorem rel_iff (m : Node) (dx dy : Int) (p : Posture) (d h : V)
    (h1 : inFrame (e1 n.posture) (e2 n.posture) (dx, dy) = ((m.x : Int) - n.x, (m.y : Int) - n.y))
    (h2 : heading m.posture = inFrame (e1 n.posture) (e2 n.posture) (heading p)) :
    ((m.x : Int) = n.x + (inFrame (e1 n.posture) (e2 n.posture) d).1 ∧
     (m.y : Int) = n.y + (inFrame (e1 n.posture) (e2 n.posture) d).2 ∧
     heading m.posture = inFrame (e1 n.posture) (e2 n.posture) h) ↔ (dx = d.1 ∧ dy = d.2 ∧ heading p = h) := by
  constructor
  · rintro ⟨a, b, c⟩
    have hd : inFrame (e1 n.posture) (e2 n.posture) (dx, dy) = inFrame (e1 n.posture) (e2 n.posture) d := by
      rw [h1]; ext <;> simp only <;> omega
    have := inFrame_inj _ _ _ hd
    have h' := inFrame_inj _ _ _ (h2.symm.trans c)
    subst this
    exact ⟨rfl, rfl, h'⟩
  · rintro ⟨rfl, rfl, rfl⟩
    have : d = (d.1, d.2) := rfl
    rw [this] 
    rw [h1]
    exact ⟨by simp only; omega, by simp only; omega, h2⟩

theorem trajOf_congr (a b : Prop) [Decidable a] [Decidable b] (h : a ↔ b) (s k) : trajOf a s k = trajOf b s k := by
  unfold trajOf
  simp only [h]

theorem cross_centre (p : Posture) (σ : Int) (h : σ = 1 ∨ σ = -1) :
    (cross (e2 p) (σ * (e1 p).1, σ * (e1 p).2) < 0) ↔ σ = 1 := by
  rcases h with rfl | rfl <;> cases p <;> decide

theorem leads_centre (m : Node) (hn : Legal W n) (hc : n.x % 2 = 0 ∧ n.y % 2 = 0) (dx dy : Int) (p : Posture)
    (h1 : inFrame (e1 n.posture) (e2 n.posture) (dx, dy) = ((m.x : Int) - n.x, (m.y : Int) - n.y))
    (h2 : heading m.posture = inFrame (e1 n.posture) (e2 n.posture) (heading p)) (t : TrajectoryKind) :
    (∃ k, Leads n k m t) ↔ ∃ (σ : Int) (k : EdgeKind) (fin head : V) (cr : List V), (σ = 1 ∨ σ = -1) ∧
      FromCentre k fin head cr ∧ (dx = σ * fin.2 ∧ dy = fin.1 ∧ heading p = (σ * head.2, head.1)) ∧
      trajOf True (if σ = 1 then .right else .left) k = some t := by
  unfold Leads Shape
  rw [if_pos hc]
  constructor
  · rintro ⟨k, f, s, fin, head, cr, hf, hsh, hx, hy, hh, ht⟩
    obtain ⟨σ, hσ, rfl, rfl⟩ := (centre_frame hn hc f s).mp hf
    rw [inFrame_centre] at hx hy hh
    refine ⟨σ, k, fin, head, cr, hσ, hsh, (rel_iff m dx dy p (σ * fin.2, fin.1) _ h1 h2).mp ⟨hx, hy, hh⟩, ?_⟩
    rw [← ht, trajOf_congr (n.x % 2 = 0 ∧ n.y % 2 = 0) True (by simpa using hc)]
    simp only [cross_centre _ _ hσ]
  · rintro ⟨σ, k, fin, head, cr, hσ, hsh, hr, ht⟩
    obtain ⟨hx, hy, hh⟩ := (rel_iff m dx dy p (σ * fin.2, fin.1) _ h1 h2).mpr hr
    refine ⟨k, _, _, fin, head, cr, (centre_frame hn hc _ _).mpr ⟨σ, hσ, rfl, rfl⟩, hsh, ?_, ?_, ?_, ?_⟩
    · rw [inFrame_centre]; exact hx
    · rw [inFrame_centre]; exact hy
    · rw [inFrame_centre]; exact hh
    · rw [← ht, trajOf_congr (n.x % 2 = 0 ∧ n.y % 2 = 0) True (by simpa using hc)]
      simp only [cross_centre _ _ hσ]

theorem cross_wall (L : Bool) (p : Posture) :
    (cross (if L then e1 p else e2 p) (if L then e2 p else e1 p) < 0) ↔ L = false := by
  cases L <;> cases p <;> decide

theorem leads_wall (m : Node) (hn : Legal W n) (hc : ¬ (n.x % 2 = 0 ∧ n.y % 2 = 0)) (dx dy : Int) (p : Posture)
    (h1 : inFrame (e1 n.posture) (e2 n.posture) (dx, dy) = ((m.x : Int) - n.x, (m.y : Int) - n.y))
    (h2 : heading m.posture = inFrame (e1 n.posture) (e2 n.posture) (heading p)) (t : TrajectoryKind) :
    (∃ k, Leads n k m t) ↔ ∃ (k : EdgeKind) (fin head : V) (cr : List V),
      FromWall k fin head cr ∧ (dx = (sw (IsLeft n) fin).1 ∧ dy = (sw (IsLeft n) fin).2 ∧ heading p = sw (IsLeft n) head) ∧
      trajOf False (if IsLeft n then .left else .right) k = some t := by
  unfold Leads Shape
  rw [if_neg hc]
  have hside : ∀ L : Bool, (if (cross (if L then e1 n.posture else e2 n.posture) (if L then e2 n.posture else e1 n.posture) < 0)
      then SlalomDirection.right else .left) = (if L then .left else .right) := by
    intro L
    cases L
    · rw [if_pos ((cross_wall _ _).mpr rfl)]; rfl
    · rw [if_neg (fun h => by simpa using (cross_wall _ _).mp h)]; rfl
  constructor
  · rintro ⟨k, f, s, fin, head, cr, hf, hsh, hx, hy, hh, ht⟩
    obtain ⟨rfl, rfl⟩ := (wall_frame hn hc f s).mp hf
    rw [inFrame_wall] at hx hy hh
    refine ⟨k, fin, head, cr, hsh, (rel_iff m dx dy p _ _ h1 h2).mp ⟨hx, hy, hh⟩, ?_⟩
    rw [← ht, trajOf_congr (n.x % 2 = 0 ∧ n.y % 2 = 0) False (by simpa using hc), hside]
  · rintro ⟨k, fin, head, cr, hsh, hr, ht⟩
    obtain ⟨hx, hy, hh⟩ := (rel_iff m dx dy p _ _ h1 h2).mpr hr
    refine ⟨k, _, _, fin, head, cr, (wall_frame hn hc _ _).mpr ⟨rfl, rfl⟩, hsh, ?_, ?_, ?_, ?_⟩
    · rw [inFrame_wall]; exact hx
    · rw [inFrame_wall]; exact hy
    · rw [inFrame_wall]; exact hh
    · rw [← ht, trajOf_congr (n.x % 2 = 0 ∧ n.y % 2 = 0) False (by simpa using hc), hside]

theorem heading_eq (p : Posture) (q : Posture) (h : heading p = heading q) : p = q := heading_inj _ _ h

theorem kindCentre_iff (dx dy : Int) (p : Posture) (t : TrajectoryKind) :
    kindCentre dx dy p = some t ↔ ∃ (σ : Int) (k : EdgeKind) (fin head : V) (cr : List V), (σ = 1 ∨ σ = -1) ∧
      FromCentre k fin head cr ∧ (dx = σ * fin.2 ∧ dy = fin.1 ∧ heading p = (σ * head.2, head.1)) ∧
      trajOf True (if σ = 1 then .right else .left) k = some t := by
  constructor
  · intro h
    unfold kindCentre at h
    split at h
    · rename_i hh
      obtain ⟨h1, h2, h3, h4⟩ := hh
      refine ⟨1, .straight (dy.toNat >>> 1), _, _, _, Or.inl rfl, .straight _ ?_, ⟨?_, ?_, ?_⟩, ?_⟩
      · rw [Nat.shiftRight_eq_div_pow]; omega
      · simpa using h1
      · rw [Nat.shiftRight_eq_div_pow]; simp only; omega
      · rw [h2]; rfl
      · exact h
    · repeat (first
        | (split at h
           · rename_i hh
             obtain ⟨rfl, rfl, rfl⟩ := hh
             first
             | exact ⟨1, _, _, _, _, Or.inl rfl, .slalom45, by decide, h⟩
             | exact ⟨1, _, _, _, _, Or.inl rfl, .slalom90, by decide, h⟩
             | exact ⟨1, _, _, _, _, Or.inl rfl, .slalom135, by decide, h⟩
             | exact ⟨1, _, _, _, _, Or.inl rfl, .slalom180, by decide, h⟩
             | exact ⟨-1, _, _, _, _, Or.inr rfl, .slalom45, by decide, h⟩
             | exact ⟨-1, _, _, _, _, Or.inr rfl, .slalom90, by decide, h⟩
             | exact ⟨-1, _, _, _, _, Or.inr rfl, .slalom135, by decide, h⟩
             | exact ⟨-1, _, _, _, _, Or.inr rfl, .slalom180, by decide, h⟩)
        | cases h)
  · rintro ⟨σ, k, fin, head, cr, hσ, hsh, ⟨rfl, rfl, hh⟩, ht⟩
    cases hsh with
    | straight n hn =>
      have hp : p = .north := heading_inj p .north (by rw [hh]; simp [heading])
      subst hp
      rw [← ht]
      unfold kindCentre
      rw [if_pos ⟨by simp, rfl, by simp only; omega, by simp only; omega⟩]
      have : (2 * (n : Int)).toNat >>> 1 = n := by rw [Nat.shiftRight_eq_div_pow]; omega
      simp only [this]
      rfl
    | slalom45 =>
      rcases hσ with rfl | rfl
      · have hp : p = .northEast := heading_inj _ _ (by rw [hh]; rfl)
        subst hp; exact ht
      · have hp : p = .northWest := heading_inj _ _ (by rw [hh]; rfl)
        subst hp; exact ht
    | slalom90 =>
      rcases hσ with rfl | rfl
      · have hp : p = .east := heading_inj _ _ (by rw [hh]; rfl)
        subst hp; exact ht
      · have hp : p = .west := heading_inj _ _ (by rw [hh]; rfl)
        subst hp; exact ht
    | slalom135 =>
      rcases hσ with rfl | rfl
      · have hp : p = .southEast := heading_inj _ _ (by rw [hh]; rfl)
        subst hp; exact ht
      · have hp : p = .southWest := heading_inj _ _ (by rw [hh]; rfl)
        subst hp; exact ht
    | slalom180 =>
      rcases hσ with rfl | rfl
      · have hp : p = .south := heading_inj _ _ (by rw [hh]; rfl)
        subst hp; exact ht
      · have hp : p = .south := heading_inj _ _ (by rw [hh]; rfl)
        subst hp; exact ht

theorem kindWall_iff (L : Bool) (dx dy : Int) (p : Posture) (t : TrajectoryKind) :
    (if L then kindLeft dx dy p else kindRight dx dy p) = some t ↔ ∃ (k : EdgeKind) (fin head : V) (cr : List V),
      FromWall k fin head cr ∧ (dx = (sw L fin).1 ∧ dy = (sw L fin).2 ∧ heading p = sw L head) ∧
      trajOf False (if L then .left else .right) k = some t := by
  constructor
  · intro h
    cases L <;> simp only [if_true, Bool.false_eq_true, if_false] at h <;> (first | unfold kindLeft at h | unfold kindRight at h) <;>
    · split at h
      · rename_i hh
        obtain ⟨h1, h2, h3⟩ := hh
        refine ⟨.straightDiagonal dx.toNat, _, _, _, .straightDiagonal _ (by omega), ⟨?_, ?_, ?_⟩, ?_⟩
        · show dx = (dx.toNat : Int); omega
        · show dy = (dx.toNat : Int); omega
        · rw [h1]; rfl
        · exact h
      · repeat (first
          | (split at h
             · rename_i hh
               obtain ⟨rfl, rfl, rfl⟩ := hh
               first
               | exact ⟨_, _, _, _, .slalom45, by decide, h⟩
               | exact ⟨_, _, _, _, .slalomDiagonal90, by decide, h⟩
               | exact ⟨_, _, _, _, .slalom135, by decide, h⟩)
          | cases h)
  · rintro ⟨k, fin, head, cr, hsh, ⟨rfl, rfl, hh⟩, ht⟩
    cases hsh with
    | straightDiagonal n hn =>
      have hp : p = .northEast := heading_inj p .northEast (by rw [hh]; cases L <;> rfl)
      subst hp
      rw [← ht]
      cases L <;>
      · simp only [sw, Bool.false_eq_true, if_false, if_true, kindLeft, kindRight]
        rw [if_pos ⟨trivial, trivial, by omega⟩]
        simp [trajOf]
    | slalom45 =>
      cases L
      · have hp : p = .east := heading_inj _ _ (by rw [hh]; rfl)
        subst hp; exact ht
      · have hp : p = .north := heading_inj _ _ (by rw [hh]; rfl)
        subst hp; exact ht
    | slalomDiagonal90 =>
      cases L
      · have hp : p = .southEast := heading_inj _ _ (by rw [hh]; rfl)
        subst hp; exact ht
      · have hp : p = .northWest := heading_inj _ _ (by rw [hh]; rfl)
        subst hp; exact ht
    | slalom135 =>
      cases L
      · have hp : p = .south := heading_inj _ _ (by rw [hh]; rfl)
        subst hp; exact ht
      · have hp : p = .west := heading_inj _ _ (by rw [hh]; rfl)
        subst hp; exact ht

/-- `trajectory_kind` finds exactly the trajectories that lead from one pose to the other. -/
theorem trajectoryKind_iff (hW : W ≤ 64) (m : Node) (hn : Legal W n) (hm : Legal W m) :
    ∃ o, n.trajectoryKind m = .ok o ∧ ∀ t, o = some t ↔ ∃ k, Leads n k m t := by
  obtain ⟨dx, dy, p, hr, h1, h2⟩ := relative_eq (n := n) m (by have := hn.1; omega) (by have := hn.2.1; omega)
    (by have := hm.1; omega) (by have := hm.2.1; omega)
  by_cases hc : n.x % 2 = 0 ∧ n.y % 2 = 0
  · refine ⟨kindCentre dx dy p, ?_, fun t => (kindCentre_iff dx dy p t).trans (leads_centre m hn hc dx dy p h1 h2 t).symm⟩
    unfold Node.trajectoryKind
    rw [hr, and_one, and_one, hc.1, hc.2]
    obtain ⟨_, _, ⟨h, h', hp⟩ | ⟨h, hp⟩⟩ := hn
    · cases hq : n.posture <;> simp [hq] at hp ⊢ <;> rfl
    · omega
  · refine ⟨if IsLeft n then kindLeft dx dy p else kindRight dx dy p, ?_,
      fun t => (kindWall_iff (IsLeft n) dx dy p t).trans (leads_wall m hn hc dx dy p h1 h2 t).symm⟩
    unfold Node.trajectoryKind IsLeft
    rw [hr, and_one, and_one]
    obtain ⟨_, _, ⟨h, h', hp⟩ | ⟨h, hp⟩⟩ := hn
    · omega
    · have : (n.x % 2 = 1 ∧ n.y % 2 = 0) ∨ (n.x % 2 = 0 ∧ n.y % 2 = 1) := by omega
      rcases this with ⟨a, b⟩ | ⟨a, b⟩ <;> rw [a, b] <;> cases hq : n.posture <;> simp [hq] at hp ⊢ <;> rfl

end Verif.Proof
