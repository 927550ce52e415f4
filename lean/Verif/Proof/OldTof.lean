import Verif.Spec.OldSensors
import Verif.Proof.OldSim
import Verif.Proof.OldPatrol
/-!
# The former distance sensors
-/
namespace Verif.Proof.OldZ
open Verif Verif.Spec Verif.Old.Sensors Verif.Old.Manager Verif.Old.Search Verif.Proof.OldE
open Verif.Old.Detect hiding State
open Verif.Detect (Pose)

variable {w : Verif.Tof.World}

theorem not_asks_of {address : Nat} {piece : Verif.Tof.Log} (h : ∀ e ∈ piece, e.1 ≠ startOp address) : ¬ Asks address piece ∧ ¬ AsksInVain address piece :=
  ⟨fun ⟨_, hx⟩ => h _ hx rfl, fun hx => h _ hx rfl⟩

theorem delivers_not {address mm : Nat} {piece : Verif.Tof.Log} (h : Delivers address mm piece) : ∀ e ∈ piece, e.1 ≠ startOp address := by
  obtain ⟨s, x, -, rfl⟩ := h
  intro e he
  simp only [List.mem_cons, List.not_mem_nil, or_false] at he
  rcases he with rfl | rfl | rfl <;> simp [startOp, regBytes]

/-- What a call does. -/
theorem call_cases (t : Tof) (w : Verif.Tof.World) (log : Verif.Tof.Log) :
    (t.dev.state = .idle ∧ ∃ e, t.getDistance w log = (.error e, t, log ++ [(startOp t.dev.address, none)])) ∨
    (t.dev.state = .idle ∧ ∃ x, t.getDistance w log = (.error .wouldBlock, { t with dev.state := .waiting }, log ++ [(startOp t.dev.address, some x)])) ∨
    (t.dev.state = .waiting ∧ ∃ e piece, t.getDistance w log = (.error e, t, log ++ piece) ∧ ∀ e ∈ piece, e.1 ≠ startOp t.dev.address) ∨
    (t.dev.state = .waiting ∧ ∃ (mm : Nat) (piece : Verif.Tof.Log), t.getDistance w log = (.ok (t.a * ((mm : ℝ) / 1000) + t.b, 0.04), { t with dev.state := .idle }, log ++ piece) ∧ Delivers t.dev.address mm piece) := by
  unfold Tof.getDistance
  cases hs : t.dev.state with
  | idle =>
    dsimp only
    unfold Verif.Tof.Tof.writeReg Verif.Tof.perform
    dsimp only
    split
    · rename_i e log' h
      split at h
      · rename_i h'
        split at h'
        · cases h'
        · cases h'; cases h
      · rename_i h'
        split at h'
        · cases h'; cases h
          exact .inl ⟨rfl, _, rfl⟩
        · cases h'
    · rename_i e log' h
      split at h
      · rename_i h'
        split at h'
        · cases h'
        · cases h'; cases h
          exact .inr (.inl ⟨rfl, _, rfl⟩)
      · rename_i h'
        cases h
  | waiting =>
    dsimp only
    unfold Verif.Tof.Tof.writeReg Verif.Tof.Tof.readReg Verif.Tof.perform
    dsimp only
    have hne : ∀ (r x) (e : Verif.Tof.Op × Option Nat), e ∈ [((Verif.Tof.Op.writeRead t.dev.address r, x) : Verif.Tof.Op × Option Nat)] → e.1 ≠ startOp t.dev.address := by
      intro r x e he
      simp only [List.mem_cons, List.not_mem_nil, or_false] at he
      rw [he]
      simp [startOp]
    cases h1 : w log (.writeRead t.dev.address [(Verif.Tof.split 0x4F).1, (Verif.Tof.split 0x4F).2]) with
    | none => exact .inr (.inr (.inl ⟨rfl, _, _, rfl, hne _ _⟩))
    | some s =>
      dsimp only
      by_cases hb : s &&& 4 ≠ 4
      · rw [if_pos hb]
        exact .inr (.inr (.inl ⟨rfl, _, _, rfl, hne _ _⟩))
      · rw [if_neg hb]
        cases h2 : w (log ++ [(.writeRead t.dev.address [(Verif.Tof.split 0x4F).1, (Verif.Tof.split 0x4F).2], some s)])
            (.writeRead t.dev.address [(Verif.Tof.split 0x62).1, (Verif.Tof.split 0x62).2]) with
        | none =>
          refine .inr (.inr (.inl ⟨rfl, .other, _, by dsimp only; rw [List.append_assoc], ?_⟩))
          intro e he
          rcases List.mem_append.1 he with he | he
          · exact hne _ _ e he
          · exact hne _ _ e he
        | some mm =>
          dsimp only
          cases h3 : w (log ++ [(.writeRead t.dev.address [(Verif.Tof.split 0x4F).1, (Verif.Tof.split 0x4F).2], some s)] ++
              [(.writeRead t.dev.address [(Verif.Tof.split 0x62).1, (Verif.Tof.split 0x62).2], some mm)])
              (.write t.dev.address [(Verif.Tof.split 0x15).1, (Verif.Tof.split 0x15).2, 7]) with
          | none =>
            refine .inr (.inr (.inl ⟨rfl, .other, _, by dsimp only; rw [List.append_assoc, List.append_assoc], ?_⟩))
            intro e he
            rcases List.mem_append.1 he with he | he
            · exact hne _ _ e he
            rcases List.mem_append.1 he with he | he
            · exact hne _ _ e he
            · simp only [List.mem_cons, List.not_mem_nil, or_false] at he
              rw [he]
              simp [startOp, regBytes, Verif.Tof.split]
          | some x =>
            refine .inr (.inr (.inr ⟨rfl, mm, _, by dsimp only; rw [List.append_assoc, List.append_assoc], s, x, not_not.1 hb, ?_⟩))
            simp [regBytes, Verif.Tof.split]

/-- Two drivers of the same device, except for the state. -/
def SameSettings (t t' : Tof) : Prop := t'.dev.address = t.dev.address ∧ t'.pose = t.pose ∧ t'.a = t.a ∧ t'.b = t.b

/-- One call, for use in histories: the piece of the log it writes. -/
theorem step_cases {t t' : Tof} {log piece : Verif.Tof.Log} {r : Except Verif.Tof.Err (ℝ × ℝ)} (h : t.getDistance w log = (r, t', log ++ piece)) :
    SameSettings t t' ∧
    ((t.dev.state = .idle ∧ t'.dev.state = .idle ∧ r.toOption = none ∧ AsksInVain t.dev.address piece ∧ ¬ Asks t.dev.address piece) ∨
    (t.dev.state = .idle ∧ t'.dev.state = .waiting ∧ r.toOption = none ∧ Asks t.dev.address piece) ∨
    (t.dev.state = .waiting ∧ t'.dev.state = .waiting ∧ r.toOption = none ∧ ¬ Asks t.dev.address piece) ∨
    (t.dev.state = .waiting ∧ t'.dev.state = .idle ∧ ¬ Asks t.dev.address piece ∧ ∃ mm : Nat, r.toOption = some (t.a * (mm / 1000) + t.b, 0.04) ∧ Delivers t.dev.address mm piece)) := by
  rcases call_cases t w log with ⟨h0, e, h1⟩ | ⟨h0, x, h1⟩ | ⟨h0, e, p, h1, h2⟩ | ⟨h0, mm, p, h1, h2⟩ <;> rw [h1] at h <;>
    simp only [Prod.mk.injEq, List.append_cancel_left_eq] at h <;> obtain ⟨rfl, rfl, rfl⟩ := h
  · refine ⟨⟨rfl, rfl, rfl, rfl⟩, .inl ⟨h0, h0, rfl, List.mem_singleton.2 rfl, ?_⟩⟩
    rintro ⟨y, hy⟩
    simp at hy
  · exact ⟨⟨rfl, rfl, rfl, rfl⟩, .inr (.inl ⟨h0, rfl, rfl, x, List.mem_singleton.2 rfl⟩)⟩
  · exact ⟨⟨rfl, rfl, rfl, rfl⟩, .inr (.inr (.inl ⟨h0, h0, rfl, (not_asks_of h2).1⟩))⟩
  · exact ⟨⟨rfl, rfl, rfl, rfl⟩, .inr (.inr (.inr ⟨h0, rfl, (not_asks_of (delivers_not h2)).1, mm, rfl, h2⟩))⟩

theorem polls_settings {t0 t : Tof} {l : List (Verif.Tof.Log × Option (ℝ × ℝ))} (h : Polls w t0 l t) : SameSettings t0 t := by
  induction h with
  | nil => exact ⟨rfl, rfl, rfl, rfl⟩
  | snoc l t log r t' piece _ hs ih =>
    obtain ⟨⟨a1, a2, a3, a4⟩, -⟩ := step_cases hs
    exact ⟨a1.trans ih.1, a2.trans ih.2.1, a3.trans ih.2.2.1, a4.trans ih.2.2.2⟩

theorem polls_prefix {t0 t : Tof} {l : List (Verif.Tof.Log × Option (ℝ × ℝ))} (h : Polls w t0 l t) :
    ∀ a x c, l = a ++ x :: c → ∃ t1 log r t2, Polls w t0 a t1 ∧ t1.getDistance w log = (r, t2, log ++ x.1) ∧ x.2 = r.toOption := by
  induction h with
  | nil => intro a x c h; simp at h
  | snoc l t log r t' piece hp hs ih =>
    intro a x c h
    rcases List.eq_nil_or_concat c with rfl | ⟨c', y, rfl⟩
    · obtain ⟨rfl, h2⟩ := List.append_inj' h rfl
      cases h2
      exact ⟨t, log, r, t', hp, hs, rfl⟩
    · have h' : l ++ [(piece, r.toOption)] = (a ++ x :: c') ++ [y] := by rw [h]; simp
      obtain ⟨h1, -⟩ := List.append_inj' h' rfl
      exact ih a x c' h1

/-- A request that has not been answered. -/
def Open (address : Nat) (l : List (Verif.Tof.Log × Option (ℝ × ℝ))) : Prop :=
  ∃ a r b, l = a ++ r :: b ∧ Asks address r.1 ∧ r.2 = none ∧ ∀ x ∈ b, x.2 = none ∧ ¬ Asks address x.1

theorem polls_inv {t0 t : Tof} {l : List (Verif.Tof.Log × Option (ℝ × ℝ))} (h : Polls w t0 l t) (h0 : t0.dev.state = .idle) :
    (t.dev.state = .waiting → Open t0.dev.address l) ∧
    (t.dev.state = .idle → ∀ a r b, l = a ++ r :: b → Asks t0.dev.address r.1 → ∃ x ∈ b, x.2.isSome) := by
  induction h with
  | nil =>
    refine ⟨fun h => ?_, fun _ a r b h => by simp at h⟩
    rw [h0] at h; cases h
  | snoc l t log r t' piece hp hs ih =>
    obtain ⟨i1, i2⟩ := ih
    have hadd := (polls_settings hp).1
    obtain ⟨-, hc⟩ := step_cases hs
    rw [hadd] at hc
    have snoc_cases : ∀ a (x : Verif.Tof.Log × Option (ℝ × ℝ)) b, l ++ [(piece, r.toOption)] = a ++ x :: b →
        (b = [] ∧ x = (piece, r.toOption)) ∨ ∃ b', b = b' ++ [(piece, r.toOption)] ∧ l = a ++ x :: b' := by
      intro a x b h
      rcases List.eq_nil_or_concat b with rfl | ⟨b', y, rfl⟩
      · obtain ⟨-, h2⟩ := List.append_inj' h rfl
        cases h2
        exact .inl ⟨rfl, rfl⟩
      · have h' : l ++ [(piece, r.toOption)] = (a ++ x :: b') ++ [y] := by rw [h]; simp
        obtain ⟨h1, h2⟩ := List.append_inj' h' rfl
        cases h2
        exact .inr ⟨b', List.concat_eq_append .., h1⟩
    rcases hc with ⟨c1, c2, c3, c4, c5⟩ | ⟨c1, c2, c3, c4⟩ | ⟨c1, c2, c3, c4⟩ | ⟨c1, c2, c3, mm, c4, c5⟩
    · refine ⟨fun h => (by rw [c2] at h; cases h), fun _ a x b h hx => ?_⟩
      rcases snoc_cases a x b h with ⟨rfl, rfl⟩ | ⟨b', rfl, h'⟩
      · exact absurd hx c5
      · obtain ⟨y, hy1, hy2⟩ := i2 c1 a x b' h' hx
        exact ⟨y, List.mem_append_left _ hy1, hy2⟩
    · refine ⟨fun _ => ⟨l, (piece, r.toOption), [], rfl, c4, c3, fun _ h => by cases h⟩, fun h => by rw [c2] at h; cases h⟩
    · refine ⟨fun _ => ?_, fun h => by rw [c2] at h; cases h⟩
      obtain ⟨a, x, b, rfl, k1, k2, k3⟩ := i1 c1
      refine ⟨a, x, b ++ [(piece, r.toOption)], by simp, k1, k2, fun y hy => ?_⟩
      rcases List.mem_append.1 hy with hy | hy
      · exact k3 y hy
      · rw [List.mem_singleton.1 hy]; exact ⟨c3, c4⟩
    · refine ⟨fun h => (by rw [c2] at h; cases h), fun _ a x b h hx => ?_⟩
      rcases snoc_cases a x b h with ⟨rfl, rfl⟩ | ⟨b', rfl, h'⟩
      · exact absurd hx c3
      · exact ⟨(piece, r.toOption), List.mem_append_right _ (List.mem_singleton.2 rfl), by rw [c4]; rfl⟩

/-- Where the robot was when the measurement was asked for is what the detector remembers, unless a request has failed. -/
theorem polls_asked {t0 t : Tof} {l : List (Verif.Tof.Log × Option (ℝ × ℝ))} (h : Polls w t0 l t) (h0 : t0.dev.state = .idle)
    (hv : ∀ x ∈ l, ¬ AsksInVain t0.dev.address x.1) : ∀ ps : List Pose, ps.length = l.length →
    (ps.zip l).foldl (fun q x => askedAt q x.1 t0.dev.address x.2) none = waitingSince ((ps.zip l).reverse.map fun x => (x.1, x.2.2.isSome)) ∧
    (t.dev.state = .waiting ↔ ((ps.zip l).foldl (fun q x => askedAt q x.1 t0.dev.address x.2) none).isSome) := by
  induction h with
  | nil =>
    intro ps hp
    rw [List.length_eq_zero_iff.1 hp]
    refine ⟨rfl, ?_⟩
    rw [h0]
    simp
  | snoc l t log r t' piece hp hs ih =>
    intro ps hps
    rw [List.length_append, List.length_singleton] at hps
    rcases List.eq_nil_or_concat ps with rfl | ⟨ps', p, rfl⟩
    · simp at hps
    rw [List.concat_eq_append] at hps ⊢
    rw [List.length_append, List.length_singleton] at hps
    have hlen : ps'.length = l.length := by omega
    obtain ⟨i1, i2⟩ := ih (fun x hx => hv x (List.mem_append_left _ hx)) ps' hlen
    have hnv := hv (piece, r.toOption) (List.mem_append_right _ (List.mem_singleton.2 rfl))
    have hadd := (polls_settings hp).1
    obtain ⟨-, hc⟩ := step_cases hs
    rw [hadd] at hc
    rw [List.zip_append hlen, List.foldl_append, List.reverse_append, List.map_append]
    obtain ⟨q, hq⟩ : ∃ q, q = (ps'.zip l).foldl (fun q x => askedAt q x.1 t0.dev.address x.2) none := ⟨_, rfl⟩
    rw [← hq] at i1 i2 ⊢
    show askedAt q p t0.dev.address (piece, r.toOption) = waitingSince ((p, r.toOption.isSome) :: (ps'.zip l).reverse.map fun x => (x.1, x.2.2.isSome)) ∧ (_ ↔ (askedAt q p t0.dev.address (piece, r.toOption)).isSome)
    unfold askedAt
    rcases hc with ⟨c1, c2, c3, c4, c5⟩ | ⟨c1, c2, c3, c4⟩ | ⟨c1, c2, c3, c4⟩ | ⟨c1, c2, c3, mm, c4, c5⟩
    · exact absurd c4 hnv
    · have hqn : q = none := by
        rw [c1] at i2
        simpa using i2
      simp only [c3, Option.isSome_none, Bool.false_eq_true, if_false, if_pos c4, waitingSince]
      rw [← i1, hqn, c2]
      simp
    · have hqs : q.isSome := i2.1 c1
      obtain ⟨q0, hq0⟩ := Option.isSome_iff_exists.1 hqs
      simp only [c3, Option.isSome_none, Bool.false_eq_true, if_false, if_neg c4, waitingSince]
      rw [← i1, hq0, c2]
      simp
    · simp only [c4, Option.isSome_some, if_true, waitingSince]
      rw [c2]
      simp

/-! ## Several sensors -/

theorem sweep_spec : ∀ (ts : List Tof) (log : Verif.Tof.Log) (xs ts' log'), sweep w ts log = (xs, ts', log') →
    xs.length = ts.length ∧ ts'.length = ts.length ∧
    ∀ (i : Nat) (b : Tof), ts[i]? = some b → ∃ x b' l r, xs[i]? = some x ∧ ts'[i]? = some b' ∧ b.getDistance w l = (r, b', l ++ x.1) ∧ x.2 = r.toOption
  | [], log, xs, ts', log', h => by
    cases h
    exact ⟨rfl, rfl, fun i b h => by simp at h⟩
  | t :: ts, log, xs, ts', log', h => by
    unfold sweep at h
    rcases hg : t.getDistance w log with ⟨r, t1, log1⟩
    rw [hg] at h
    dsimp only at h
    rcases hr : sweep w ts log1 with ⟨rs, ts1, log2⟩
    rw [hr] at h
    cases h
    obtain ⟨k1, k2, k3⟩ := sweep_spec ts log1 rs ts1 log2 hr
    have hp : log1 = log ++ log1.drop log.length := by
      rcases call_cases t w log with ⟨-, e, h1⟩ | ⟨-, x, h1⟩ | ⟨-, e, p, h1, -⟩ | ⟨-, mm, p, h1, -⟩ <;> rw [hg] at h1 <;>
        simp only [Prod.mk.injEq] at h1 <;> rw [h1.2.2] <;> simp
    refine ⟨by simp [k1], by simp [k2], fun i b hi => ?_⟩
    cases i with
    | zero =>
      cases hi
      exact ⟨_, _, log, r, rfl, rfl, by rw [← hp]; exact hg, rfl⟩
    | succ i => exact k3 i b hi

theorem looksOf_get : ∀ (ts : List Tof) (xs : List (Verif.Tof.Log × Option (ℝ × ℝ))) (busy : Nat → List Old.Wall × List Old.Wall) (n i : Nat) (b : Tof) (x : Verif.Tof.Log × Option (ℝ × ℝ)),
    ts[i]? = some b → xs[i]? = some x → (looksOf ts xs busy n)[i]? = some (lookOf b x (busy (n + i)))
  | [], _, _, _, _, _, _, h, _ => by simp at h
  | _ :: _, [], _, _, _, _, _, _, h => by simp at h
  | t :: ts, y :: xs, busy, n, i, b, x, h1, h2 => by
    unfold looksOf
    cases i with
    | zero => cases h1; cases h2; rfl
    | succ i =>
      have := looksOf_get ts xs busy (n + 1) i b x h1 h2
      rw [show n + 1 + i = n + (i + 1) by omega] at this
      exact this

theorem looksOf_length : ∀ (ts : List Tof) (xs : List (Verif.Tof.Log × Option (ℝ × ℝ))) (busy : Nat → List Old.Wall × List Old.Wall) (n : Nat), xs.length = ts.length →
    (looksOf ts xs busy n).length = ts.length
  | [], _, _, _, _ => by simp [looksOf]
  | _ :: _, [], _, _, h => by simp at h
  | t :: ts, y :: xs, busy, n, h => by
    unfold looksOf
    simp only [List.length_cons, Nat.add_right_cancel_iff] at h ⊢
    exact looksOf_length ts xs busy (n + 1) h

variable {W : Nat} {conv : FPose → R (Except ConvError Info)} {see : Pose → Option Seen} {real : Old.Wall → Bool}

/-- A robot that is sure of its position is not moved. -/
theorem after_sure {here : Pose} {i : Nat} {l : Look} {g : Guess} (h : g.dx = 0 ∧ g.dy = 0 ∧ g.var = 0) :
    let g' := g.after see here i l
    (g'.dx = 0 ∧ g'.dy = 0 ∧ g'.var = 0) ∧ ∀ j, g'.past j = if j = i then waits (g.past i) here l.reading.isSome else g.past j := by
  intro g'
  show ((g.after see here i l).dx = 0 ∧ (g.after see here i l).dy = 0 ∧ (g.after see here i l).var = 0) ∧ ∀ j, (g.after see here i l).past j = _
  unfold Guess.after
  dsimp only
  split
  · exact ⟨h, fun _ => rfl⟩
  · split_ifs
    · exact ⟨h, fun _ => rfl⟩
    · refine ⟨?_, fun _ => rfl⟩
      dsimp only
      rw [h.1, h.2.1, h.2.2]
      simp
    · exact ⟨h, fun _ => rfl⟩
    · exact ⟨h, fun _ => rfl⟩

theorem afterAll_still {here : Pose} : ∀ (ls : List Look) (i : Nat) (g : Guess), g.dx = 0 ∧ g.dy = 0 ∧ g.var = 0 →
    (g.afterAll see here i ls).dx = 0 ∧ (g.afterAll see here i ls).dy = 0 ∧ (g.afterAll see here i ls).var = 0
  | [], _, _, h0 => h0
  | l :: ls, i, g, h0 => afterAll_still ls (i + 1) _ (after_sure (see := see) (here := here) (i := i) (l := l) h0).1

theorem afterAll_sure {here : Pose} : ∀ (ls : List Look) (i : Nat) (g : Guess), g.dx = 0 ∧ g.dy = 0 ∧ g.var = 0 →
    (∀ k l q z s e, ls[k]? = some l → l.reading = some (z, s) → (q = (g.past (i + k)).getD here) → see (aimed q l.mount 0 0) = some e →
      if real e.wall then |z - e.near| ≤ |z - e.far| else |z - e.far| ≤ |z - e.near|) →
    AllTruthful real see here i ls g ∧
    ∀ j, (g.afterAll see here i ls).past j = if i ≤ j then (match ls[j - i]? with | some l => waits (g.past j) here l.reading.isSome | none => g.past j) else g.past j
  | [], i, g, _, _ => ⟨trivial, fun j => by simp [Guess.afterAll]⟩
  | l :: ls, i, g, h0, hr => by
    obtain ⟨k1, k2⟩ := after_sure (see := see) (here := here) (i := i) (l := l) h0
    have ht : Truthful real see here i l g := by
      intro e z s h
      unfold Guess.target Guess.from at h
      rw [h0.1, h0.2.1] at h
      split at h
      · rename_i z' s' e' hz hs
        split at h
        · cases h
        · cases h
          exact hr 0 l _ _ _ _ rfl hz rfl hs
      · cases h
    obtain ⟨k3, k4⟩ := afterAll_sure ls (i + 1) (g.after see here i l) k1 (by
      intro k l' q z s e h1 h2 h3 h4
      rw [k2, if_neg (by omega), show i + 1 + k = i + (k + 1) by omega] at h3
      exact hr (k + 1) l' q z s e h1 h2 h3 h4)
    refine ⟨⟨ht, k3⟩, fun j => ?_⟩
    show ((g.after see here i l).afterAll see here (i + 1) ls).past j = _
    rw [k4 j]
    by_cases hij : j = i
    · rw [if_neg (by omega), if_pos (by omega), k2, if_pos hij, hij, Nat.sub_self]
      rfl
    · by_cases hlt : i ≤ j
      · rw [if_pos (by omega), if_pos hlt, k2, if_neg hij, show j - i = (j - (i + 1)) + 1 by omega]
        rfl
      · rw [if_neg (by omega), if_neg hlt, k2, if_neg hij]

/-- What the sensors contribute is fair. -/
theorem sweep_fair {ts : List Tof} {log : Verif.Tof.Log} {xs : List (Verif.Tof.Log × Option (ℝ × ℝ))} {ts' : List Tof} {log' : Verif.Tof.Log} (h : sweep w ts log = (xs, ts', log'))
    {busy : Nat → List Old.Wall × List Old.Wall} (hbusy : ∀ i, (∀ v ∈ (busy i).1, InMaze W v) ∧ ∀ v ∈ (busy i).2, InMaze W v) : ∀ l ∈ looksOf ts xs busy 0, l.Fair W := by
  obtain ⟨w1, w2, w3⟩ := sweep_spec ts log xs ts' log' h
  intro l hl
  obtain ⟨k, hk⟩ := List.getElem?_of_mem hl
  have hkl : k < ts.length := by rw [← looksOf_length ts xs busy 0 w1]; exact (List.getElem?_eq_some_iff.1 hk).1
  have hb : ts[k]? = some ts[k] := List.getElem?_eq_getElem hkl
  obtain ⟨x, b', lo, r, e1, e2, e4, e5⟩ := w3 k _ hb
  have := looksOf_get ts xs busy 0 k _ x hb e1
  rw [hk, zero_add] at this
  simp only [Option.some.injEq] at this
  subst this
  refine ⟨fun z s hz => ?_, (hbusy k).1, (hbusy k).2⟩
  have hz : x.2 = some (z, s) := hz
  obtain ⟨-, hc⟩ := step_cases e4
  rw [e5] at hz
  rcases hc with ⟨-, -, c3, -⟩ | ⟨-, -, c3, -⟩ | ⟨-, -, c3, -⟩ | ⟨-, -, -, mm, c4, -⟩
  · rw [hz] at c3; cases c3
  · rw [hz] at c3; cases c3
  · rw [hz] at c3; cases c3
  · rw [hz] at c4
    simp only [Option.some.injEq, Prod.mk.injEq] at c4
    rw [c4.2]
    norm_num

theorem bus_inv {P : Config} (hW : Supported P.W) {t : F} (hg : GoodThreshold exact t) (hr : Regular P.W real) (hs : Sees P.W conv see) {ts : List Tof} {log : Verif.Tof.Log}
    {asked : Nat → Option Pose} {d : Detector} {c : Commander} {rs : List Reply} (h : BusPatrol P t real conv see w ts log asked d c rs) :
    Patrol P t real conv see d c rs ∧ ts.length ≤ 6 ∧ (∀ (i : Nat) (b : Tof), ts[i]? = some b → (b.dev.state = .waiting ↔ (asked i).isSome)) ∧
    ∀ g, Remembers P.W d g → ∀ i < ts.length, g.past i = asked i := by
  induction h with
  | start m ts log hm h6 hi =>
    refine ⟨.start m hm, h6, fun i b hb => ?_, fun g hd i hi' => ?_⟩
    · rw [hi b (List.mem_of_getElem? hb)]
      simp
    · have := hd.past i (by show i < 6; omega)
      cases hp : g.past i with
      | none => rfl
      | some q => rw [hp] at this; cases this
  | bus ts log more asked d c rs _ ih => exact ih
  | detect ts log asked d d' c rs p xs ts' log' busy s' _ hsw hv hright hbusy hcall ih =>
    obtain ⟨i1, i2, i3, i4⟩ := ih
    obtain ⟨-, -, ⟨g, hd⟩, hsd⟩ := patrol_inv hW hg hr hs i1
    obtain ⟨w1, w2, w3⟩ := sweep_spec ts log xs ts' log' hsw
    have hlen : (looksOf ts xs busy 0).length = ts.length := looksOf_length ts xs busy 0 w1
    have hget : ∀ (k : Nat) (l : Look), (looksOf ts xs busy 0)[k]? = some l → ∃ b x b' lo r, ts[k]? = some b ∧ xs[k]? = some x ∧ l = lookOf b x (busy k) ∧
        ts'[k]? = some b' ∧ b.getDistance w lo = (r, b', lo ++ x.1) ∧ x.2 = r.toOption := by
      intro k l hk
      have hkl : k < ts.length := by rw [← hlen]; exact (List.getElem?_eq_some_iff.1 hk).1
      have hb : ts[k]? = some ts[k] := List.getElem?_eq_getElem hkl
      obtain ⟨x, b', lo, r, e1, e2, e3, e4⟩ := w3 k _ hb
      have := looksOf_get ts xs busy 0 k _ x hb e1
      rw [hk, zero_add] at this
      simp only [Option.some.injEq] at this
      exact ⟨_, x, b', lo, r, hb, e1, this, e2, e3, e4⟩
    have hfair := sweep_fair (W := P.W) hsw hbusy
    obtain ⟨k1, k2⟩ := afterAll_sure (real := real) (see := see) (here := p) (looksOf ts xs busy 0) 0 (g.begin 0 0) ⟨rfl, rfl, by simp [Guess.begin]⟩ (by
      intro k l q z s e hk hz hq hsee
      obtain ⟨b, x, b', lo, r, e1, e2, rfl, e3, e4, e5⟩ := hget k l hk
      have hz : x.2 = some (z, s) := hz
      obtain ⟨-, hc⟩ := step_cases e4
      have hwait : b.dev.state = .waiting := by
        rw [e5] at hz
        rcases hc with ⟨-, -, c3, -⟩ | ⟨-, -, c3, -⟩ | ⟨-, -, c3, -⟩ | ⟨c1, -⟩
        · rw [hz] at c3; cases c3
        · rw [hz] at c3; cases c3
        · rw [hz] at c3; cases c3
        · exact c1
      obtain ⟨q0, hq0⟩ := Option.isSome_iff_exists.1 ((i3 k b e1).1 hwait)
      have hpast : (g.begin 0 0).past (0 + k) = some q0 := by
        rw [zero_add]
        show g.past k = _
        rw [i4 g hd k (List.getElem?_eq_some_iff.1 e1).1, hq0]
      rw [hpast, Option.getD_some] at hq
      rw [hq] at hsee
      exact hright k b x e1 e2 q0 z s e hq0 hz hsee)
    have hstep : ∀ (i : Nat) (b : Tof), ts[i]? = some b → ∃ x b', xs[i]? = some x ∧ ts'[i]? = some b' ∧
        waits (asked i) p x.2.isSome = askedAt (asked i) p b.dev.address x ∧ (b'.dev.state = .waiting ↔ (askedAt (asked i) p b.dev.address x).isSome) := by
      intro i b hb
      obtain ⟨x, b', lo, r, e1, e2, e3, e4⟩ := w3 i b hb
      refine ⟨x, b', e1, e2, ?_⟩
      have hnv := hv i b x hb e1
      have hst := i3 i b hb
      obtain ⟨-, hc⟩ := step_cases e3
      rw [← e4] at hc
      unfold waits askedAt
      rcases hc with ⟨c1, c2, c3, c4, c5⟩ | ⟨c1, c2, c3, c4⟩ | ⟨c1, c2, c3, c4⟩ | ⟨c1, c2, c3, mm, c4, c5⟩
      · exact absurd c4 hnv
      · have hqn : asked i = none := by
          rw [c1] at hst
          simpa using hst
        simp only [c3, Option.isSome_none, Bool.false_eq_true, if_false, if_pos c4]
        rw [hqn, c2]
        simp
      · obtain ⟨q0, hq0⟩ := Option.isSome_iff_exists.1 (hst.1 c1)
        simp only [c3, Option.isSome_none, Bool.false_eq_true, if_false, if_neg c4]
        rw [hq0, c2]
        simp
      · simp only [c4, Option.isSome_some, if_true]
        rw [c2]
        simp
    refine ⟨.detect _ _ _ _ _ _ _ _ _ _ i1 (by rw [hlen]; exact i2) hfair hd k1 hcall, by rw [w2]; exact i2, fun i b' hb' => ?_, fun g' hd' i hi => ?_⟩
    · have hi : i < ts.length := by rw [← w2]; exact (List.getElem?_eq_some_iff.1 hb').1
      have hb : ts[i]? = some ts[i] := List.getElem?_eq_getElem hi
      obtain ⟨x, b2, e1, e2, -, e4⟩ := hstep i _ hb
      rw [hb'] at e2
      cases e2
      simp only [hb, e1]
      exact e4
    · rw [w2] at hi
      have hb : ts[i]? = some ts[i] := List.getElem?_eq_getElem hi
      obtain ⟨x, b2, e1, e2, e3, -⟩ := hstep i _ hb
      obtain ⟨d2, f1, f2, -⟩ := call_eq hW hs hd (hsd g hd).chances (by rw [hlen]; exact i2) hfair p 0 0
      rw [hcall] at f1
      simp only [Except.ok.injEq, Prod.mk.injEq] at f1
      obtain ⟨rfl, -⟩ := f1
      have hlt : i < SENSORS := by show i < 6; omega
      have hp : g'.past i = ((g.begin 0 0).afterAll see p 0 (looksOf ts xs busy 0)).past i :=
        Verif.Proof.OldX.lift_inj (by rw [← hd'.past i hlt, ← f2.past i hlt])
      rw [hp, k2 i, if_pos (Nat.zero_le _), Nat.sub_zero, looksOf_get ts xs busy 0 i _ x hb e1]
      simp only [hb, e1]
      rw [← e3]
      show waits (g.past i) p x.2.isSome = _
      rw [i4 g hd i hi]
  | call ts log asked d c c' r rs ws _ hc ih => exact ⟨.call _ _ _ _ _ ws ih.1 hc, ih.2⟩

end Verif.Proof.OldZ
