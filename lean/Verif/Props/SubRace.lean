import Verif.Model.SubRace

/-! # C18: concurrent subscriptions to one address -/

namespace Verif.SubRace

/-- Caller `i` is inside the check–subscribe–store section. -/
def inside (s : St) (i : Nat) : Prop := s.pcs i = .checked ∨ ∃ id, s.pcs i = .got id

/-- The move does not overlap with another caller's section (what a lock around the body would
guarantee). -/
def Alone (s : St) : Act → Prop
  | .caller i _ => ∀ j, inside s j → j = i
  | .unsub => ∀ j, ¬ inside s j

/-- A schedule in which calls never overlap. -/
def Serial (s : St) : List Act → Prop
  | [] => True
  | a :: as => Alone s a ∧ ∀ s1, step s a = some s1 → Serial s1 as

/-- The live subscriptions are the stored one plus the one of the caller that has not stored yet. -/
structure Inv (s : St) : Prop where
  one : s.live.length ≤ 1
  live : ∀ x, x ∈ s.live → s.entry = some x ∨ ∃ i, s.pcs i = .got x
  free : ∀ i, inside s i → s.entry = none
  excl : ∀ i j, inside s i → inside s j → i = j

theorem inv_init : Inv init :=
  ⟨by simp [init], by simp [init], by simp [init, inside], by simp [init, inside]⟩

theorem inv_step {s s1 : St} {a : Act} (hi : Inv s) (ha : Alone s a) (hs : step s a = some s1) :
    Inv s1 := by
  cases a with
  | unsub =>
    simp only [step] at hs
    simp only [Alone] at ha
    cases he : s.entry with
    | none => rw [he] at hs; cases hs; exact hi
    | some id =>
      rw [he] at hs; cases hs
      refine ⟨Nat.le_trans (List.length_filter_le _ _) hi.one, ?_, fun _ _ => rfl, hi.excl⟩
      intro x hx
      simp only [List.mem_filter, Bool.not_eq_true', decide_eq_false_iff_not] at hx
      rcases hi.live x hx.1 with h | h
      · rw [he] at h; exact absurd (Option.some.inj h).symm hx.2
      · exact Or.inr h
  | caller i ok =>
    simp only [step] at hs
    simp only [Alone] at ha
    cases hp : s.pcs i with
    | idle =>
      rw [hp] at hs
      have hno : ∀ j, ¬ inside s j := by
        intro j hj
        have := ha j hj; subst this
        rcases hj with h | ⟨_, h⟩ <;> rw [hp] at h <;> cases h
      cases he : s.entry with
      | some e =>
        rw [he] at hs; cases hs
        have hin : ∀ j, ¬ inside { s with pcs := setPc s i .refused } j := by
          intro j hj
          simp only [inside, setPc] at hj
          split at hj
          · simp at hj
          · exact hno j hj
        refine ⟨hi.one, ?_, fun j hj => absurd hj (hin j), fun j _ hj => absurd hj (hin j)⟩
        intro x hx
        rcases hi.live x hx with h | ⟨j, h⟩
        · exact Or.inl (he ▸ h)
        · exact absurd (Or.inr ⟨_, h⟩) (hno j)
      | none =>
        rw [he] at hs; cases hs
        have hl : s.live = [] := by
          match hl : s.live with
          | [] => rfl
          | x :: t =>
            rcases hi.live x (by rw [hl]; simp) with h | ⟨j, h⟩
            · rw [he] at h; cases h
            · exact absurd (Or.inr ⟨_, h⟩) (hno j)
        have hin : ∀ j, inside { s with pcs := setPc s i .checked } j → j = i := by
          intro j hj
          simp only [inside, setPc] at hj
          split at hj
          · assumption
          · exact absurd hj (hno j)
        exact ⟨hi.one, by simp [hl], fun _ _ => rfl, fun a b ha hb => (hin a (he ▸ ha)).trans (hin b (he ▸ hb)).symm⟩
    | checked =>
      rw [hp] at hs
      have hei := hi.free i (Or.inl hp)
      have hl : s.live = [] := by
        match hl : s.live with
        | [] => rfl
        | x :: t =>
          rcases hi.live x (by rw [hl]; simp) with h | ⟨j, h⟩
          · rw [hei] at h; cases h
          · have := ha j (Or.inr ⟨_, h⟩); subst this; rw [hp] at h; cases h
      cases ok with
      | true =>
        simp only [if_true] at hs; cases hs
        have hin : ∀ (p : Pc) (l : List Nat) (n : Nat) (j : Nat),
            inside { s with live := l, nextId := n, pcs := setPc s i p } j → j = i := by
          intro p l n j hj
          by_cases hji : j = i
          · exact hji
          · simp only [inside, setPc, hji, if_false] at hj
            exact ha j hj
        refine ⟨by simp [hl], ?_, fun _ _ => hei, fun a b h1 h2 => (hin _ _ _ a h1).trans (hin _ _ _ b h2).symm⟩
        intro x hx
        simp only [hl, List.nil_append, List.mem_singleton] at hx
        exact Or.inr ⟨i, by simp [setPc, hx]⟩
      | false =>
        simp only [Bool.false_eq_true, if_false] at hs; cases hs
        refine ⟨hi.one, by simp [hl], fun _ _ => hei, ?_⟩
        intro a b h1 h2
        have : ∀ j, inside { s with pcs := setPc s i .failed } j → j = i := by
          intro j hj
          by_cases hji : j = i
          · exact hji
          · simp only [inside, setPc, hji, if_false] at hj
            exact ha j hj
        exact (this a h1).trans (this b h2).symm
    | got id =>
      rw [hp] at hs; cases hs
      have hei := hi.free i (Or.inr ⟨id, hp⟩)
      have hin : ∀ j, ¬ inside { s with entry := some id, pcs := setPc s i .done } j := by
        intro j hj
        by_cases hji : j = i
        · simp [inside, setPc, hji] at hj
        · simp only [inside, setPc, hji, if_false] at hj
          exact hji (ha j hj)
      have hx : ∀ x ∈ s.live, x = id := by
        intro x hx
        rcases hi.live x hx with h | ⟨j, h⟩
        · rw [hei] at h; cases h
        · have := ha j (Or.inr ⟨_, h⟩); subst this; rw [hp] at h; cases h; rfl
      refine ⟨hi.one, fun x h => Or.inl (by rw [hx x h]), fun j hj => absurd hj (hin j),
        fun j _ hj => absurd hj (hin j)⟩
    | done => rw [hp] at hs; cases hs
    | refused => rw [hp] at hs; cases hs
    | failed => rw [hp] at hs; cases hs

theorem inv_run : ∀ (as : List Act) {s s' : St}, Inv s → Serial s as → run s as = some s' → Inv s' := by
  intro as
  induction as with
  | nil => intro s s' hi _ hr; cases hr; exact hi
  | cons a as ih =>
    intro s s' hi hser hr
    simp only [run] at hr
    cases hs : step s a with
    | none => rw [hs] at hr; cases hr
    | some s1 => rw [hs] at hr; exact ih (inv_step hi hser.1 hs) (hser.2 s1 hs) hr

/-- **C18 (partial: calls that do not overlap).** For any number of callers, in any order and with any
broker answers, if no two calls are inside their check–subscribe–store section at the same time, at most
one broker subscription is live. Missing: overlapping calls, for which it is false (below). -/
theorem C18_serialised_calls_are_safe_partial (as : List Act) (s : St) (hser : Serial init as)
    (hr : run init as = some s) : s.live.length ≤ 1 := (inv_run as inv_init hser hr).one

/-- A serial schedule with a refused caller and a second subscription after an unsubscription. -/
def serialExample : List Act :=
  [.caller 0 true, .caller 0 true, .caller 0 true, .caller 1 true, .unsub,
   .caller 2 true, .caller 2 true, .caller 2 true]

example : ∃ s, run init serialExample = some s ∧ s.live = [1] ∧ s.pcs 1 = .refused ∧ s.pcs 2 = .done :=
  ⟨_, rfl, rfl, rfl, rfl⟩

/-- Moves before anyone is inside a section are alone. -/
example : Serial init [.caller 0 true, .caller 0 true] := by
  refine ⟨?_, ?_⟩
  · intro j hj; simp [inside, init] at hj
  · intro s1 hs
    simp only [step, init] at hs
    cases hs
    refine ⟨?_, fun _ _ => trivial⟩
    intro j hj
    by_cases h : j = 0
    · exact h
    · simp [inside, setPc, h] at hj

/-- **C18 is violated**: two overlapping calls both return nil, two broker subscriptions are live for one
address, and unsubscribing leaves one of them live with no entry to cancel it through: no sequence of
further unsubscriptions removes it. -/
theorem C18_violated : ∃ s,
    run init [.caller 0 true, .caller 1 true, .caller 0 true, .caller 1 true, .caller 0 true,
      .caller 1 true] = some s ∧
    s.pcs 0 = .done ∧ s.pcs 1 = .done ∧ s.live.length = 2 ∧
    ∀ n, ∃ s', run s (List.replicate (n + 1) .unsub) = some s' ∧ s'.live = [0] := by
  have key : ∀ (n : Nat) (s : St), s.entry = none → run s (List.replicate n .unsub) = some s := by
    intro n
    induction n with
    | zero => intro s _; rfl
    | succ n ih => intro s h; simp only [List.replicate_succ, run, step, h]; exact ih s h
  have key2 : ∀ (n : Nat) (s : St) (id : Nat), s.entry = some id →
      ∃ s', run s (List.replicate (n + 1) .unsub) = some s' ∧
        s'.live = s.live.filter (fun x => !decide (x = id)) := by
    intro n s id h
    simp only [List.replicate_succ, run, step, h]
    exact ⟨_, key n _ rfl, rfl⟩
  exact ⟨_, rfl, rfl, rfl, rfl, fun n => key2 n _ 1 rfl⟩

end Verif.SubRace
