import Verif.Model.AckRace

/-! # C82: one acknowledgement, whoever acknowledges -/

namespace Verif.AckRace

open Verif.Ack (Kind)

/-- Call `i` is between its check and its end. -/
def Busy (s : St) (i : Nat) : Prop := (∃ c k, s.pc i = .hooking c k) ∨ ∃ c, s.pc i = .setting c

/-- Who has the message after a statement: a copy is handed over, as by sending it over a channel. -/
def next (c : Nat) : Act → Nat
  | .copy _ d => d
  | _ => c

/-- Who has the message after some statements. -/
def holder (c : Nat) (as : List Act) : Nat := as.foldl next c

/-- With the message in `c`: nobody begins a call or hands over the message while a call is under way, and all calls are on
the copy that was handed over last. -/
def Allowed (c : Nat) (s : St) : Act → Prop
  | .check _ c' _ => c' = c ∧ ∀ j, ¬ Busy s j
  | .copy src _ => src = c ∧ ∀ j, ¬ Busy s j
  | .hook _ => True
  | .set _ => True

/-- All actions of the schedule are allowed. -/
def OneAtATime (c : Nat) (s : St) (as : List Act) : Prop :=
  ∀ pre a post s', as = pre ++ a :: post → run s pre = some s' → Allowed (holder c pre) s' a

/-- What holds between the statements of such a schedule: nothing happened yet, one call is about to call its hook, or it
called it, or the message is marked. -/
def Inv (c : Nat) (s : St) : Prop :=
  (∀ i c' k, s.pc i = .hooking c' k → c' = c) ∧ (∀ i c', s.pc i = .setting c' → c' = c) ∧
  ((s.hooks = [] ∧ s.acked c = false ∧ (∀ i c', s.pc i ≠ .setting c') ∧
      ∀ i j, Busy s i → Busy s j → i = j) ∨
   (s.hooks.length = 1 ∧ s.acked c = false ∧ ∃ i, s.pc i = .setting c ∧ ∀ j, Busy s j → j = i) ∨
   (s.hooks.length = 1 ∧ s.acked c = true ∧ ∀ j, ¬ Busy s j))

theorem upd_eq {α : Type} (f : Nat → α) (i : Nat) (v : α) (j : Nat) : upd f i v j = if j = i then v else f j := rfl

theorem inv_step (c : Nat) (s s' : St) (a : Act) (h : Inv c s)
    (ha : Allowed c s a) (hs : step s a = some s') : Inv (next c a) s' := by
  obtain ⟨h1, h2, h3⟩ := h
  cases a with
  | copy a b =>
    obtain ⟨rfl, hb⟩ := ha
    simp only [step, Option.some.injEq] at hs
    subst hs
    refine ⟨fun i c' k hi => absurd (Or.inl ⟨_, _, hi⟩) (hb i), fun i c' hi => absurd (Or.inr ⟨_, hi⟩) (hb i), ?_⟩
    rcases h3 with ⟨e, f, g, u⟩ | ⟨_, _, j, hj, _⟩ | ⟨e, f, g⟩
    · exact Or.inl ⟨e, by simpa [next, upd_eq] using f, g, u⟩
    · exact absurd (Or.inr ⟨_, hj⟩) (hb j)
    · exact Or.inr (Or.inr ⟨e, by simpa [next, upd_eq] using f, g⟩)
  | check i c' k =>
    obtain ⟨rfl, hb⟩ := ha
    simp only [step] at hs
    split at hs
    · rename_i hi
      cases hs
      refine ⟨?_, ?_, ?_⟩
      · intro j d k' hj
        simp only [upd_eq] at hj
        split at hj
        · split at hj
          · cases hj
          · cases hj; rfl
        · exact h1 j d k' hj
      · intro j d hj
        simp only [upd_eq] at hj
        split at hj
        · split at hj <;> cases hj
        · exact h2 j d hj
      · rcases h3 with ⟨e, f, g, _⟩ | ⟨_, _, j, hj, _⟩ | ⟨e, f, g⟩
        · refine Or.inl ⟨e, f, ?_, ?_⟩
          · intro j d hj
            simp only [upd_eq, f] at hj
            split at hj
            · cases hj
            · exact g j d hj
          · have only : ∀ j, Busy { s with pc := upd s.pc i (if s.acked c' then .done else .hooking c' k) } j → j = i := by
              intro j hj
              by_cases hji : j = i
              · exact hji
              · exfalso
                apply hb j
                simpa only [Busy, upd_eq, if_neg hji] using hj
            intro a b ha hb'
            rw [only a ha, only b hb']
        · exact absurd (Or.inr ⟨_, hj⟩) (hb j)
        · refine Or.inr (Or.inr ⟨e, f, fun j hj => ?_⟩)
          by_cases hji : j = i
          · subst hji
            simp [Busy, upd_eq, f] at hj
          · exact hb j (by simpa only [Busy, upd_eq, if_neg hji] using hj)
    · cases hs
  | hook i =>
    simp only [step] at hs
    split at hs
    · rename_i d k hi
      cases hs
      have hd := h1 i d k hi
      subst hd
      refine ⟨?_, ?_, ?_⟩
      · intro j d k' hj
        simp only [upd_eq] at hj
        split at hj
        · cases hj
        · exact h1 j d k' hj
      · intro j d hj
        simp only [upd_eq] at hj
        split at hj
        · cases hj; rfl
        · exact h2 j d hj
      · rcases h3 with ⟨e, f, g, u⟩ | ⟨_, _, j, hj, u⟩ | ⟨_, _, g⟩
        · refine Or.inr (Or.inl ⟨by simp [e], f, i, by simp [upd_eq, next], fun j hj => ?_⟩)
          by_cases hji : j = i
          · exact hji
          · exact u j i (by simpa only [Busy, upd_eq, if_neg hji] using hj) (Or.inl ⟨_, _, hi⟩)
        · have := u i (Or.inl ⟨_, _, hi⟩)
          subst this
          rw [hi] at hj; cases hj
        · exact absurd (Or.inl ⟨_, _, hi⟩) (g i)
    · cases hs
  | set i =>
    simp only [step] at hs
    split at hs
    · rename_i d hi
      cases hs
      have hd := h2 i d hi
      subst hd
      refine ⟨?_, ?_, ?_⟩
      · intro j d k' hj
        simp only [upd_eq] at hj
        split at hj
        · cases hj
        · exact h1 j d k' hj
      · intro j d hj
        simp only [upd_eq] at hj
        split at hj
        · cases hj
        · exact h2 j d hj
      · rcases h3 with ⟨_, _, g, _⟩ | ⟨e, _, j, hj, u⟩ | ⟨_, _, g⟩
        · exact absurd hi (g i d)
        · have hij := u i (Or.inr ⟨_, hi⟩)
          subst hij
          refine Or.inr (Or.inr ⟨e, by simp [upd_eq, next], fun j hj' => ?_⟩)
          by_cases hji : j = i
          · subst hji; simp [Busy, upd_eq] at hj'
          · exact hji (u j (by simpa only [Busy, upd_eq, if_neg hji] using hj'))
        · exact absurd (Or.inr ⟨_, hi⟩) (g i)
    · cases hs

theorem inv_run : ∀ (as : List Act) (c : Nat) (s s' : St), Inv c s → OneAtATime c s as → run s as = some s' →
    Inv (holder c as) s'
  | [], c, s, s', h, _, hr => by rw [run] at hr; cases hr; exact h
  | a :: as, c, s, s', h, ho, hr => by
    rw [run] at hr
    cases hs : step s a with
    | none => rw [hs] at hr; cases hr
    | some t =>
      rw [hs] at hr
      refine inv_run as (next c a) t s' (inv_step c s t a h (ho [] a as s rfl rfl) hs) (fun pre b post u e hu => ?_) hr
      exact ho (a :: pre) b post u (by rw [e]; rfl) (by rw [run, hs]; exact hu)

/-- **C82, partial.** Calls made one at a time, by any goroutines, on a message that is handed over from one to the other:
the broker is told at most once. -/
theorem C82_partial (c : Nat) (as : List Act) (s : St) (ho : OneAtATime c init as) (hr : run init as = some s) :
    s.hooks.length ≤ 1 := by
  have h : Inv (holder c as) s := inv_run as c init s ⟨(by intro i c' k h; cases h), (by intro i c' h; cases h), Or.inl ⟨rfl, rfl,
    (by intro i c' h; cases h), (by rintro i j (⟨_, _, h⟩ | ⟨_, h⟩) <;> cases h)⟩⟩ ho hr
  rcases h.2.2 with ⟨h, _⟩ | ⟨h, _⟩ | ⟨h, _⟩
  · simp [h]
  · omega
  · omega

/-- Non-vacuity: a message is refused, then sent over a channel to another goroutine which acknowledges it. -/
example : ∃ s, OneAtATime 0 init [.check 1 0 .nak, .hook 1, .set 1, .copy 0 5, .check 2 5 .ack] ∧
    run init [.check 1 0 .nak, .hook 1, .set 1, .copy 0 5, .check 2 5 .ack] = some s ∧ s.hooks = [.nak] := by
  refine ⟨_, ?_, rfl, rfl⟩
  intro pre a post s' e hr
  match pre with
  | [] =>
    cases e; cases hr
    refine ⟨rfl, fun j hj => ?_⟩
    rcases hj with ⟨_, _, h⟩ | ⟨_, h⟩ <;> cases h
  | [_] => cases e; trivial
  | [_, _] => cases e; trivial
  | [_, _, _] =>
    cases e; cases hr
    refine ⟨rfl, fun j hj => ?_⟩
    rcases hj with ⟨_, _, h⟩ | ⟨_, h⟩ <;> simp only [upd_eq, init] at h <;> split at h <;> simp at h
  | [_, _, _, _] =>
    cases e; cases hr
    refine ⟨rfl, fun j hj => ?_⟩
    rcases hj with ⟨_, _, h⟩ | ⟨_, h⟩ <;> simp only [upd_eq, init] at h <;> split at h <;> simp at h
  | _ :: _ :: _ :: _ :: _ :: pre =>
    have := congrArg List.length e
    simp at this

/-- **C82 violated** by two goroutines: for any two kinds, both hooks are called, so a message can be acknowledged and
refused at once. -/
theorem C82_violated (k k' : Kind) : ∃ s, run init [.check 1 0 k, .check 2 0 k', .hook 1, .hook 2, .set 1, .set 2] = some s ∧
    s.hooks = [k, k'] := ⟨_, rfl, rfl⟩

/-- **C82 violated** by copies: each copy taken before the first call tells the broker on its own, for any number of
copies. -/
theorem C82_violated_copies (ks : List Kind) :
    ∃ as s, run init as = some s ∧ s.hooks = ks ∧
      ∀ a ∈ as, (∃ d, a = .copy 0 d) ∨ ∃ i k, a = .check i (i + 1) k ∨ a = .hook i ∨ a = .set i := by
  have key : ∀ (ks : List Kind) (n : Nat) (s : St), s.acked 0 = false → (∀ i, n ≤ i → s.pc i = .idle) →
      ∃ as s', run s as = some s' ∧ s'.hooks = s.hooks ++ ks ∧
        ∀ a ∈ as, (∃ d, a = .copy 0 d) ∨ ∃ i k, a = .check i (i + 1) k ∨ a = .hook i ∨ a = .set i := by
    intro ks
    induction ks with
    | nil => intro n s _ _; exact ⟨[], s, rfl, by simp, by simp⟩
    | cons k ks ih =>
      intro n s h0 hi
      obtain ⟨as, s', hr, hh, ha⟩ := ih (n + 1)
        { acked := upd (upd s.acked (n + 1) false) (n + 1) true, pc := upd (upd (upd s.pc n (.hooking (n + 1) k)) n (.setting (n + 1))) n .done,
          hooks := s.hooks ++ [k] } (by simp [upd_eq, h0]) (by
            intro i hn
            have : i ≠ n := by omega
            simp [upd_eq, this, hi i (by omega)])
      refine ⟨.copy 0 (n + 1) :: .check n (n + 1) k :: .hook n :: .set n :: as, s', ?_, by rw [hh]; simp, ?_⟩
      · have hin := hi n (Nat.le_refl _)
        rw [← hr]
        simp [run, step, hin, h0, upd_eq]
      · intro a h
        simp only [List.mem_cons] at h
        rcases h with rfl | rfl | rfl | rfl | h
        · exact Or.inl ⟨_, rfl⟩
        · exact Or.inr ⟨n, k, Or.inl rfl⟩
        · exact Or.inr ⟨n, k, Or.inr (Or.inl rfl)⟩
        · exact Or.inr ⟨n, k, Or.inr (Or.inr rfl)⟩
        · exact ha a h
  obtain ⟨as, s, h⟩ := key ks 0 init rfl (fun _ _ => rfl)
  exact ⟨as, s, by simpa [init] using h⟩

end Verif.AckRace
