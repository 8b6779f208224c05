import Verif.Spec.Cancel

namespace Verif.Cancel

/-- Induction principle: a predicate kept by every action allowed by `Q` holds at the end of every
schedule made of such actions. -/
theorem run_inv {P : St → Prop} {Q : Act → Prop}
    (hstep : ∀ s a s', Q a → P s → step s a = some s' → P s') :
    ∀ (acts : List Act) (s s' : St), (∀ a ∈ acts, Q a) → P s → run s acts = some s' → P s' := by
  intro acts
  induction acts with
  | nil => intro s s' _ hp h; simp only [run, Option.some.injEq] at h; exact h ▸ hp
  | cons a as ih =>
    intro s s' hq hp h
    simp only [run] at h
    split at h
    · rename_i s1 h1
      exact ih s1 s' (fun b hb => hq b (List.mem_cons_of_mem _ hb))
        (hstep s a s1 (hq a List.mem_cons_self) hp h1) h
    · cases h

/-- The teardown log agrees with the waiter's program counter, and the cancel channel is closed
exactly when the waiter is done. -/
def LogInv (s : St) : Prop :=
  (s.w = .recv ∧ s.log = [] ∧ s.cClosed = false) ∨
  (s.w = .cleanup ∧ s.log = [] ∧ s.cClosed = false) ∨
  (s.w = .closeMsgs ∧ s.log = [.cleanup] ∧ s.cClosed = false) ∨
  (s.w = .closeCancel ∧ s.log = [.cleanup, .closeMessages] ∧ s.cClosed = false) ∨
  (s.w = .done ∧ s.log = [.cleanup, .closeMessages, .closeCancel] ∧ s.cClosed = true)

theorem logInv_init (cap : Nat) : LogInv (init cap) := by simp [LogInv, init]

theorem logInv_step (s : St) (a : Act) (s' : St) (h : LogInv s) (hs : step s a = some s') :
    LogInv s' := by
  unfold step at hs
  unfold LogInv at h ⊢
  cases a <;> simp only at hs <;> (repeat' split at hs) <;>
    first
    | (cases hs; done)
    | (simp only [Option.some.injEq] at hs; subst hs; simp_all; done)
    | (simp only [Option.some.injEq] at hs; subst hs; rcases h with h | h | h | h | h <;> simp_all)

/-- How calls return: a call that returned on the closed channel saw it closed, a call that returned
on its context had it expired. -/
def RetInv (s : St) : Prop :=
  (∀ i, s.c i = .retClosed → s.cClosed = true) ∧ (∀ i, s.c i = .retCtx → s.ctxDone i = true)

theorem retInv_step (s : St) (a : Act) (s' : St) (h : RetInv s) (hs : step s a = some s') :
    RetInv s' := by
  unfold step at hs
  obtain ⟨h1, h2⟩ := h
  unfold RetInv
  cases a <;> simp only at hs <;> (repeat' split at hs) <;>
    first
    | (cases hs; done)
    | (simp only [Option.some.injEq] at hs; subst hs
       refine ⟨fun i => ?_, fun i => ?_⟩ <;> simp only [upd] <;> (repeat' split) <;>
         (first | exact h1 i | exact h2 i | simp_all))

/-- With one caller nothing else calls `Cancel`; before the call has sent its value the waiter has
not moved and the channel is empty. -/
def OneInv (s : St) : Prop :=
  (∀ i, i ≠ 0 → s.c i = .idle) ∧
  (s.c 0 = .idle ∨ s.c 0 = .sending → s.w = .recv ∧ s.buf = 0) ∧
  s.panicked = false ∧ LogInv s

theorem oneInv_init (cap : Nat) : OneInv (init cap) := by
  simp [OneInv, init, LogInv]

theorem oneInv_step (s : St) (a : Act) (s' : St) (hq : ∀ i, a = .call i → i = 0)
    (h : OneInv s) (hs : step s a = some s') : OneInv s' := by
  obtain ⟨h1, h2, h3, h4⟩ := h
  have hlog := logInv_step s a s' h4 hs
  refine ⟨?_, ?_, ?_, hlog⟩
  · intro i hi
    have := h1 i hi
    unfold step at hs
    cases a with
    | call j =>
      have := hq j rfl; subst this
      simp only at hs; split at hs
      · cases hs; simp [upd, hi, h1 i hi]
      · cases hs
    | handC j k =>
      simp only at hs; split at hs
      · rename_i hc; cases hs
        have hj : j = 0 := Decidable.byContradiction (fun hne => by rw [h1 j hne] at hc; simp at hc)
        have hk : k = 0 := Decidable.byContradiction (fun hne => by rw [h1 k hne] at hc; simp at hc)
        subst hj; subst hk; simp [upd, hi, h1 i hi]
      · cases hs
    | send j | handW j | recvC j | ctxC j =>
      simp only at hs; (repeat' split at hs) <;>
      first
      | (cases hs; done)
      | (cases hs
         have hj : j = 0 := Decidable.byContradiction (fun hne => by have := h1 j hne; simp_all)
         subst hj; simp [upd, hi, h1 i hi])
    | _ => simp only at hs; (repeat' split at hs) <;> first | (cases hs; done) | (cases hs; simp [h1 i hi])
  · unfold step at hs
    unfold LogInv at h4
    cases a with
    | call j => 
      have := hq j rfl; subst this
      simp only at hs; split at hs
      · rename_i hc; cases hs; intro _; exact h2 (Or.inl hc.2)
      · cases hs
    | handC j k =>
      simp only at hs; split at hs
      · rename_i hc; cases hs
        have hj : j = 0 := Decidable.byContradiction (fun hne => by rw [h1 j hne] at hc; simp at hc)
        have hk : k = 0 := Decidable.byContradiction (fun hne => by rw [h1 k hne] at hc; simp at hc)
        subst hj; subst hk; exact absurd (hc.2.1.symm.trans hc.2.2.1) (by decide)
      · cases hs
    | send j | handW j | recvC j | ctxC j =>
      simp only at hs; (repeat' split at hs) <;>
      first
      | (cases hs; done)
      | (cases hs
         have hj : j = 0 := Decidable.byContradiction (fun hne => by have := h1 j hne; simp_all)
         subst hj; simp_all [upd])
    | _ =>
      simp only at hs; (repeat' split at hs) <;>
      first
      | (cases hs; done)
      | (cases hs; intro hc; have := h2 hc; simp_all)
  · unfold step at hs
    unfold LogInv at h4
    cases a with
    | send j =>
      simp only at hs; (repeat' split at hs) <;>
      first
      | (cases hs; done)
      | (cases hs
         have hj : j = 0 := Decidable.byContradiction (fun hne => by have := h1 j hne; simp_all)
         subst hj; simp_all)
    | _ =>
      simp only at hs; (repeat' split at hs) <;> first | (cases hs; done) | (cases hs; simp_all)

/-- Capacity 0: the channel never holds a value. -/
def Cap0Inv (s : St) : Prop := s.cap = 0 ∧ s.buf = 0 ∧ s.c 0 ≠ .retToken

theorem cap0_step (s : St) (a : Act) (s' : St)
    (h1 : OneInv s) (h : Cap0Inv s) (hs : step s a = some s') : Cap0Inv s' := by
  obtain ⟨hc, hb, ht⟩ := h
  obtain ⟨h1, h2, h3, h4⟩ := h1
  unfold step at hs
  unfold Cap0Inv
  cases a with
  | handC j k =>
    simp only at hs; split at hs
    · rename_i hc; cases hs
      have hj : j = 0 := Decidable.byContradiction (fun hne => by rw [h1 j hne] at hc; simp at hc)
      have hk : k = 0 := Decidable.byContradiction (fun hne => by rw [h1 k hne] at hc; simp at hc)
      subst hj; subst hk; exact absurd (hc.2.1.symm.trans hc.2.2.1) (by decide)
    · cases hs
  | _ =>
    simp only at hs; (repeat' split at hs) <;>
    first
    | (cases hs; done)
    | (cases hs; refine ⟨?_, ?_, ?_⟩ <;> simp only [upd] <;> (repeat' split) <;> (first | omega | simp_all))

/-- Progress measure of the running goroutines. -/
def wRank : WPc → Nat
  | .recv => 4 | .cleanup => 3 | .closeMsgs => 2 | .closeCancel => 1 | .done => 0

/-- Progress measure of a call. -/
def cRank : CPc → Nat
  | .idle => 0 | .sending => 2 | .selecting => 1 | _ => 0

def rank (s : St) : Nat := wRank s.w + cRank (s.c 0)

theorem rank_step (s : St) (a : Act) (s' : St) (ha : a.isEnv = false) (h : OneInv s)
    (hs : step s a = some s') : rank s' < rank s := by
  have hone := oneInv_step s a s' (by intro i hi; subst hi; simp [Act.isEnv] at ha) h hs
  obtain ⟨h1, h2, h3, h4⟩ := h
  have hnp := hone.2.2.1
  unfold step at hs
  unfold rank
  cases a with
  | call j => simp [Act.isEnv] at ha
  | expire j => simp [Act.isEnv] at ha
  | handC j k =>
    simp only at hs; split at hs
    · rename_i hc; cases hs
      have hj : j = 0 := Decidable.byContradiction (fun hne => by rw [h1 j hne] at hc; simp at hc)
      have hk : k = 0 := Decidable.byContradiction (fun hne => by rw [h1 k hne] at hc; simp at hc)
      subst hj; subst hk; exact absurd (hc.2.1.symm.trans hc.2.2.1) (by decide)
    · cases hs
  | send j | handW j | recvC j | ctxC j =>
    simp only at hs; (repeat' split at hs) <;>
    first
    | (cases hs; done)
    | (cases hs
       have hj : j = 0 := Decidable.byContradiction (fun hne => by have := h1 j hne; simp_all)
       subst hj; simp_all [upd, cRank, wRank])
  | _ =>
    simp only at hs; (repeat' split at hs) <;>
    first
    | (cases hs; done)
    | (cases hs; simp_all [cRank, wRank])

/-- While a call is in its select and the waiter has not moved, a value is waiting. -/
def TokenInv (s : St) : Prop := s.c 0 = .selecting → s.w = .recv → 0 < s.buf

theorem token_step (s : St) (a : Act) (s' : St) (h1 : OneInv s) (h : TokenInv s)
    (hs : step s a = some s') : TokenInv s' := by
  obtain ⟨h1, h2, h3, h4⟩ := h1
  unfold step at hs
  unfold TokenInv at h ⊢
  cases a with
  | handC j k =>
    simp only at hs; split at hs
    · rename_i hc; cases hs
      have hj : j = 0 := Decidable.byContradiction (fun hne => by rw [h1 j hne] at hc; simp at hc)
      have hk : k = 0 := Decidable.byContradiction (fun hne => by rw [h1 k hne] at hc; simp at hc)
      subst hj; subst hk; exact absurd (hc.2.1.symm.trans hc.2.2.1) (by decide)
    · cases hs
  | call j | send j | handW j | recvC j | ctxC j | expire j =>
    simp only at hs; (repeat' split at hs) <;>
    first
    | (cases hs; done)
    | (cases hs
       by_cases hj : j = 0
       · subst hj; simp_all [upd]
       · have := h1 j hj; have hj' : ¬ 0 = j := fun h => hj h.symm; simp_all [upd])
  | _ =>
    simp only at hs; (repeat' split at hs) <;>
    first
    | (cases hs; done)
    | (cases hs; simp_all)

end Verif.Cancel
