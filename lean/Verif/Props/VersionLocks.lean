import Verif.Model.VersionLocks

/-! # C29: deadlocks of the versioning wrapper -/

namespace Verif.VersionLocks

/-- Deadlock: some call is not finished and no call can move. -/
def Deadlock (s : St) : Prop := (∃ i, s.threads i ≠ []) ∧ ∀ i, step s i = none

/-- **C29 is violated**: a subscription and a cancellation on one channel, started together, deadlock. -/
theorem C29_violated :
    ∃ s, run (start (fun i => if i = 0 then subscribe else if i = 1 then remove else [])) [0, 1] = some s ∧
      Deadlock s := by
  refine ⟨_, rfl, ⟨0, by simp⟩, ?_⟩
  intro i
  match i with
  | 0 => rfl
  | 1 => rfl
  | n + 2 => rfl

/-- Code `p` run while holding `held` (last taken first) releases in reverse order everything it takes,
and only takes locks of higher rank than those it holds. -/
def Ordered (rank : Lock → Nat) : List Lock → List Instr → Prop
  | held, [] => held = []
  | held, .lock l :: p => (∀ h ∈ held, rank h < rank l) ∧ Ordered rank (l :: held) p
  | held, .unlock l :: p => ∃ rest, held = l :: rest ∧ l ∉ rest ∧ Ordered rank rest p

/-- What each goroutine holds is what its remaining code releases. -/
def Inv (rank : Lock → Nat) (s : St) : Prop :=
  ∃ held : Nat → List Lock, (∀ i, Ordered rank (held i) (s.threads i)) ∧
    ∀ i l, l ∈ held i ↔ s.holder l = some i

theorem inv_step {rank : Lock → Nat} {s s1 : St} {i : Nat} (hi : Inv rank s) (hs : step s i = some s1) :
    Inv rank s1 := by
  obtain ⟨held, h1, h2⟩ := hi
  unfold step at hs
  have hoi := h1 i
  cases ht : s.threads i with
  | nil => rw [ht] at hs; cases hs
  | cons ins rest =>
    rw [ht] at hs hoi
    cases ins with
    | lock l =>
      simp only at hs
      cases hh : s.holder l with
      | some j => rw [hh] at hs; cases hs
      | none =>
        rw [hh] at hs; cases hs
        refine ⟨fun j => if j = i then l :: held i else held j, ?_, ?_⟩
        · intro j
          by_cases hj : j = i
          · subst hj; simpa using hoi.2
          · simpa [hj] using h1 j
        · intro j l'
          by_cases hj : j = i
          · subst hj
            simp only [if_true, List.mem_cons, h2]
            by_cases hl : l' = l
            · simp [hl]
            · simp [hl]
          · simp only [hj, if_false, h2]
            by_cases hl : l' = l
            · subst hl
              simp only [hh, if_true, Option.some.injEq]
              constructor
              · intro h; cases h
              · intro h; exact absurd h.symm hj
            · simp [hl]
    | unlock l =>
      cases hs
      obtain ⟨r, hr, hnr, hor⟩ := hoi
      refine ⟨fun j => if j = i then r else held j, ?_, ?_⟩
      · intro j
        by_cases hj : j = i
        · subst hj; simpa using hor
        · simpa [hj] using h1 j
      · intro j l'
        have hli : s.holder l = some i := (h2 i l).mp (by rw [hr]; simp)
        by_cases hj : j = i
        · subst hj
          simp only [if_true]
          by_cases hl : l' = l
          · subst hl; simp [hnr]
          · simp only [hl, if_false]
            rw [← h2, hr]
            simp [hl]
        · simp only [hj, if_false, h2]
          by_cases hl : l' = l
          · subst hl
            simp only [hli, if_true, Option.some.injEq, reduceCtorEq, iff_false]
            exact fun h => hj h.symm
          · simp [hl]

theorem inv_run {rank : Lock → Nat} : ∀ (is : List Nat) {s s' : St}, Inv rank s → run s is = some s' →
    Inv rank s' := by
  intro is
  induction is with
  | nil => intro s s' h hr; cases hr; exact h
  | cons i is ih =>
    intro s s' h hr
    simp only [run] at hr
    cases hs : step s i with
    | none => rw [hs] at hr; cases hr
    | some s1 => rw [hs] at hr; exact ih (inv_step h hs) hr

/-- Ordered locking does not deadlock. -/
theorem no_deadlock {rank : Lock → Nat} (hb : ∀ l, rank l ≤ 1) {s : St} (hi : Inv rank s) :
    ¬ Deadlock s := by
  obtain ⟨held, h1, h2⟩ := hi
  rintro ⟨⟨i, hne⟩, hstuck⟩
  -- a goroutine holding a lock of rank at least n waits for one of rank at least n + 1
  have next : ∀ i, s.threads i ≠ [] → ∃ l j, s.holder l = some j ∧ (∀ h ∈ held i, rank h < rank l) := by
    intro i hne
    have hst := hstuck i
    have ho := h1 i
    unfold step at hst
    cases ht : s.threads i with
    | nil => exact absurd ht hne
    | cons ins rest =>
      rw [ht] at hst ho
      cases ins with
      | unlock l => cases hst
      | lock l =>
        simp only at hst
        cases hh : s.holder l with
        | none => rw [hh] at hst; cases hst
        | some j => exact ⟨l, j, hh, ho.1⟩
  have busy : ∀ l j, s.holder l = some j → s.threads j ≠ [] := by
    intro l j h ht
    have ho := h1 j
    rw [ht] at ho
    have := (h2 j l).mpr h
    rw [show held j = [] from ho] at this
    simp at this
  obtain ⟨l1, j1, hl1, _⟩ := next i hne
  obtain ⟨l2, j2, hl2, hr2⟩ := next j1 (busy l1 j1 hl1)
  have e1 := hr2 l1 ((h2 j1 l1).mpr hl1)
  obtain ⟨l3, j3, hl3, hr3⟩ := next j2 (busy l2 j2 hl2)
  have e2 := hr3 l2 ((h2 j2 l2).mpr hl2)
  have := hb l3
  omega

/-- **C29 (partial: no cancellation overlaps a subscription).** Any number of concurrent subscriptions and
deliveries, or of concurrent cancellations and deliveries, in any interleaving, never deadlock. Missing:
subscriptions together with cancellations, which deadlock (above). -/
theorem C29_no_deadlock_partial (threads : Nat → List Instr) (is : List Nat) (s : St)
    (h : (∀ i, threads i = [] ∨ threads i = deliver ∨ threads i = subscribe) ∨
         (∀ i, threads i = [] ∨ threads i = deliver ∨ threads i = remove))
    (hr : run (start threads) is = some s) : ¬ Deadlock s := by
  rcases h with h | h
  · refine no_deadlock (rank := fun | .channels => 0 | .versions => 1) ?_ (inv_run is ?_ hr)
    · intro l; cases l <;> simp
    · refine ⟨fun _ => [], fun i => ?_, fun i l => by simp [start]⟩
      rcases h i with h | h | h <;> simp [start, h, Ordered, deliver, subscribe]
  · refine no_deadlock (rank := fun | .channels => 1 | .versions => 0) ?_ (inv_run is ?_ hr)
    · intro l; cases l <;> simp
    · refine ⟨fun _ => [], fun i => ?_, fun i l => by simp [start]⟩
      rcases h i with h | h | h <;> simp [start, h, Ordered, deliver, remove]

/-- Three subscriptions and a delivery: a schedule reaching a state where some call waits for another. -/
example : ∃ s, run (start (fun i => if i < 3 then subscribe else if i = 3 then deliver else [])) [0, 3] = some s ∧
    step s 0 = none ∧ step s 1 = none ∧ step s 3 ≠ none := ⟨_, rfl, rfl, rfl, by simp [step, deliver, subscribe, start]⟩

end Verif.VersionLocks
