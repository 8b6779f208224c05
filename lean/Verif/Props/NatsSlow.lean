import Verif.Spec.NatsSlow

/-! # C135: a slow handler loses no message received over NATS -/

namespace Verif.NatsSlow
open Spec

variable {M : Type}

theorem run_append (limit cap : Nat) (s : St M) (a b : List (Ev M)) : run limit cap s (a ++ b) = run limit cap (run limit cap s a) b :=
  List.foldl_append

theorem arrived_append (a b : List (Ev M)) : arrived (a ++ b) = arrived a ++ arrived b := by
  induction a with
  | nil => rfl
  | cons e a ih => cases e <;> simp [arrived, ih]

/-- What holds in every state. -/
structure Inv (limit cap : Nat) (l : List M) (s : St M) : Prop where
  order : (s.handled ++ onTheWay s).Sublist l
  count : s.handled.length + (onTheWay s).length + s.dropped.length = l.length
  none : s.dropped = [] → s.handled ++ onTheWay s = l
  library : s.waiting ≤ limit
  queue : s.queue.length ≤ cap

theorem inv_step {limit cap : Nat} {l : List M} {s : St M} (h : Inv limit cap l s) (e : Ev M) :
    Inv limit cap (l ++ arrived [e]) (step limit cap s e) := by
  obtain ⟨h1, h2, h3, h4, h5⟩ := h
  unfold onTheWay at h1 h2 h3
  unfold St.waiting at h4
  cases e with
  | arrive m =>
    unfold step
    simp only [arrived]
    by_cases hw : s.waiting < limit
    · rw [if_pos hw]
      unfold St.waiting at hw
      refine ⟨?_, ?_, fun hd => ?_, ?_, h5⟩
      · simpa [onTheWay] using List.Sublist.append h1 (List.Sublist.refl [m])
      · simp only [onTheWay, List.length_append, List.length_singleton] at h2 ⊢; omega
      · rw [← h3 hd]; simp [onTheWay]
      · simp only [St.waiting, List.length_append, List.length_singleton]; omega
    · rw [if_neg hw]
      refine ⟨h1.trans (List.sublist_append_left _ _), ?_, fun hd => ?_, h4, h5⟩
      · simp only [onTheWay, List.length_append, List.length_singleton] at h2 ⊢; omega
      · simp at hd
  | call =>
    rw [show l ++ arrived [Ev.call] = l by simp [arrived]]
    unfold step
    cases hh : s.hand with
    | some m => exact ⟨h1, h2, h3, h4, h5⟩
    | none =>
      cases hp : s.pending with
      | nil => exact ⟨h1, h2, h3, h4, h5⟩
      | cons m rest =>
        rw [hh, hp] at h1 h2 h3 h4
        refine ⟨(by simpa [onTheWay] using h1), (by simpa [onTheWay] using h2), (fun hd => by simpa [onTheWay] using h3 hd), ?_, h5⟩
        simpa [St.waiting] using h4
  | put =>
    rw [show l ++ arrived [Ev.put] = l by simp [arrived]]
    unfold step
    cases hh : s.hand with
    | none => exact ⟨h1, h2, h3, h4, h5⟩
    | some m =>
      dsimp only
      by_cases hq : s.queue.length < cap
      · rw [if_pos hq]
        rw [hh] at h1 h2 h3 h4
        refine ⟨(by simpa [onTheWay] using h1), (by simp [onTheWay] at h2 ⊢; omega), (fun hd => by simpa [onTheWay] using h3 hd), ?_, ?_⟩
        · simp [St.waiting] at h4 ⊢; omega
        · simp; omega
      · rw [if_neg hq]; exact ⟨h1, h2, h3, h4, h5⟩
  | handle =>
    rw [show l ++ arrived [Ev.handle] = l by simp [arrived]]
    unfold step
    cases hq : s.queue with
    | nil => exact ⟨h1, h2, h3, h4, h5⟩
    | cons m rest =>
      rw [hq] at h1 h2 h3 h5
      refine ⟨(by simpa [onTheWay] using h1), (by simp [onTheWay] at h2 ⊢; omega), (fun hd => by simpa [onTheWay] using h3 hd), h4, ?_⟩
      exact Nat.le_of_succ_le (by simpa using h5)

theorem inv_run (limit cap : Nat) (es : List (Ev M)) : ∀ (l : List M) (s : St M), Inv limit cap l s →
    Inv limit cap (l ++ arrived es) (run limit cap s es) := by
  induction es with
  | nil => intro l s h; simpa [arrived, run] using h
  | cons e es ih =>
    intro l s h
    have := ih _ _ (inv_step h e)
    rw [List.append_assoc, ← arrived_append] at this
    exact this

theorem inv_init (limit cap : Nat) (es : List (Ev M)) : Inv limit cap (arrived es) (run limit cap {} es) := by
  have := inv_run limit cap es [] {} ⟨List.Sublist.refl _, rfl, fun _ => rfl, Nat.zero_le _, Nat.zero_le _⟩
  simpa using this

/-- **C135 (partial: without what was dropped).** The handler is called with messages that arrived, in their order, each once; what
is neither handled nor on its way was dropped. -/
theorem C135_order_partial (limit cap : Nat) (es : List (Ev M)) :
    ((run limit cap {} es).handled ++ onTheWay (run limit cap {} es)).Sublist (arrived es) ∧
    (run limit cap {} es).handled.length + (onTheWay (run limit cap {} es)).length + (run limit cap {} es).dropped.length =
      (arrived es).length := ⟨(inv_init limit cap es).order, (inv_init limit cap es).count⟩

theorem dropped_step (limit cap : Nat) (s : St M) (e : Ev M) (hd : s.dropped = []) (hw : ∀ m, e = .arrive m → s.waiting < limit) :
    (step limit cap s e).dropped = [] := by
  cases e with
  | arrive m => unfold step; dsimp only; rw [if_pos (hw m rfl)]; exact hd
  | call => unfold step; cases s.hand <;> cases s.pending <;> exact hd
  | put =>
    unfold step
    cases s.hand with
    | none => exact hd
    | some m => dsimp only; split <;> exact hd
  | handle => unfold step; cases s.queue <;> exact hd

/-- **C135 (partial: while the handler keeps up).** If never more messages have arrived than the handler was called with and the
library keeps, none is lost: all of them were handled, or are on their way, in order. -/
theorem C135_kept_partial (limit cap : Nat) (es : List (Ev M))
    (hk : ∀ p q, es = p ++ q → (arrived p).length ≤ (run limit cap {} p).handled.length + limit) :
    (run limit cap {} es).dropped = [] ∧ (run limit cap {} es).handled ++ onTheWay (run limit cap {} es) = arrived es := by
  have key : ∀ (q p : List (Ev M)), es = p ++ q → (run limit cap {} p).dropped = [] → (run limit cap {} (p ++ q)).dropped = [] := by
    intro q
    induction q with
    | nil => intro p _ h; simpa using h
    | cons e q ih =>
      intro p he hd
      have hs : es = (p ++ [e]) ++ q := by simpa using he
      have := ih (p ++ [e]) hs ?_
      · simpa using this
      · rw [run_append]
        refine dropped_step limit cap _ e hd ?_
        rintro m rfl
        have h1 := hk (p ++ [.arrive m]) q hs
        have h2 := (inv_init limit cap p).count
        have h3 : (run limit cap {} (p ++ [.arrive m])).handled = (run limit cap {} p).handled := by
          rw [run_append]
          show (step limit cap (run limit cap {} p) (.arrive m)).handled = _
          unfold step
          dsimp only
          split <;> rfl
        rw [h3, arrived_append, List.length_append] at h1
        simp only [arrived, List.length_singleton] at h1
        simp only [onTheWay, List.length_append] at h2
        rw [hd, List.length_nil] at h2
        unfold St.waiting
        omega
  have hd := key es [] rfl rfl
  rw [List.nil_append] at hd
  exact ⟨hd, (inv_init limit cap es).none hd⟩

/-! ### Nothing is stuck -/

/-- The turns that are left, at most. -/
def weight (s : St M) : Nat := 3 * s.pending.length + 2 * s.hand.toList.length + s.queue.length

theorem step_quiet (limit cap : Nat) (s : St M) (e : Ev M) (he : ∀ m, e ≠ .arrive m) :
    (step limit cap s e).handled ++ onTheWay (step limit cap s e) = s.handled ++ onTheWay s ∧
    (step limit cap s e = s ∨ weight (step limit cap s e) < weight s) := by
  obtain ⟨pending, hand, queue, handled, dropped⟩ := s
  cases e with
  | arrive m => exact absurd rfl (he m)
  | call =>
    cases hand <;> cases pending <;> simp [step, onTheWay, weight]
    omega
  | put =>
    cases hand with
    | none => simp [step]
    | some m =>
      by_cases h : queue.length < cap
      · simp [step, h, onTheWay, weight]
        omega
      · simp [step, h]
  | handle =>
    cases queue <;> simp [step, onTheWay, weight]

theorem step_able (limit : Nat) {cap : Nat} (hc : 0 < cap) (s : St M) (h : 0 < weight s) :
    ∃ e : Ev M, (e = .call ∨ e = .put ∨ e = .handle) ∧ weight (step limit cap s e) < weight s := by
  obtain ⟨pending, hand, queue, handled, dropped⟩ := s
  cases queue with
  | cons m rest => exact ⟨.handle, by simp, by simp [step, weight]⟩
  | nil =>
    cases hand with
    | some m => exact ⟨.put, by simp, by simp [step, weight, hc]⟩
    | none =>
      cases pending with
      | cons m rest =>
        refine ⟨.call, by simp, ?_⟩
        simp [step, weight]
        omega
      | nil => simp [weight] at h

theorem arrived_none {r : List (Ev M)} (h : arrived r = []) : ∀ e ∈ r, ∀ m, e ≠ .arrive m := by
  induction r with
  | nil => intro e he; cases he
  | cons a r ih =>
    intro e he m hm
    subst hm
    cases a with
    | arrive k => simp [arrived] at h
    | call | put | handle =>
      rcases List.mem_cons.1 he with he | he
      · cases he
      · exact ih h _ he m rfl

theorem run_quiet (limit cap : Nat) (r : List (Ev M)) : ∀ (s : St M), (∀ e ∈ r, ∀ m, e ≠ .arrive m) →
    (run limit cap s r).handled ++ onTheWay (run limit cap s r) = s.handled ++ onTheWay s ∧
    weight (run limit cap s r) ≤ weight s ∧
    ∀ e ∈ r, weight (step limit cap s e) < weight s → weight (run limit cap s r) < weight s := by
  induction r with
  | nil => intro s _; exact ⟨rfl, Nat.le_refl _, fun e he => by cases he⟩
  | cons a r ih =>
    intro s hr
    obtain ⟨h1, h2⟩ := step_quiet limit cap s a (hr a List.mem_cons_self)
    obtain ⟨i1, i2, i3⟩ := ih (step limit cap s a) (fun e he => hr e (List.mem_cons_of_mem _ he))
    have hrun : run limit cap s (a :: r) = run limit cap (step limit cap s a) r := rfl
    rw [hrun]
    refine ⟨i1.trans h1, ?_, fun e he hlt => ?_⟩
    · rcases h2 with h2 | h2
      · rw [h2] at i2 ⊢; exact i2
      · omega
    · rcases h2 with h2 | h2
      · rcases List.mem_cons.1 he with rfl | he
        · rw [h2] at hlt; omega
        · rw [h2] at i3 ⊢; exact i3 e he hlt
      · omega

/-- **C135 (partial: when nothing more arrives).** Nothing gets stuck on its way: after any history, if the channel has room for a
message at all, and the library, the function and the listener get their turns often enough, in any order, the handler is called
with everything that was on its way, in order. -/
theorem C135_drains_partial (limit : Nat) {cap : Nat} (hc : 0 < cap) (es : List (Ev M)) (rs : List (List (Ev M)))
    (hr : ∀ r ∈ rs, Round r) (hn : 3 * (onTheWay (run limit cap {} es)).length ≤ rs.length) :
    onTheWay (run limit cap {} (es ++ rs.flatten)) = [] ∧
    (run limit cap {} (es ++ rs.flatten)).handled = (run limit cap {} es).handled ++ onTheWay (run limit cap {} es) := by
  have key : ∀ (rs : List (List (Ev M))) (s : St M), (∀ r ∈ rs, Round r) → weight s ≤ rs.length →
      weight (run limit cap s rs.flatten) = 0 ∧
      (run limit cap s rs.flatten).handled ++ onTheWay (run limit cap s rs.flatten) = s.handled ++ onTheWay s := by
    intro rs
    induction rs with
    | nil => intro s _ h; exact ⟨Nat.le_zero.1 h, rfl⟩
    | cons r rs ih =>
      intro s hr h
      obtain ⟨q0, q1, q2, q3⟩ := hr r List.mem_cons_self
      obtain ⟨i1, i2, i3⟩ := run_quiet limit cap r s (arrived_none q0)
      have hrun : run limit cap s (r :: rs).flatten = run limit cap (run limit cap s r) rs.flatten := by
        simp [run, List.flatten_cons, List.foldl_append]
      have hw : weight (run limit cap s r) ≤ rs.length := by
        rw [List.length_cons] at h
        by_cases h0 : 0 < weight s
        · obtain ⟨e, he, hlt⟩ := step_able limit hc s h0
          have := i3 e (by rcases he with rfl | rfl | rfl <;> assumption) hlt
          omega
        · omega
      obtain ⟨j1, j2⟩ := ih _ (fun r' h' => hr r' (List.mem_cons_of_mem _ h')) hw
      rw [hrun]
      exact ⟨j1, j2.trans i1⟩
  have happ : run limit cap {} (es ++ rs.flatten) = run limit cap (run limit cap {} es) rs.flatten := by
    simp [run, List.foldl_append]
  have hw : weight (run limit cap {} es) ≤ rs.length := by
    simp only [onTheWay, List.length_append] at hn
    unfold weight
    omega
  obtain ⟨k1, k2⟩ := key rs _ hr hw
  have hempty : onTheWay (run limit cap (run limit cap {} es) rs.flatten) = [] := by
    unfold weight at k1
    unfold onTheWay
    rw [List.eq_nil_iff_length_eq_zero]
    simp only [List.length_append]
    omega
  rw [happ]
  refine ⟨hempty, ?_⟩
  rw [hempty, List.append_nil] at k2
  exact k2

/-- **C135 is violated**: whatever the library, the channel and the goroutines do, and in whatever order, at least as many messages
are dropped as have arrived beyond those the handler was called with, the channel holds and the library keeps. -/
theorem C135_violated_slow (limit cap : Nat) (es : List (Ev M)) :
    (arrived es).length ≤ (run limit cap {} es).dropped.length + (run limit cap {} es).handled.length + cap + limit := by
  have h := inv_init limit cap es
  have h1 := h.count
  have h2 := h.library
  have h3 := h.queue
  simp only [onTheWay, List.length_append] at h1
  unfold St.waiting at h2
  omega

/-- **C135 is violated** for every limit and every size of the channel: there is a history of a handler that is not called, in which
one message more has arrived, and it is dropped. -/
theorem C135_violated_dropped (limit cap : Nat) (m : M) :
    ∃ es : List (Ev M), arrived es = List.replicate (cap + limit + 1) m ∧ (run limit cap {} es).dropped ≠ [] := by
  refine ⟨List.replicate (cap + limit + 1) (.arrive m), ?_, fun hd => ?_⟩
  · generalize cap + limit + 1 = n
    induction n with
    | zero => rfl
    | succ n ih => rw [List.replicate_succ, List.replicate_succ, arrived, ih]
  · have h1 := C135_violated_slow limit cap (List.replicate (cap + limit + 1) (.arrive m))
    have h2 : ∀ n, (arrived (List.replicate n (Ev.arrive m))).length = n := by
      intro n
      induction n with
      | zero => rfl
      | succ n ih => rw [List.replicate_succ, arrived, List.length_cons, ih]
    have h3 : ∀ n, (run limit cap {} (List.replicate n (Ev.arrive m))).handled = [] := by
      have key : ∀ n (s : St M), s.handled = [] → (run limit cap s (List.replicate n (Ev.arrive m))).handled = [] := by
        intro n
        induction n with
        | zero => intro s h; exact h
        | succ n ih =>
          intro s h
          refine ih _ ?_
          unfold step
          dsimp only
          split <;> exact h
      exact fun n => key n {} rfl
    rw [h2, h3, hd] at h1
    simp at h1
    omega

/-! ## Non-vacuity -/

/-- Two messages kept, one place in the channel: the fourth message finds no place, then the handler goes on. -/
def exHist : List (Ev Nat) := [.arrive 1, .call, .put, .arrive 2, .call, .put, .arrive 3, .arrive 4, .handle, .put, .call, .handle]

example : run 2 1 {} exHist = { hand := some 3, handled := [1, 2], dropped := [4] } := by decide

example : (run 2 1 {} (exHist ++ [.arrive 5])).pending = [5] := by decide

/-- Three messages on their way, and turns in an order in which most do nothing. -/
example : Round ([.handle, .put, .call] : List (Ev Nat)) := by unfold Round; decide

example : (run 2 1 {} ([.arrive 1, .call, .put, .arrive 2, .call, .arrive 3] ++ (List.replicate 9 [.handle, .put, .call]).flatten) : St Nat) =
    { handled := [1, 2, 3] } := by decide

/-- A handler that keeps up. -/
example : (run 1 1 {} [.arrive 1, .call, .put, .handle, .arrive 2, .call, .put, .handle] : St Nat) = { handled := [1, 2] } := by decide

end Verif.NatsSlow
