import Verif.Model.Pipeline

/-! # C04, C05: messages between the broker and the listener -/

namespace Verif.Pipeline

/-- States some schedule leads to. -/
def Reachable (cap : Nat) (acts : List Act) (s : St) : Prop := run (init cap) acts = some s

theorem run_inv {P : St → Prop} {Q : Act → Prop}
    (hstep : ∀ s a s', Q a → P s → step s a = some s' → P s') :
    ∀ (acts : List Act) (s s' : St), (∀ a ∈ acts, Q a) → P s → run s acts = some s' → P s' := by
  intro acts
  induction acts with
  | nil => intro s s' _ hp h; simp only [run, Option.some.injEq] at h; exact h ▸ hp
  | cons a as ih =>
    intro s s' hq hp h
    simp only [run] at h
    split at h
    · rename_i s1 h1
      exact ih s1 s' (fun b hb => hq b (List.mem_cons_of_mem _ hb))
        (hstep s a s1 (hq a List.mem_cons_self) hp h1) h
    · cases h

/-- Conservation: what was handed over is what was handled, then what is being handled, then what is
queued; a stopped listener saw the channel closed and has nothing left. -/
def Inv (s : St) : Prop :=
  s.handled ++ s.cur.toList ++ s.queue = s.sent ∧
  (s.stopped = true → s.closed = true ∧ s.cur = none ∧ s.queue = []) ∧
  s.queue.length ≤ s.cap

theorem inv_step (s : St) (a : Act) (s' : St) (h : Inv s) (hs : step s a = some s') : Inv s' := by
  obtain ⟨h1, h2, h3⟩ := h
  cases a <;> simp only [step] at hs
  case transmit m =>
    split at hs <;> cases hs
    exact ⟨h1, h2, h3⟩
  case push =>
    (repeat' split at hs) <;> cases hs
    · exact ⟨h1, h2, h3⟩
    · refine ⟨?_, ?_, ?_⟩
      · simp [← h1]
      · intro hst; have := h2 hst; simp_all
      · simp only [List.length_append, List.length_cons, List.length_nil]; omega
  case handoff =>
    (repeat' split at hs) <;> cases hs
    rename_i m hm hc
    simp only [received, Bool.not_true, Bool.false_and, Bool.false_eq_true, if_false]
    refine ⟨?_, ?_, ?_⟩
    · simp [← h1, hc.2.1, hc.2.2.1]
    · intro hst; simp_all
    · exact h3
  case recv =>
    split at hs
    · rename_i hc
      split at hs
      · rename_i m q hq
        cases hs
        simp only [received, Bool.not_true, Bool.false_and, Bool.false_eq_true, if_false]
        refine ⟨?_, ?_, ?_⟩
        · simp [← h1, hc.2.1, hq]
        · intro hst; simp_all
        · simp only [hq, List.length_cons] at h3; simp only; omega
      · split at hs <;> cases hs
        rename_i hq hcl
        have : (received s BrokerMessage.zero false) = { s with stopped := true } := by
          simp [received, BrokerMessage.zero, BrokerMessage.isUninitialized]
        rw [this]
        exact ⟨h1, fun _ => ⟨hcl, hc.2.1, hq⟩, h3⟩
    · cases hs
  case finish =>
    (repeat' split at hs) <;> cases hs
    rename_i m hm
    refine ⟨?_, ?_, h3⟩
    · simp [← h1, hm]
    · intro hst; have := h2 hst; simp_all
  case close =>
    (repeat' split at hs) <;> cases hs
    · exact ⟨h1, h2, h3⟩
    · exact ⟨h1, fun hst => ⟨rfl, (h2 hst).2⟩, h3⟩

theorem inv_of_reachable {cap : Nat} {acts : List Act} {s : St} (h : Reachable cap acts s) : Inv s :=
  run_inv (P := Inv) (Q := fun _ => True) (fun s a s' _ hp hs => inv_step s a s' hp hs)
    acts (init cap) s (fun _ _ => trivial) (by simp [Inv, init]) h

/-- **C04.** At any moment of any schedule, for any queue capacity, the messages handled so far, the
one being handled and the queued ones are together exactly the messages handed over, in order: none
lost, duplicated or reordered. -/
theorem C04_no_loss_no_dup_in_order (cap : Nat) (acts : List Act) (s : St)
    (h : Reachable cap acts s) : s.handled ++ s.cur.toList ++ s.queue = s.sent :=
  (inv_of_reachable h).1

/-- **C04.** A listener that has stopped has handled every message handed over. -/
theorem C04_stopped_listener_handled_everything (cap : Nat) (acts : List Act) (s : St)
    (h : Reachable cap acts s) (hst : s.stopped = true) : s.handled = s.sent := by
  have hi := inv_of_reachable h
  have h2 := hi.2.1 hst
  have h1 := hi.1
  simpa [h2.2.1, h2.2.2] using h1

/-- The environment's actions: the broker delivering a message, the close. -/
def Act.isEnv : Act → Bool
  | .transmit _ => true
  | .close => true
  | _ => false

/-- **C04, progress.** As long as the process has not crashed and something was handed over and is not
handled, the listener can move; once closed, it can move until it stops. -/
theorem C04_listener_never_stuck (cap : Nat) (acts : List Act) (s : St)
    (h : Reachable cap acts s) (hp : s.panicked = false)
    (hwork : s.handled ≠ s.sent ∨ (s.closed = true ∧ s.stopped = false)) :
    ∃ a, (a = .recv ∨ a = .finish) ∧ (step s a).isSome = true := by
  have hi := inv_of_reachable h
  cases hc : s.cur with
  | some m => exact ⟨.finish, Or.inr rfl, by simp [step, hp, hc]⟩
  | none =>
    refine ⟨.recv, Or.inl rfl, ?_⟩
    cases hq : s.queue with
    | cons m q =>
      have hst : s.stopped = false := by
        cases hst : s.stopped with
        | false => rfl
        | true => have := (hi.2.1 hst).2.2; rw [hq] at this; cases this
      simp [step, hp, hc, hq, hst]
    | nil =>
      have h1 := hi.1
      simp only [hc, hq, Option.toList_none, List.append_nil] at h1
      rcases hwork with hw | hw
      · exact absurd h1 hw
      · simp [step, hp, hc, hq, hw.1, hw.2]

/-- **C04, termination.** The goroutines already running make finitely many steps: at most three per
message pending in the pipeline, plus one to stop. -/
theorem C04_listener_terminates (more : List Act) : ∀ (s s' : St),
    (∀ a ∈ more, a.isEnv = false) → run s more = some s' →
    more.length ≤ 3 * s.pending.toList.length + 2 * s.queue.length + s.cur.toList.length + 2 := by
  intro s s' hm hr
  have key : ∀ (more : List Act) (s : St), (∀ a ∈ more, a.isEnv = false) → (run s more).isSome →
      more.length ≤ 3 * s.pending.toList.length + 2 * s.queue.length + s.cur.toList.length +
        (if s.stopped then 0 else 1) + (if s.panicked then 0 else 1) := by
    intro more
    induction more with
    | nil => intro s _ _; simp
    | cons a as ih =>
      intro s hm hr
      simp only [run] at hr
      split at hr
      · rename_i s1 h1
        have := ih s1 (fun b hb => hm b (List.mem_cons_of_mem _ hb)) hr
        have ha := hm a List.mem_cons_self
        simp only [List.length_cons]
        refine Nat.lt_of_le_of_lt this ?_
        clear this ih hr
        cases a <;> simp only [step] at h1
        case transmit => simp [Act.isEnv] at ha
        case close => simp [Act.isEnv] at ha
        case push =>
          (repeat' split at h1) <;> cases h1 <;> simp_all <;> omega
        case handoff =>
          (repeat' split at h1) <;> cases h1
          simp_all [received]
        case recv =>
          split at h1
          · split at h1
            · cases h1; simp_all [received]; omega
            · split at h1 <;> cases h1
              simp_all [received, BrokerMessage.zero, BrokerMessage.isUninitialized]
          · cases h1
        case finish =>
          (repeat' split at h1) <;> cases h1 <;> simp_all <;> omega
      · cases hr
  have := key more s hm (by rw [hr]; rfl)
  have h1 : (if s.stopped then 0 else 1) ≤ 1 := by split <;> omega
  have h2 : (if s.panicked then 0 else 1) ≤ 1 := by split <;> omega
  omega

/-- Three messages through a queue of one place, the last one queued when the channel is closed. -/
def demo (a b c : BrokerMessage) : List Act :=
  [.transmit a, .push, .recv, .transmit b, .push, .finish, .recv, .transmit c, .push, .close,
   .finish, .recv, .finish, .recv]

example (a b c : BrokerMessage) : ∃ s, Reachable 1 (demo a b c) s ∧ s.stopped = true ∧
    s.handled = [a, b, c] ∧ s.sent = [a, b, c] := ⟨_, rfl, rfl, rfl, rfl⟩

/-- **C05 is violated**: for every capacity there is a schedule in which the subscription is closed
(its cancellation reached broker.go:50) while the broker is delivering, and the process panics. -/
theorem C05_violated (cap : Nat) (m : BrokerMessage) :
    ∃ acts s, Reachable cap acts s ∧ s.panicked = true :=
  ⟨[.transmit m, .close, .push], _, rfl, rfl⟩

/-- **C05 is violated, inevitably**: once the channel is closed while a delivery is pending (for
instance blocked on a full queue), the pending delivery can only panic. -/
theorem C05_violated_inevitably (s : St) (m : BrokerMessage) (hc : s.closed = true)
    (hm : s.pending = some m) (hp : s.panicked = false) :
    step s .handoff = none ∧ ∃ s', step s .push = some s' ∧ s'.panicked = true := by
  constructor
  · simp [step, hp, hm, hc]
  · exact ⟨{ s with panicked := true }, by simp [step, hp, hm, hc], rfl⟩

/-- The broker is quiet once the channel gets closed: no delivery is pending at the close, none
starts afterwards, and it is closed once. -/
def QuietClose : St → List Act → Prop
  | _, [] => True
  | s, a :: as =>
    (a = .close → s.pending = none ∧ s.closed = false) ∧
    (∀ m, a = .transmit m → s.closed = false) ∧
    (match step s a with | some s' => QuietClose s' as | none => True)

/-- **C05 (partial).** If the broker's cleanup guarantees that no delivery is pending at the close and
none starts afterwards, nothing panics. Missing: the cleanups of the repository (NATS `Drain`, Kafka
`Close`, JetStream `close(channel)`) return without waiting for the delivering goroutine. -/
theorem C05_quiet_close_never_panics_partial (cap : Nat) (acts : List Act) (s : St)
    (hq : QuietClose (init cap) acts) (h : Reachable cap acts s) : s.panicked = false := by
  have key : ∀ (acts : List Act) (s s' : St), QuietClose s acts →
      (s.panicked = false ∧ (s.closed = true → s.pending = none)) → run s acts = some s' →
      s'.panicked = false := by
    intro acts
    induction acts with
    | nil => intro s s' _ hp h; simp only [run, Option.some.injEq] at h; exact h ▸ hp.1
    | cons a as ih =>
      intro s s' hq hp hr
      obtain ⟨hq1, hq2, hq3⟩ := hq
      simp only [run] at hr
      split at hr
      · rename_i s1 h1
        simp only [h1] at hq3
        refine ih s1 s' hq3 ?_ hr
        cases a <;> simp only [step] at h1
        case transmit m =>
          have := hq2 m rfl
          split at h1 <;> cases h1
          exact ⟨hp.1, fun hc => by simp_all⟩
        case push =>
          (repeat' split at h1) <;> cases h1 <;> simp_all
        case handoff =>
          (repeat' split at h1) <;> cases h1
          simp_all [received]
        case recv =>
          split at h1
          · split at h1
            · cases h1; simp_all [received]
            · split at h1 <;> cases h1
              simp_all [received, BrokerMessage.zero, BrokerMessage.isUninitialized]
          · cases h1
        case finish =>
          (repeat' split at h1) <;> cases h1 <;> simp_all
        case close =>
          have := hq1 rfl
          (repeat' split at h1) <;> cases h1 <;> simp_all
      · cases hr
  exact key acts (init cap) s hq (by simp [init]) h

example (a b c : BrokerMessage) : QuietClose (init 1) (demo a b c) := by
  simp [demo, QuietClose, step, received, init, BrokerMessage.zero, BrokerMessage.isUninitialized]

end Verif.Pipeline
