import Verif.Model.Listen
import Verif.Props.Ack
import Verif.Props.Middleware

/-! # C11–C13: handling of received messages -/

namespace Verif.Listen

open Verif.Middleware

variable {C D E : Type}

/-- Decoding and the user's function succeeded, on the message as left by the middlewares. -/
def HandledOk (env : Env C D E) (t : List (Ev C BrokerMessage E)) : Prop :=
  ∃ c m d, opRuns t = [(c, m)] ∧ env.decode m = .ok d ∧ env.fn (env.withCorr c d) d = .ret none

/-- The callback on a fresh message: either everything succeeded and it acknowledged, or it did not
touch the acknowledgement. -/
theorem callback_cases (env : Env C D E) (c : C) (m : BrokerMessage) :
    ((callback env c m W.start).1 = .ret none ∧ (callback env c m W.start).2.ack = ⟨true, [.ack]⟩ ∧
      ∃ d, env.decode m = .ok d ∧ env.fn (env.withCorr c d) d = .ret none) ∨
    ((callback env c m W.start).1 ≠ .ret none ∧ (callback env c m W.start).2.ack = Ack.init ∧
      ¬ ∃ d, env.decode m = .ok d ∧ env.fn (env.withCorr c d) d = .ret none) := by
  unfold callback
  split
  · rename_i e he
    right
    refine ⟨by simp, rfl, ?_⟩
    rintro ⟨d, hd, _⟩
    rw [he] at hd; cases hd
  · rename_i d hd
    simp only
    split
    · rename_i hf
      left
      exact ⟨rfl, rfl, d, hd, hf⟩
    · rename_i e hf
      right
      refine ⟨by simp, rfl, ?_⟩
      rintro ⟨d', hd', hf'⟩
      rw [hd] at hd'; cases hd'; rw [hf] at hf'; cases hf'
    · rename_i hf
      right
      refine ⟨by simp, rfl, ?_⟩
      rintro ⟨d', hd', hf'⟩
      rw [hd] at hd'; cases hd'; rw [hf] at hf'; cases hf'

/-- Acknowledgement state at the end of the middleware chain. -/
theorem chain_ack (env : Env C D E) (m : BrokerMessage) :
    let o := executeMiddlewares env.mws (env.ctx m) m W.start (some (callback env))
    (HandledOk env o.2.trace ∧ o.2.x.ack = ⟨true, [.ack]⟩) ∨
    (¬ HandledOk env o.2.trace ∧ o.2.x.ack = Ack.init) := by
  intro o
  have hx := C09_world_changed_by_operation_only env.mws (env.ctx m) m W.start (callback env)
  have h1 := C06_operation_at_most_once env.mws (env.ctx m) m W.start (some (callback env))
  match hr : opRuns o.2.trace, h1 with
  | [], _ =>
    right
    rw [show (executeMiddlewares env.mws (env.ctx m) m W.start (some (callback env))) = o from rfl,
      hr] at hx
    refine ⟨?_, by rw [hx]; rfl⟩
    rintro ⟨c, m', d, hr', _⟩
    rw [hr] at hr'; cases hr'
  | [(c, m')], _ =>
    rw [show (executeMiddlewares env.mws (env.ctx m) m W.start (some (callback env))) = o from rfl,
      hr] at hx
    have hx' : o.2.x = (callback env c m' W.start).2 := hx
    rcases callback_cases env c m' with ⟨_, h2, d, h3, h4⟩ | ⟨_, h2, h3⟩
    · left
      exact ⟨⟨c, m', d, hr, h3, h4⟩, by rw [hx', h2]⟩
    · right
      refine ⟨?_, by rw [hx', h2]⟩
      rintro ⟨c2, m2, d, hr', h4, h5⟩
      rw [hr] at hr'
      cases hr'
      exact h3 ⟨d, h4, h5⟩
  | a :: b :: t, hle =>
    simp at hle

theorem doAck_foldl_ack (w : W C D E) (ks : List Ack.Kind) :
    (ks.foldl W.doAck w).ack = Ack.run w.ack ks := by
  induction ks generalizing w with
  | nil => rfl
  | cons k ks ih => simp only [List.foldl_cons, ih, Ack.run, W.doAck]

theorem run_append (s : Ack.St) (a b : List Ack.Kind) : Ack.run s (a ++ b) = Ack.run (Ack.run s a) b := by
  induction a generalizing s with
  | nil => rfl
  | cons k ks ih => simp [Ack.run, ih]

/-- **C11.** When the user's error handler makes no acknowledgement of its own, a received message is
positively acknowledged only if it was decoded and the user's function returned without error on it. -/
theorem C11_ack_only_after_success (env : Env C D E) (m : BrokerMessage)
    (heh : ∀ m e, .ack ∉ env.eh m e) (hack : .ack ∈ (handle env m).w.ack.hooks) :
    HandledOk env (handle env m).trace := by
  have hc := chain_ack env m
  unfold handle at hack ⊢
  generalize executeMiddlewares env.mws (env.ctx m) m W.start (some (callback env)) = o at hc hack
  obtain ⟨r, s⟩ := o
  simp only at hc
  rcases hc with hc | hc
  · cases r with
    | panicked => exact hc.1
    | ret e => cases e <;> exact hc.1
  · exfalso
    cases r with
    | panicked =>
      have h2 : s.x.ack = Ack.init := hc.2
      simp [h2, Ack.init] at hack
    | ret e =>
      cases e with
      | none =>
        have h2 : s.x.ack = Ack.init := hc.2
        simp [h2, Ack.init] at hack
      | some e =>
        have h1 : ((env.eh s.msg e).foldl W.doAck
            ({ s.x with log := s.x.log ++ [.errHandler e] } : W C D E)).ack =
            Ack.run Ack.init (env.eh s.msg e) := by
          rw [doAck_foldl_ack]
          have h2 : s.x.ack = Ack.init := hc.2
          rw [← h2]
        simp only [W.doAck, h1] at hack
        have h2 : Ack.step (Ack.run Ack.init (env.eh s.msg e)) .nak =
            Ack.run Ack.init (env.eh s.msg e ++ [Ack.Kind.nak]) := by rw [run_append]; rfl
        rw [h2, Ack.C01_hooks_are_the_first_call] at hack
        have := List.mem_of_mem_take hack
        simp only [List.mem_append, List.mem_singleton] at this
        rcases this with h | h
        · exact heh _ _ h
        · cases h

/-- **C12, success case.** Whatever the middlewares do, if decoding and the user's function succeeded
the message is acked (the broker's ack hook is called, once, and no nak). -/
theorem C12_acked_when_handled (env : Env C D E) (m : BrokerMessage)
    (h : HandledOk env (handle env m).trace) : (handle env m).w.ack.hooks = [.ack] := by
  have hc := chain_ack env m
  unfold handle at h ⊢
  generalize executeMiddlewares env.mws (env.ctx m) m W.start (some (callback env)) = o at hc h
  obtain ⟨r, s⟩ := o
  simp only at hc
  cases r with
  | panicked =>
    rcases hc with hc | hc
    · simp only [hc.2]
    · exact absurd h hc.1
  | ret e =>
    cases e with
    | none =>
      rcases hc with hc | hc
      · simp only [hc.2]
      · exact absurd h hc.1
    | some e =>
      rcases hc with hc | hc
      · simp only [W.doAck, doAck_foldl_ack, hc.2]
        have h2 : Ack.step (Ack.run ⟨true, [.ack]⟩ (env.eh s.msg e)) .nak = ⟨true, [.ack]⟩ := by
          rw [Ack.run_acked _ _ rfl]; rfl
        rw [h2]
      · exact absurd h hc.1

/-- The error handler calls made while handling a message, and the acknowledgement calls made after
the last of them. -/
def errorsTold : List (LEv C D E) → List E
  | [] => []
  | .errHandler e :: t => e :: errorsTold t
  | _ :: t => errorsTold t

theorem errorsTold_append (a b : List (LEv C D E)) :
    errorsTold (a ++ b) = errorsTold a ++ errorsTold b := by
  induction a with
  | nil => rfl
  | cons e t ih => cases e <;> simp [errorsTold, ih]

theorem callback_errorsTold (env : Env C D E) (c : C) (m : BrokerMessage) (w : W C D E) :
    errorsTold (callback env c m w).2.log = errorsTold w.log := by
  unfold callback
  split
  · rfl
  · simp only
    split <;> simp [W.doAck, errorsTold_append, errorsTold]

theorem chain_errorsTold (env : Env C D E) (m : BrokerMessage) :
    errorsTold (executeMiddlewares env.mws (env.ctx m) m W.start (some (callback env))).2.x.log = [] := by
  refine callLevel_pres (P := fun s => errorsTold s.x.log = []) (some (callback env))
    ?_ ?_ ?_ ?_ ?_ env.mws 0 _ (St.start m W.start) rfl
  · intro s l h; exact h
  · intro s l c h; exact h
  · intro s l r h; exact h
  · intro s m h; exact h
  · intro f c s hf h
    cases hf
    simp only [St.log]
    rw [callback_errorsTold]; exact h

theorem foldl_doAck_log (w : W C D E) (ks : List Ack.Kind) :
    (ks.foldl W.doAck w).log = w.log ++ ks.map .ackCall := by
  induction ks generalizing w with
  | nil => simp
  | cons k ks ih => simp [ih, W.doAck, List.append_assoc]

theorem errorsTold_ackCalls (ks : List Ack.Kind) :
    errorsTold (ks.map (LEv.ackCall (C := C) (D := D) (E := E))) = [] := by
  induction ks with
  | nil => rfl
  | cons k ks ih => simpa [errorsTold] using ih

/-- **C12, failure case (partial: middlewares that report failures, no crash).** If the message was
not successfully decoded and handled, the user's error handler is told exactly one error, and
afterwards the message is nacked, unless the error handler itself acknowledged it: the broker sees the
first of the error handler's own calls followed by the nak. Missing: middlewares that hide failures,
for which the claim is false (`C12_violated…`). -/
theorem C12_nacked_when_failed_partial (env : Env C D E) (m : BrokerMessage)
    (hrep : ∀ mw ∈ env.mws, ∀ ctx, Reports false (mw ctx))
    (hnc : (handle env m).crashed = false) (h : ¬ HandledOk env (handle env m).trace) :
    ∃ e m', (handle env m).w.ack.hooks = (env.eh m' e ++ [Ack.Kind.nak]).take 1 ∧
      errorsTold (handle env m).w.log = [e] ∧
      ∃ before, (handle env m).w.log =
        before ++ [.errHandler e] ++ (env.eh m' e ++ [Ack.Kind.nak]).map .ackCall := by
  have hc := chain_ack env m
  have h8 := C08_success_iff env.mws (env.ctx m) m (W.start (C := C) (D := D) (E := E)) (callback env) hrep
  have ht := chain_errorsTold env m
  have h9 := C09_outcomes_are_real env.mws (env.ctx m) m W.start (callback env)
  have h7 := C07_operation_executed env.mws (env.ctx m) m
    (W.start (C := C) (D := D) (E := E)) (callback env)
  unfold handle at h hnc ⊢
  generalize executeMiddlewares env.mws (env.ctx m) m W.start (some (callback env)) = o at *
  obtain ⟨r, s⟩ := o
  simp only at hc
  cases r with
  | panicked => simp at hnc
  | ret e =>
    cases e with
    | none =>
      exfalso
      rcases hc with hc | hc
      · exact h hc.1
      · -- success of the chain, so the operation was executed and succeeded
        have h8' := h8.mp rfl
        have h7' := (h7 h8'.1).2
        simp only at h7' h9 h8'
        match hr : opRuns s.trace, h7' with
        | [(c, m')], _ =>
          rw [hr, h8'.2] at h9
          simp only [outcomesOf, List.cons.injEq, and_true] at h9
          rcases callback_cases env c m' with ⟨_, _, d, h3, h4⟩ | ⟨h3, _⟩
          · exact h ⟨c, m', d, hr, h3, h4⟩
          · exact h3 h9.symm
    | some e =>
      rcases hc with hc | hc
      · exact absurd hc.1 h
      · refine ⟨e, s.msg, ?_, ?_, s.x.log, ?_⟩
        · simp only [W.doAck, doAck_foldl_ack, hc.2]
          have h2 : Ack.step (Ack.run Ack.init (env.eh s.msg e)) .nak =
            Ack.run Ack.init (env.eh s.msg e ++ [Ack.Kind.nak]) := by rw [run_append]; rfl
          rw [h2, Ack.C01_hooks_are_the_first_call]
        · simp only [W.doAck, foldl_doAck_log, errorsTold_append, errorsTold_ackCalls, errorsTold]
          simp only at ht
          simp [ht]
        · simp [W.doAck, foldl_doAck_log]

/-- **C12 (partial), usual case**: no middleware, an error handler that does not acknowledge, no panic:
exactly one acknowledgement, ack on success and nak on failure. -/
theorem C12_exactly_one_outcome_partial (env : Env C D E) (m : BrokerMessage)
    (hrep : ∀ mw ∈ env.mws, ∀ ctx, Reports false (mw ctx)) (heh : ∀ m e, env.eh m e = [])
    (hnc : (handle env m).crashed = false) :
    (HandledOk env (handle env m).trace ∧ (handle env m).w.ack.hooks = [.ack]) ∨
    (¬ HandledOk env (handle env m).trace ∧ (handle env m).w.ack.hooks = [.nak] ∧
      ∃ e before, (handle env m).w.log = before ++ [.errHandler e, .ackCall .nak]) := by
  by_cases h : HandledOk env (handle env m).trace
  · exact Or.inl ⟨h, C12_acked_when_handled env m h⟩
  · right
    obtain ⟨e, m', h1, _, before, h3⟩ := C12_nacked_when_failed_partial env m hrep hnc h
    rw [heh] at h1 h3
    exact ⟨h, by simpa using h1, e, before, by simpa using h3⟩

/-- An environment with a function that fails on its message `bad`, decoding by looking at the payload,
and one pass-through middleware. -/
def demoEnv (mws : List (Mw Unit BrokerMessage String)) (fn : Bytes → Res String) :
    Env Unit Bytes String where
  decode m := match m.payload with | some b => .ok b | none => .error "no payload"
  withCorr c _ := c
  fn _ d := fn d
  eh _ _ := []
  mws := mws
  ctx _ := ()

/-- Hypotheses of the C11/C12 theorems are met: an undecodable message, a failing function, a success. -/
example : (handle (demoEnv [fun c => .next c .ret] (fun _ => .ret none)) ⟨none, none⟩).w.ack.hooks = [.nak] ∧
    (handle (demoEnv [fun c => .next c .ret] (fun _ => .ret (some "no"))) ⟨none, some [1]⟩).w.ack.hooks = [.nak] ∧
    (handle (demoEnv [fun c => .next c .ret] (fun _ => .ret none)) ⟨none, some [1]⟩).w.ack.hooks = [.ack] := by
  decide

example : ∀ mw ∈ (demoEnv [fun c => .next c .ret] (fun _ => .ret none)).mws, ∀ ctx, Reports false (mw ctx) := by
  intro mw hmw ctx
  simp only [demoEnv, List.mem_singleton] at hmw
  subst hmw
  intro r; cases r <;> simp [Reports]

/-- **C12 is violated by the provided recovery middleware**: when the user's function panics, the
message is neither acked nor nacked and the error handler is not told. -/
theorem C12_violated_by_recovery :
    (handle (demoEnv [recovery] (fun _ => .panicked)) ⟨none, some [1]⟩).crashed = false ∧
    (handle (demoEnv [recovery] (fun _ => .panicked)) ⟨none, some [1]⟩).w.ack.hooks = [] ∧
    errorsTold (handle (demoEnv [recovery] (fun _ => .panicked)) ⟨none, some [1]⟩).w.log = [] :=
  ⟨rfl, rfl, rfl⟩

/-- **C12 is violated by an error-hiding middleware**: a failing function, nothing acknowledged. -/
theorem C12_violated_by_hiding_middleware :
    (handle (demoEnv [fun c => .next c (fun _ => .ret none)] (fun _ => .ret (some "no")))
      ⟨none, some [1]⟩).w.ack.hooks = [] := rfl

/-- **C13.** The listener handles the messages received before the close one by one, in order, each
whatever happened to the previous ones (errors included), then stops and takes nothing more — provided
no handling panics. (`rest` is whatever the channel would give afterwards.) -/
theorem C13_handles_all_then_stops (env : Env C D E) (msgs : List BrokerMessage)
    (rest : List (BrokerMessage × Bool)) (hnp : ∀ m ∈ msgs, (handle env m).crashed = false) :
    loop env (msgs.map (·, true) ++ (.zero, false) :: rest) = (.stopped, msgs.map (handle env)) := by
  induction msgs with
  | nil => simp [loop, BrokerMessage.zero, BrokerMessage.isUninitialized]
  | cons m ms ih =>
    have h1 := hnp m List.mem_cons_self
    have h2 := ih (fun m hm => hnp m (List.mem_cons_of_mem _ hm))
    simp only [List.map_cons, List.cons_append, loop, Bool.not_true, Bool.false_and,
      Bool.false_eq_true, if_false, h1, h2]

/-- **C13.** As long as the subscription is open the listener does not stop: after any number of
messages it is waiting for the next one, and has handled them all in order. -/
theorem C13_keeps_listening (env : Env C D E) (msgs : List BrokerMessage)
    (hnp : ∀ m ∈ msgs, (handle env m).crashed = false) :
    loop env (msgs.map (·, true)) = (.waiting, msgs.map (handle env)) := by
  induction msgs with
  | nil => rfl
  | cons m ms ih =>
    have h1 := hnp m List.mem_cons_self
    have h2 := ih (fun m hm => hnp m (List.mem_cons_of_mem _ hm))
    simp only [List.map_cons, loop, Bool.not_true, Bool.false_and,
      Bool.false_eq_true, if_false, h1, h2]

/-- Even an empty message (nil headers and payload) does not stop an open listener; errors neither. -/
example : (loop (demoEnv [] (fun b => if b = [1] then .ret (some "no") else .ret none))
    [(⟨none, some [1]⟩, true), (⟨none, none⟩, true), (⟨none, some [2]⟩, true), (.zero, false)]).1 = .stopped ∧
   ((loop (demoEnv [] (fun b => if b = [1] then .ret (some "no") else .ret none))
    [(⟨none, some [1]⟩, true), (⟨none, none⟩, true), (⟨none, some [2]⟩, true), (.zero, false)]).2.map
      (fun o => o.w.ack.hooks)) = [[.nak], [.nak], [.ack]] := by decide

/-- Finding: a panic in the user's function (without recovery middleware) takes the process down and
the following messages are not handled. -/
theorem C13_panic_crashes (ms : List (BrokerMessage × Bool)) :
    (loop (demoEnv [] (fun _ => .panicked)) ((⟨none, some [1]⟩, true) :: ms)).1 = .crashed := rfl

end Verif.Listen
