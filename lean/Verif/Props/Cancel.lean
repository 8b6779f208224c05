import Verif.Proofs.Cancel

/-!
# C02, C03: cancelling a subscription

C02 is false for the capacity every broker of the repository uses (1): see `C02_violated`,
`C02_violated_forever`. It holds for capacity 0 with one call (`C02_cancel_postcondition_partial`).
-/

namespace Verif.Cancel

theorem oneInv_of_reachable {cap : Nat} {acts : List Act} {s : St} (hone : OneCaller acts)
    (h : Reachable cap acts s) : OneInv s :=
  run_inv (P := OneInv) (Q := fun a => ∀ i, a = .call i → i = 0)
    (fun s a s' hq hp hs => oneInv_step s a s' hq hp hs) acts (init cap) s
    (fun _ ha i hi => hone i (hi ▸ ha)) (oneInv_init cap) h

theorem logInv_of_reachable {cap : Nat} {acts : List Act} {s : St}
    (h : Reachable cap acts s) : LogInv s :=
  run_inv (P := LogInv) (Q := fun _ => True)
    (fun s a s' _ hp hs => logInv_step s a s' hp hs) acts (init cap) s
    (fun _ _ => trivial) (logInv_init cap) h

theorem retInv_of_reachable {cap : Nat} {acts : List Act} {s : St}
    (h : Reachable cap acts s) : RetInv s :=
  run_inv (P := RetInv) (Q := fun _ => True)
    (fun s a s' _ hp hs => retInv_step s a s' hp hs) acts (init cap) s
    (fun _ _ => trivial) (by simp [RetInv, init]) h

/-- **C02 (partial: unbuffered cancel channel, one call).** When `Cancel` has returned and its
context had not expired, cleanup was done and the message channel is closed. Missing for the full
claim: buffered channels and several callers, where it is false (below). -/
theorem C02_cancel_postcondition_partial (acts : List Act) (s : St) (hone : OneCaller acts)
    (h : Reachable 0 acts s) (hret : Returned s 0) (hctx : s.ctxDone 0 = false) : TornDown s := by
  have hinv : OneInv s ∧ Cap0Inv s :=
    run_inv (P := fun s => OneInv s ∧ Cap0Inv s) (Q := fun a => ∀ i, a = .call i → i = 0)
      (fun s a s' hq hp hs => ⟨oneInv_step s a s' hq hp.1 hs, cap0_step s a s' hp.1 hp.2 hs⟩)
      acts (init 0) s (fun a ha i hi => hone i (hi ▸ ha))
      ⟨oneInv_init 0, by simp [Cap0Inv, init]⟩ h
  have hr := retInv_of_reachable h
  rcases hret with h1 | h1 | h1
  · exact absurd h1 hinv.2.2.2
  · have hc := hr.1 0 h1
    have hl := hinv.1.2.2.2
    unfold LogInv at hl
    rcases hl with hl | hl | hl | hl | hl <;> simp_all [TornDown]
  · have := hr.2 0 h1
    rw [hctx] at this; cases this

/-- A run meeting the hypotheses of `C02_cancel_postcondition_partial`. -/
example : ∃ s, Reachable 0 [.call 0, .handW 0, .doCleanup, .doCloseMsgs, .doCloseCancel, .recvC 0] s ∧
    Returned s 0 ∧ s.ctxDone 0 = false ∧ TornDown s := by
  refine ⟨_, rfl, ?_, ?_, ?_⟩ <;> decide

/-- **C02 (partial: the waiter is already waiting).** Go's runtime hands a value directly to a receiver that is blocked on
the channel and buffers it otherwise. When the waiter is blocked in its receive before `Cancel` is called, so that nothing
is buffered, one `Cancel` returns after the teardown, whatever the capacity. -/
theorem C02_waiting_partial (cap : Nat) (acts : List Act) (s : St) (hone : OneCaller acts) (hsend : .send 0 ∉ acts)
    (h : Reachable cap acts s) (hret : Returned s 0) (hctx : s.ctxDone 0 = false) : TornDown s := by
  have hinv : OneInv s ∧ s.buf = 0 ∧ s.c 0 ≠ .retToken :=
    run_inv (P := fun s => OneInv s ∧ s.buf = 0 ∧ s.c 0 ≠ .retToken) (Q := fun a => (∀ i, a = .call i → i = 0) ∧ a ≠ .send 0)
      (fun s a s' hq hp hs => ⟨oneInv_step s a s' hq.1 hp.1 hs, by
        obtain ⟨⟨h1, h2, h3, h4⟩, hb, ht⟩ := hp
        unfold step at hs
        cases a with
        | send j =>
          simp only at hs; split at hs
          · rename_i hc
            have hj : j = 0 := Decidable.byContradiction (fun hne => by rw [h1 j hne] at hc; simp at hc)
            subst hj; exact absurd rfl hq.2
          · cases hs
        | handC j k =>
          simp only at hs; split at hs
          · rename_i hc; cases hs
            have hj : j = 0 := Decidable.byContradiction (fun hne => by rw [h1 j hne] at hc; simp at hc)
            have hk : k = 0 := Decidable.byContradiction (fun hne => by rw [h1 k hne] at hc; simp at hc)
            subst hj; subst hk; exact absurd (hc.2.1.symm.trans hc.2.2.1) (by decide)
          · cases hs
        | _ =>
          clear hq hret hctx h hone hsend
          simp only at hs; (repeat' split at hs) <;>
          first
          | (cases hs; done)
          | (cases hs; refine ⟨?_, ?_⟩ <;> simp only [upd] <;> (repeat' split) <;> (first | omega | simp_all))⟩)
      acts (init cap) s (fun a ha => ⟨fun i hi => hone i (hi ▸ ha), fun e => hsend (e ▸ ha)⟩)
      ⟨oneInv_init cap, rfl, by simp [init]⟩ h
  have hr := retInv_of_reachable h
  rcases hret with h1 | h1 | h1
  · exact absurd h1 hinv.2.2
  · have hc := hr.1 0 h1
    have hl := hinv.1.2.2.2
    unfold LogInv at hl
    rcases hl with hl | hl | hl | hl | hl <;> simp_all [TornDown]
  · have := hr.2 0 h1
    rw [hctx] at this; cases this

example : ∃ s, Reachable 1 [.call 0, .handW 0, .doCleanup, .doCloseMsgs, .doCloseCancel, .recvC 0] s ∧
    Returned s 0 ∧ s.ctxDone 0 = false ∧ TornDown s := by
  refine ⟨_, rfl, ?_, ?_, ?_⟩ <;> decide

/-- **C02 (partial: return through the closed channel).** Any capacity, any number of callers: a call
that returned because the cancel channel was closed returned after the teardown. -/
theorem C02_closed_return_partial (cap : Nat) (acts : List Act) (s : St) (h : Reachable cap acts s)
    (i : Nat) (hi : s.c i = .retClosed) : TornDown s := by
  have hl := logInv_of_reachable h
  have hc := (retInv_of_reachable h).1 i hi
  unfold LogInv at hl
  rcases hl with hl | hl | hl | hl | hl <;> simp_all [TornDown]

/-- **C02, progress part.** With one caller and any capacity, a pending `Cancel` is never stuck:
some running goroutine can move. -/
theorem C02_pending_cancel_can_progress (cap : Nat) (acts : List Act) (s : St) (hone : OneCaller acts)
    (h : Reachable cap acts s) (hp : Pending s 0) :
    ∃ a, a.isEnv = false ∧ (step s a).isSome = true := by
  have hinv : OneInv s ∧ TokenInv s :=
    run_inv (P := fun s => OneInv s ∧ TokenInv s) (Q := fun a => ∀ i, a = .call i → i = 0)
      (fun s a s' hq hp hs => ⟨oneInv_step s a s' hq hp.1 hs, token_step s a s' hp.1 hp.2 hs⟩)
      acts (init cap) s (fun a ha i hi => hone i (hi ▸ ha))
      ⟨oneInv_init cap, by simp [TokenInv, init]⟩ h
  obtain ⟨⟨h1, h2, h3, h4⟩, ht⟩ := hinv
  unfold LogInv at h4
  rcases hp with hp | hp
  · have hw := h2 (Or.inr hp)
    refine ⟨.handW 0, rfl, ?_⟩
    have hcl : s.cClosed = false := by rcases h4 with hl | hl | hl | hl | hl <;> simp_all
    simp [step, h3, hp, hw.1, hw.2, hcl]
  · rcases h4 with hl | hl | hl | hl | hl
    · have := ht hp hl.1
      exact ⟨.recvC 0, rfl, by simp [step, h3, hp, this]⟩
    · exact ⟨.doCleanup, rfl, by simp [step, h3, hl.1]⟩
    · exact ⟨.doCloseMsgs, rfl, by simp [step, h3, hl.1, hl.2.1]⟩
    · exact ⟨.doCloseCancel, rfl, by simp [step, h3, hl.1, hl.2.2]⟩
    · refine ⟨.recvC 0, rfl, ?_⟩
      simp only [step, h3, hp, hl.2.2]
      split
      · split <;> rfl
      · simp_all

/-- **C02, termination part.** With one caller, the running goroutines make at most 6 steps from any
reachable state: together with `C02_pending_cancel_can_progress`, `Cancel` always returns. -/
theorem C02_cancel_terminates (cap : Nat) (acts more : List Act) (s s' : St) (hone : OneCaller acts)
    (h : Reachable cap acts s) (hmore : ∀ a ∈ more, a.isEnv = false) (hrun : run s more = some s') :
    more.length ≤ 6 := by
  have key : ∀ (more : List Act) (s : St), OneInv s → (∀ a ∈ more, a.isEnv = false) →
      (run s more).isSome → more.length ≤ rank s := by
    intro more
    induction more with
    | nil => intro s _ _ _; simp
    | cons a as ih =>
      intro s hi hm hr
      simp only [run] at hr
      split at hr
      · rename_i s1 h1
        have ha := hm a List.mem_cons_self
        have hi' := oneInv_step s a s1 (by intro i hi; subst hi; simp [Act.isEnv] at ha) hi h1
        have := ih s1 hi' (fun b hb => hm b (List.mem_cons_of_mem _ hb)) hr
        have := rank_step s a s1 ha hi h1
        simp only [List.length_cons]; omega
      · cases hr
  have := key more s (oneInv_of_reachable hone h) hmore (by rw [hrun]; rfl)
  have hw : wRank s.w ≤ 4 := by cases s.w <;> simp [wRank]
  have hc : cRank (s.c 0) ≤ 2 := by cases s.c 0 <;> simp [cRank]
  unfold rank at this; omega

example : Pending ((run (init 1) [.call 0, .send 0]).getD (init 1)) 0 := by decide

/-- The losing schedule: the canceller reads back its own value before the waiter. -/
def stealing : List Act := [.call 0, .send 0, .recvC 0]

/-- **C02 is violated** with a cancel channel of any capacity ≥ 1 (the brokers use 1): one `Cancel`
call returns, its context has not expired, and nothing was torn down. -/
theorem C02_violated (cap : Nat) (hcap : 1 ≤ cap) :
    ∃ s, OneCaller stealing ∧ Reachable cap stealing s ∧ Returned s 0 ∧ s.ctxDone 0 = false ∧
      ¬ TornDown s := by
  have h0 : 0 < cap := by omega
  refine ⟨{ cap := cap, c := upd (upd (upd (fun _ => .idle) 0 .sending) 0 .selecting) 0 .retToken },
    ?_, ?_, ?_, rfl, ?_⟩
  · intro i hi; simp only [stealing, List.mem_cons, Act.call.injEq] at hi; simpa using hi
  · simp [Reachable, stealing, run, step, init, h0, upd]
  · left; simp [upd]
  · simp [TornDown]

/-- **C02 is violated for good**: after that schedule, whatever the goroutines do and whichever
contexts expire, as long as nobody calls `Cancel` again the subscription is never torn down. -/
theorem C02_violated_forever (cap : Nat) (hcap : 1 ≤ cap) (more : List Act) (s : St)
    (hmore : ∀ i, .call i ∉ more) (h : Reachable cap (stealing ++ more) s) :
    Returned s 0 ∧ ¬ TornDown s := by
  have h0 : 0 < cap := by omega
  have hrun : run { cap := cap, c := upd (upd (upd (fun _ => .idle) 0 .sending) 0 .selecting) 0 .retToken }
      more = some s := by
    simpa [Reachable, stealing, run, step, init, h0, upd] using h
  have hinv := run_inv (P := fun s => s.w = .recv ∧ s.buf = 0 ∧ s.cClosed = false ∧ s.log = [] ∧
      s.c 0 = .retToken ∧ ∀ i, i ≠ 0 → s.c i = .idle) (Q := fun a => ∀ i, a ≠ .call i)
    (fun s a s' hq hp hs => by
      obtain ⟨hw, hb, hc, hl, hr, hi⟩ := hp
      have hall : ∀ i, s.c i = .retToken ∨ s.c i = .idle := fun i => by
        by_cases h : i = 0
        · subst h; exact Or.inl hr
        · exact Or.inr (hi i h)
      unfold step at hs
      cases a with
      | call i => exact absurd rfl (hq i)
      | expire i => simp only at hs; split at hs <;> cases hs; exact ⟨hw, hb, hc, hl, hr, hi⟩
      | send i | handW i | recvC i | ctxC i | handC i j =>
        have := hall i
        simp only at hs
        rcases this with this | this <;> simp [this] at hs
      | _ => simp [hw, hb, hc] at hs)
    more _ s (fun a ha i hi => hmore i (hi ▸ ha))
    (by refine ⟨rfl, rfl, rfl, rfl, by simp [upd], fun i hi => by simp [upd, hi]⟩) hrun
  exact ⟨Or.inl hinv.2.2.2.2.1, by simp [TornDown, hinv.2.2.2.1]⟩

/-- Context expiry later changes nothing (a run meeting the hypotheses above). -/
example : ∃ s, Reachable 1 (stealing ++ [.expire 0, .expire 3]) s := ⟨_, rfl⟩

/-- **C02 is violated with two callers** even on an unbuffered channel: the second caller's value is
taken by the first caller, which returns before any teardown. -/
theorem C02_violated_two_callers :
    ∃ acts s, Reachable 0 acts s ∧ Returned s 0 ∧ s.ctxDone 0 = false ∧ ¬ TornDown s :=
  ⟨[.call 0, .call 1, .handW 0, .handC 1 0], _, rfl, by decide, rfl, by decide⟩

/-- **C03.** In every execution, whatever the capacity and the number of `Cancel` calls, the teardown
effects are a prefix of: cleanup, close of the messages, close of the cancel channel. Each happens at
most once, in that order. -/
theorem C03_teardown_once_in_order (cap : Nat) (acts : List Act) (s : St)
    (h : Reachable cap acts s) : s.log <+: [.cleanup, .closeMessages, .closeCancel] := by
  have hl := logInv_of_reachable h
  unfold LogInv at hl
  rcases hl with hl | hl | hl | hl | hl <;> rw [hl.2.1] <;> decide

/-- **C03.** Nothing is torn down before somebody calls `Cancel`. -/
theorem C03_only_when_cancelled (cap : Nat) (acts : List Act) (s : St) (h : Reachable cap acts s)
    (hc : ∀ i, .call i ∉ acts) : s.log = [] ∧ s.panicked = false := by
  have hinv := run_inv (P := fun s => s.w = .recv ∧ s.buf = 0 ∧ s.cClosed = false ∧ s.log = [] ∧
      s.panicked = false ∧ ∀ i, s.c i = .idle) (Q := fun a => ∀ i, a ≠ .call i)
    (fun s a s' hq hp hs => by
      obtain ⟨h1, h2, h3, h4, h5, h6⟩ := hp
      cases a <;> simp_all [step]
      subst hs
      simp_all) acts (init cap) s (fun a ha i e => hc i (e ▸ ha)) (by simp [init]) h
  exact ⟨hinv.2.2.2.1, hinv.2.2.2.2.1⟩

/-- **C03.** With at most one `Cancel` call nothing panics, whatever the capacity and schedule. -/
theorem C03_one_cancel_never_panics (cap : Nat) (acts : List Act) (s : St) (hone : OneCaller acts)
    (h : Reachable cap acts s) : s.panicked = false :=
  (oneInv_of_reachable hone h).2.2.1

example : ∃ s, OneCaller [.call 0, .send 0, .expire 0, .recvW, .ctxC 0, .doCleanup, .doCloseMsgs, .doCloseCancel] ∧
    Reachable 1 [.call 0, .send 0, .expire 0, .recvW, .ctxC 0, .doCleanup, .doCloseMsgs, .doCloseCancel] s ∧
    s.log = [.cleanup, .closeMessages, .closeCancel] := by
  refine ⟨_, ?_, rfl, rfl⟩
  intro i hi; simpa using hi

/-- Finding: cancelling twice panics (send on closed channel), even one call after the other. -/
theorem C03_second_cancel_panics :
    ∃ acts s, Reachable 1 acts s ∧ s.panicked = true :=
  ⟨[.call 0, .send 0, .recvW, .doCleanup, .doCloseMsgs, .doCloseCancel, .recvC 0, .call 1, .send 1],
    _, rfl, rfl⟩

end Verif.Cancel
