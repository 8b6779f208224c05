import Verif.Model.Unsub
import Verif.Props.Cancel
import Verif.Props.Pipeline

/-! # C86: no handler is called once an unsubscription has returned -/

namespace Verif.Unsub

/-- States some schedule leads to. -/
def Reachable (cc mc : Nat) (acts : List Act) (s : St) : Prop := run (init cc mc) acts = some s

/-- The messages whose handling has begun, oldest first. -/
def begun (s : St) : List BrokerMessage := s.p.handled ++ s.p.cur.toList

theorem run_append (s : St) (as bs : List Act) :
    run s (as ++ bs) = (run s as).bind (fun s' => run s' bs) := by
  induction as generalizing s with
  | nil => rfl
  | cons a as ih =>
    simp only [List.cons_append, run]
    split
    · exact ih _
    · rfl

/-- What the cancellation side sees of a schedule. -/
def cancelActs : List Act → List Cancel.Act
  | [] => []
  | .cancel a :: as => a :: cancelActs as
  | .closeMsgs :: as => .doCloseMsgs :: cancelActs as
  | .pipe _ :: as => cancelActs as

/-- What the flow of messages sees of a schedule. -/
def pipeActs : List Act → List Pipeline.Act
  | [] => []
  | .pipe a :: as => a :: pipeActs as
  | .closeMsgs :: as => .close :: pipeActs as
  | .cancel _ :: as => pipeActs as

/-- The subscription refines both of its sides. -/
theorem run_proj (acts : List Act) : ∀ s s' : St, run s acts = some s' →
    Cancel.run s.c (cancelActs acts) = some s'.c ∧ Pipeline.run s.p (pipeActs acts) = some s'.p := by
  induction acts with
  | nil => intro s s' h; cases h; exact ⟨rfl, rfl⟩
  | cons a as ih =>
    intro s s' h
    simp only [run] at h
    split at h
    · rename_i s1 h1
      have ih := ih s1 s' h
      cases a with
      | cancel a =>
        simp only [step] at h1
        split at h1
        · cases h1
        · split at h1
          · rename_i c hc
            cases h1
            simpa only [cancelActs, pipeActs, Cancel.run, hc] using ih
          · cases h1
      | pipe a =>
        simp only [step] at h1
        split at h1
        · cases h1
        · split at h1
          · rename_i p hp
            cases h1
            simpa only [cancelActs, pipeActs, Pipeline.run, hp] using ih
          · cases h1
      | closeMsgs =>
        simp only [step] at h1
        split at h1
        · rename_i c p hc hp
          cases h1
          simpa only [cancelActs, pipeActs, Pipeline.run, Cancel.run, hc, hp] using ih
        · cases h1
    · cases h

theorem reachable_proj {cc mc : Nat} {acts : List Act} {s : St} (h : Reachable cc mc acts s) :
    Cancel.Reachable cc (cancelActs acts) s.c ∧ Pipeline.Reachable mc (pipeActs acts) s.p :=
  run_proj acts _ _ h

/-- The message channel is closed when, and only when, the log of the cancellation side says so. -/
theorem closed_iff_step (s : St) (a : Act) (s' : St) (hs : step s a = some s')
    (h : s.p.closed = true ↔ .closeMessages ∈ s.c.log) (hp : s'.p.panicked = false) (hc : s'.c.panicked = false) :
    s'.p.closed = true ↔ .closeMessages ∈ s'.c.log := by
  cases a with
  | cancel a =>
    simp only [step] at hs
    split at hs
    · cases hs
    · rename_i hn
      split at hs
      · rename_i c hcs
        cases hs
        rw [h]
        cases a <;> simp only [Cancel.step] at hcs <;> (repeat' split at hcs) <;> cases hcs <;> simp_all
      · cases hs
  | pipe a =>
    simp only [step] at hs
    split at hs
    · cases hs
    · rename_i hn
      split at hs
      · rename_i p hps
        cases hs
        rw [← h]
        cases a <;> simp only [Pipeline.step] at hps <;> (repeat' split at hps) <;> cases hps <;>
          simp_all [Pipeline.received]
        split <;> rfl
      · cases hs
  | closeMsgs =>
    simp only [step] at hs
    split at hs
    · rename_i c p hcs hps
      cases hs
      simp only [Cancel.step, Pipeline.step] at hcs hps
      (repeat' split at hcs) <;> cases hcs <;> (repeat' split at hps) <;> cases hps <;> simp_all
    · cases hs

theorem panicked_stays (s : St) (a : Act) (s' : St) (hs : step s a = some s') :
    (s.p.panicked = true → False) ∧ (s.c.panicked = true → False) := by
  constructor
  · intro h
    cases a with
    | cancel a => simp [step, h] at hs
    | pipe a =>
      cases a <;> simp [step, Pipeline.step, h] at hs
    | closeMsgs => simp [step, Pipeline.step, h] at hs
  · intro h
    cases a with
    | pipe a => simp [step, h] at hs
    | cancel a => cases a <;> simp [step, Cancel.step, h] at hs
    | closeMsgs => simp [step, Cancel.step, h] at hs

theorem closed_iff {cc mc : Nat} {acts : List Act} {s : St} (h : Reachable cc mc acts s)
    (hp : s.p.panicked = false) (hc : s.c.panicked = false) : s.p.closed = true ↔ .closeMessages ∈ s.c.log := by
  have key : ∀ (acts : List Act) (s s' : St), (s.p.closed = true ↔ .closeMessages ∈ s.c.log) →
      run s acts = some s' → s'.p.panicked = false → s'.c.panicked = false →
      (s'.p.closed = true ↔ .closeMessages ∈ s'.c.log) := by
    intro acts
    induction acts with
    | nil => intro s s' hi h _ _; cases h; exact hi
    | cons a as ih =>
      intro s s' hi h hp hc
      simp only [run] at h
      split at h
      · rename_i s1 h1
        refine ih s1 s' ?_ h hp hc
        cases as with
        | nil => cases h; exact closed_iff_step s a _ h1 hi hp hc
        | cons b bs =>
          simp only [run] at h
          split at h
          · rename_i s2 h2
            have := panicked_stays s1 b s2 h2
            exact closed_iff_step s a _ h1 hi (by cases hx : s1.p.panicked <;> simp_all)
              (by cases hx : s1.c.panicked <;> simp_all)
          · cases h
      · cases h
  exact key acts _ s (by simp [init, Pipeline.init, Cancel.init]) h hp hc

/-- One action of the flow: handlings that began stay, and once the channel is closed nothing is accepted. -/
theorem pipe_step_mono (s : Pipeline.St) (a : Pipeline.Act) (s' : Pipeline.St) (hs : Pipeline.step s a = some s') :
    (s.handled ++ s.cur.toList <+: s'.handled ++ s'.cur.toList) ∧
    (s.closed = true → s'.closed = true ∧ s'.sent = s.sent) := by
  cases a <;> simp only [Pipeline.step] at hs
  case transmit => split at hs <;> cases hs; exact ⟨List.prefix_refl _, fun h => ⟨h, rfl⟩⟩
  case push =>
    (repeat' split at hs) <;> cases hs
    · exact ⟨List.prefix_refl _, fun h => ⟨h, rfl⟩⟩
    · exact ⟨List.prefix_refl _, fun h => by simp_all⟩
  case handoff =>
    (repeat' split at hs) <;> cases hs
    rename_i m hm hc
    refine ⟨⟨[m], by simp [Pipeline.received, hc.2.2.1]⟩, fun h => by simp_all⟩
  case recv =>
    split at hs
    · rename_i hc
      split at hs
      · rename_i m q hq
        cases hs
        exact ⟨⟨[m], by simp [Pipeline.received, hc.2.1]⟩, fun h => ⟨h, rfl⟩⟩
      · split at hs <;> cases hs
        simp only [Pipeline.received, BrokerMessage.zero, BrokerMessage.isUninitialized]
        exact ⟨⟨[], by simp⟩, fun h => ⟨h, rfl⟩⟩
    · cases hs
  case finish =>
    (repeat' split at hs) <;> cases hs
    rename_i m hm
    exact ⟨⟨[], by simp [hm]⟩, fun h => ⟨h, rfl⟩⟩
  case close =>
    (repeat' split at hs) <;> cases hs
    · exact ⟨List.prefix_refl _, fun h => ⟨h, rfl⟩⟩
    · exact ⟨List.prefix_refl _, fun h => ⟨rfl, rfl⟩⟩

theorem pipe_run_mono (acts : List Pipeline.Act) : ∀ s s' : Pipeline.St, Pipeline.run s acts = some s' →
    (s.handled ++ s.cur.toList <+: s'.handled ++ s'.cur.toList) ∧
    (s.closed = true → s'.closed = true ∧ s'.sent = s.sent) := by
  induction acts with
  | nil => intro s s' h; cases h; exact ⟨List.prefix_refl _, fun h => ⟨h, rfl⟩⟩
  | cons a as ih =>
    intro s s' h
    simp only [Pipeline.run] at h
    split at h
    · rename_i s1 h1
      have h2 := pipe_step_mono s a s1 h1
      have h3 := ih s1 s' h
      exact ⟨h2.1.trans h3.1, fun hc => ⟨(h3.2 (h2.2 hc).1).1, by rw [(h3.2 (h2.2 hc).1).2, (h2.2 hc).2]⟩⟩
    · cases h

/-- **C86, partial.** From the moment the message channel is closed, and so from the moment a call to `Cancel` returned
because the teardown was done, nothing more is accepted from the broker; the handlers that are still called are called for
messages that were in the queue, in order, hence at most as many as the queue has places; and none once the listener has
stopped. Missing: they should not be called at all, see below. -/
theorem C86_only_the_queue_partial (cc mc : Nat) (acts more : List Act) (s s' : St) (h : Reachable cc mc acts s)
    (hret : (∃ i, s.c.c i = .retClosed) ∨ .closeMessages ∈ s.c.log) (hm : run s more = some s') :
    s'.p.sent = s.p.sent ∧ ∃ later, begun s' = begun s ++ later ∧ later <+: s.p.queue ∧ later.length ≤ mc ∧
      (s.p.stopped = true → later = []) := by
  have hlog : .closeMessages ∈ s.c.log := by
    rcases hret with ⟨i, hi⟩ | hl
    · exact (Cancel.C02_closed_return_partial cc _ s.c (reachable_proj h).1 i hi).2
    · exact hl
  have hi := Pipeline.inv_of_reachable (reachable_proj h).2
  have hcap : s.p.cap = mc := by
    have := Pipeline.run_inv (P := fun s => s.cap = mc) (Q := fun _ => True) (fun s a s' _ hp hs => by
      cases a <;> simp only [Pipeline.step] at hs <;> (repeat' split at hs) <;> cases hs <;>
        first | exact hp | (simp only [Pipeline.received]; split <;> exact hp)) (pipeActs acts) (Pipeline.init mc) s.p
      (fun _ _ => trivial) rfl (reachable_proj h).2
    exact this
  by_cases hpan : s.p.panicked = true ∨ s.c.panicked = true
  · cases more with
    | nil => cases hm; exact ⟨rfl, [], by simp, List.nil_prefix, by simp, fun _ => rfl⟩
    | cons b bs =>
      simp only [run] at hm
      split at hm
      · rename_i s2 h2
        have := panicked_stays s b s2 h2
        exact absurd hpan (by simpa using this)
      · cases hm
  · have hcl : s.p.closed = true := (closed_iff h (by simpa using fun h => hpan (Or.inl h))
      (by simpa using fun h => hpan (Or.inr h))).2 hlog
    have hmono := pipe_run_mono _ _ _ (run_proj more s s' hm).2
    have hs' : s'.p.sent = s.p.sent := (hmono.2 hcl).2
    obtain ⟨later, hl⟩ := hmono.1
    have h' : Reachable cc mc (acts ++ more) s' := by
      rw [Reachable, run_append, h]; exact hm
    have h1 := Pipeline.C04_no_loss_no_dup_in_order mc _ s.p (reachable_proj h).2
    have h2 := Pipeline.C04_no_loss_no_dup_in_order mc _ s'.p (reachable_proj h').2
    rw [← hl, hs', ← h1] at h2
    have h3 : later ++ s'.p.queue = s.p.queue := by simpa using h2
    refine ⟨hs', later, hl.symm, ⟨_, h3⟩, ?_, ?_⟩
    · have := congrArg List.length h3
      have h4 := hi.2.2
      rw [hcap] at h4
      simp only [List.length_append] at this
      omega
    · intro hst
      have := (hi.2.1 hst).2.2
      rw [this] at h3
      exact (List.append_eq_nil_iff.1 h3).1

/-- The broker delivers messages and the queue takes them. -/
def deliver : List BrokerMessage → List Act
  | [] => []
  | m :: ms => .pipe (.transmit m) :: .pipe .push :: deliver ms

/-- The listener handles `n` messages of the queue. -/
def handle : Nat → List Act
  | 0 => []
  | n + 1 => .pipe .recv :: .pipe .finish :: handle n

/-- One call to `Cancel`, up to its return after the whole teardown. -/
def teardown : List Act :=
  [.cancel (.call 0), .cancel (.handW 0), .cancel .doCleanup, .closeMsgs, .cancel .doCloseCancel, .cancel (.recvC 0)]

theorem run_deliver (ms : List BrokerMessage) : ∀ (s : St), s.c.panicked = false → s.p.panicked = false →
    s.p.pending = none → s.p.closed = false → s.p.queue.length + ms.length ≤ s.p.cap →
    run s (deliver ms) = some { s with p := { s.p with queue := s.p.queue ++ ms, sent := s.p.sent ++ ms } } := by
  induction ms with
  | nil => intro s _ _ _ _ _; simp [deliver, run]
  | cons m ms ih =>
    intro s hc hp hpe hcl hle
    simp only [List.length_cons] at hle
    have hlt : s.p.queue.length < s.p.cap := by omega
    simp only [deliver, run, step, Pipeline.step, hc, hp, hpe, hcl, hlt, and_self, if_true, reduceCtorEq, or_self,
      Bool.false_eq_true, if_false]
    rw [ih]
    · simp
    all_goals simp_all
    omega

theorem run_handle (n : Nat) : ∀ (s : St) (ms : List BrokerMessage), ms.length = n → s.c.panicked = false →
    s.p.panicked = false → s.p.cur = none → s.p.stopped = false → s.p.queue = ms →
    run s (handle n) = some { s with p := { s.p with queue := [], handled := s.p.handled ++ ms } } := by
  induction n with
  | zero =>
    intro s ms hn _ _ _ _ hq
    have : ms = [] := by simpa using hn
    subst this
    simp only [handle, run, List.append_nil, Option.some.injEq]
    obtain ⟨c, p⟩ := s
    obtain ⟨⟩ := p
    simp_all
  | succ n ih =>
    intro s ms hn hc hp hcur hst hq
    cases ms with
    | nil => simp at hn
    | cons m ms =>
      simp only [List.length_cons, Nat.add_right_cancel_iff] at hn
      simp only [handle, run, step, Pipeline.step, Pipeline.received, hc, hp, hcur, hst, hq, and_self, if_true,
        reduceCtorEq, or_self, Bool.false_eq_true, if_false, Bool.not_true, Bool.false_and]
      rw [ih _ ms hn (by simp [hc]) rfl rfl rfl rfl]
      simp

/-- **C86 is violated**: for any messages that fit in the queue, there is a schedule in which `Cancel` returns after the
complete teardown, its context has not expired, no handler has been called yet, and afterwards the handler is called for
all of these messages. -/
theorem C86_violated (cc mc : Nat) (ms : List BrokerMessage) (hfit : ms.length ≤ mc) :
    ∃ acts more s s', Reachable cc mc acts s ∧ s.c.c 0 = .retClosed ∧ s.c.ctxDone 0 = false ∧ Cancel.TornDown s.c ∧
      begun s = [] ∧ run s more = some s' ∧ begun s' = ms := by
  have h1 := run_deliver ms (init cc mc) rfl rfl rfl rfl (by simpa [init, Pipeline.init] using hfit)
  let s0 : St := { init cc mc with p := { (init cc mc).p with queue := (init cc mc).p.queue ++ ms, sent := (init cc mc).p.sent ++ ms } }
  have h2 : ∃ s, run s0 teardown = some s ∧ s.c.c 0 = .retClosed ∧ s.c.ctxDone 0 = false ∧
      s.p = { s0.p with closed := true } ∧ s.c.panicked = false :=
    ⟨_, rfl, rfl, rfl, rfl, rfl⟩
  obtain ⟨s, hs, ha, hb, hd, he⟩ := h2
  have h3 := run_handle ms.length s ms rfl he (by rw [hd]; rfl) (by rw [hd]; rfl) (by rw [hd]; rfl)
    (by rw [hd]; simp [s0, init, Pipeline.init])
  have hr : Reachable cc mc (deliver ms ++ teardown) s := by
    rw [Reachable, run_append, h1]; exact hs
  refine ⟨deliver ms ++ teardown, handle ms.length, s, _, hr, ha, hb,
    Cancel.C02_closed_return_partial cc _ s.c (reachable_proj hr).1 0 ha, ?_, h3, ?_⟩
  · rw [begun, hd]; rfl
  · simp [begun, hd, s0, init, Pipeline.init]

/-- The listener is handed each message and handles it. -/
def serve : List BrokerMessage → List Act
  | [] => []
  | m :: ms => .pipe (.transmit m) :: .pipe .handoff :: .pipe .finish :: serve ms

theorem run_serve (ms : List BrokerMessage) : ∀ (s : St), s.c.panicked = false → s.p.panicked = false →
    s.p.pending = none → s.p.closed = false → s.p.queue = [] → s.p.cur = none → s.p.stopped = false →
    ∃ s', run s (serve ms) = some s' ∧ begun s' = begun s ++ ms ∧ s'.c = s.c := by
  induction ms with
  | nil => intro s _ _ _ _ _ _ _; exact ⟨s, rfl, by simp, rfl⟩
  | cons m ms ih =>
    intro s hc hp hpe hcl hq hcur hst
    simp only [serve, run, step, Pipeline.step, Pipeline.received, hc, hp, hpe, hcl, hq, hcur, hst, and_self, if_true,
      reduceCtorEq, or_self, Bool.false_eq_true, if_false, Bool.not_true, Bool.false_and]
    obtain ⟨s', h1, h2, h3⟩ := ih ⟨s.c, { cap := s.p.cap, sent := s.p.sent ++ [m], handled := s.p.handled ++ [m] }⟩
      hc rfl rfl rfl rfl rfl rfl
    refine ⟨s', h1, ?_, h3⟩
    rw [h2]
    simp [begun, hcur]

/-- **C86 is violated without bound**: with the cancel channels of the brokers (capacity 1), `Cancel` can return with its
context alive while the subscription goes on (C02), and whatever messages the broker delivers afterwards are handled. -/
theorem C86_violated_goes_on (cc mc : Nat) (hcc : 1 ≤ cc) (ms : List BrokerMessage) :
    ∃ acts more s s', Reachable cc mc acts s ∧ Cancel.Returned s.c 0 ∧ s.c.ctxDone 0 = false ∧
      begun s = [] ∧ s.p.sent = [] ∧ run s more = some s' ∧ begun s' = ms := by
  have h0 : 0 < cc := by omega
  have h1 : ∃ s, Reachable cc mc [.cancel (.call 0), .cancel (.send 0), .cancel (.recvC 0)] s ∧ s.c.c 0 = .retToken ∧
      s.c.ctxDone 0 = false ∧ s.p = Pipeline.init mc ∧ s.c.panicked = false := by
    refine ⟨⟨{ cap := cc, c := Cancel.upd (Cancel.upd (Cancel.upd (fun _ => .idle) 0 .sending) 0 .selecting) 0 .retToken },
      Pipeline.init mc⟩, ?_, by simp [Cancel.upd], rfl, rfl, rfl⟩
    simp [Reachable, run, step, Cancel.step, init, Cancel.init, Pipeline.init, h0, Cancel.upd]
  obtain ⟨s, hs, ha, hb, hd, he⟩ := h1
  obtain ⟨s', h2, h3, _⟩ := run_serve ms s he (by rw [hd]; rfl) (by rw [hd]; rfl) (by rw [hd]; rfl) (by rw [hd]; rfl)
    (by rw [hd]; rfl) (by rw [hd]; rfl)
  refine ⟨_, serve ms, s, s', hs, Or.inl ha, hb, ?_, by rw [hd]; rfl, h2, ?_⟩
  · rw [begun, hd]; rfl
  · rw [h3, begun, hd]; rfl

/-- **C86 is violated across subscriptions**: after unsubscribing (with the complete teardown) and subscribing again, the
handler is running for two messages at once, and a message of the second subscription has been handled before an older one
of the first. -/
theorem C86_violated_overlap (cc mc : Nat) (hmc : 1 ≤ mc) (a b c : BrokerMessage) :
    ∃ acts t n, twoRun cc mc { old := init cc mc } acts = some t ∧ t.new = some n ∧ Cancel.TornDown t.old.c ∧
      t.old.p.sent = [a] ∧ t.old.p.cur = some a ∧ n.p.handled = [b] ∧ n.p.cur = some c := by
  have hlt : 0 < mc := by omega
  refine ⟨[.old (.pipe (.transmit a)), .old (.pipe .push)] ++ teardown.map .old ++
    [.subscribe, .new (.pipe (.transmit b)), .new (.pipe .handoff), .new (.pipe .finish), .new (.pipe (.transmit c)),
      .new (.pipe .handoff), .old (.pipe .recv)], ?_⟩
  simp [teardown, twoRun, twoStep, step, Cancel.step, Pipeline.step, Pipeline.received, init, Cancel.init, Pipeline.init,
    Cancel.upd, unsubscribed, hlt, Cancel.TornDown]

/-- Non-vacuity of the partial theorem: two messages are queued when `Cancel` returns; one is then handled. -/
example (a b : BrokerMessage) : ∃ s s', Reachable 1 4 (deliver [a, b] ++ teardown) s ∧ s.c.c 0 = .retClosed ∧
    begun s = [] ∧ run s [.pipe .recv] = some s' ∧ begun s' = [a] := ⟨_, _, rfl, rfl, rfl, rfl, rfl⟩

/-- And of its last part: a listener that has stopped. -/
example (a : BrokerMessage) : ∃ s, Reachable 1 4 (deliver [a] ++ teardown ++ handle 1 ++ [.pipe .recv]) s ∧
    s.p.stopped = true ∧ begun s = [a] := ⟨_, rfl, rfl, rfl⟩

/-- A second subscription needs the first to be cancelled, and there is only one. -/
example (cc mc : Nat) : (twoStep cc mc { old := init cc mc } .subscribe).isNone = true ∧
    ∀ t, unsubscribed t.old = true → t.new.isSome = true → (twoStep cc mc t .subscribe).isNone = true := by
  refine ⟨rfl, fun t h1 h2 => ?_⟩
  cases hn : t.new with
  | none => rw [hn] at h2; cases h2
  | some n => simp [twoStep, h1, hn]

end Verif.Unsub
