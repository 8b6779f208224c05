import Verif.Props.Send

/-! # C22–C24: requests -/

namespace Verif.Send

open Verif.Middleware

variable {C T R : Type}

/-- `s` is a message received on the reply channel with correlation ID `id`, accepted by the middlewares
and decoded to `d` after them. -/
def Accepts (env : Env C) (rty : MsgType R) (addr id : String) (s : Sel) (d : R) : Prop :=
  ∃ m isOpen, s = .recv m isOpen ∧ ¬ (isOpen = false ∧ m = .zero) ∧
    rty.corr (rty.decode m).1 = id ∧
    (executeMiddlewares env.mws (env.waitCtx addr (some id) m) m () none).1 = .ret none ∧
    rty.decode (executeMiddlewares env.mws (env.waitCtx addr (some id) m) m () none).2.msg = (d, none)

/-- No middleware of the controller panics while handling a reply. -/
def NoPanic (env : Env C) (addr id : String) : Prop :=
  ∀ m : BrokerMessage,
    (executeMiddlewares env.mws (env.waitCtx addr (some id) m) m () none).1 ≠ .panicked

/-- The messages received on the reply channel, in order (the closing of the channel is not one). -/
def received : List Sel → List BrokerMessage
  | [] => []
  | .recv m isOpen :: t => if isOpen = false ∧ m = .zero then received t else m :: received t
  | .ctxDone :: t => received t

theorem received_append (a b : List Sel) : received (a ++ b) = received a ++ received b := by
  induction a with
  | nil => rfl
  | cons s t ih =>
    cases s with
    | ctxDone => simpa [received] using ih
    | recv m o => simp only [List.cons_append, received]; split <;> simp [ih]

theorem closed_iff (m : BrokerMessage) (o : Bool) :
    (!o && m.isUninitialized) = true ↔ o = false ∧ m = .zero := by
  obtain ⟨h, p⟩ := m
  cases o <;> cases h <;> cases p <;>
    simp [BrokerMessage.isUninitialized, BrokerMessage.zero]

/-- What one waiting step finds. -/
theorem waitNext_msg (env : Env C) (rty : MsgType R) (addr id : String) (s : Sel) (d : R) :
    (waitNext env rty addr (some id) s).msg = some d ↔ Accepts env rty addr id s d := by
  cases s with
  | ctxDone => simp [waitNext, Accepts]
  | recv m o =>
    simp only [waitNext]
    by_cases hc : (!o && m.isUninitialized) = true
    · rw [if_pos hc]
      constructor
      · intro h; cases h
      · rintro ⟨m', o', heq, hn, _⟩
        cases heq
        exact absurd ((closed_iff m o).mp hc) hn
    · rw [if_neg hc]
      have hc' : ¬ (o = false ∧ m = .zero) := fun h => hc ((closed_iff m o).mpr h)
      by_cases hid : rty.corr (rty.decode m).1 = id
      · simp only [hid, beq_self_eq_true, Bool.not_true, Bool.false_eq_true, if_false]
        generalize ho : executeMiddlewares env.mws (env.waitCtx addr (some id) m) m () none = o'
        obtain ⟨r, st⟩ := o'
        constructor
        · intro h
          cases r with
          | panicked => cases h
          | ret e =>
            cases e with
            | some e => cases h
            | none =>
              simp only at h
              cases hd : rty.decode st.msg with
              | mk v e =>
                rw [hd] at h
                cases e with
                | some e => cases h
                | none =>
                  cases h
                  exact ⟨m, o, rfl, hc', hid, by rw [ho], by rw [ho]; exact hd⟩
        · rintro ⟨m', o'', heq, _, _, h1, h2⟩
          cases heq
          rw [ho] at h1 h2
          simp only at h1 h2
          subst h1
          simp [h2]
      · have : (id == rty.corr (rty.decode m).1) = false := by
          simpa using fun h => hid h.symm
        simp only [this, Bool.not_false, if_true]
        constructor
        · intro h; cases h
        · rintro ⟨m', o', heq, _, h1, _⟩
          cases heq
          exact absurd h1 hid

theorem waitNext_panicked (env : Env C) (rty : MsgType R) (addr id : String) (s : Sel)
    (hnp : NoPanic env addr id) : (waitNext env rty addr (some id) s).panicked = false := by
  cases s with
  | ctxDone => rfl
  | recv m o =>
    simp only [waitNext]
    split
    · rfl
    · split
      · rfl
      · have := hnp m
        generalize executeMiddlewares env.mws (env.waitCtx addr (some id) m) m () none = o' at this
        obtain ⟨r, st⟩ := o'
        cases r with
        | panicked => exact absurd rfl this
        | ret e =>
          cases e with
          | some e => rfl
          | none => simp only; split <;> rfl

/-- The acknowledgements of a waiting step: every message received is acknowledged. -/
theorem waitNext_acked (env : Env C) (rty : MsgType R) (addr id : String) (m : BrokerMessage) (o : Bool) :
    (waitNext env rty addr (some id) (.recv m o)).acked = !(!o && m.isUninitialized) := by
  simp only [waitNext]
  by_cases hc : (!o && m.isUninitialized) = true
  · rw [if_pos hc, hc]; rfl
  · rw [if_neg hc]
    simp only [hc, Bool.not_false]
    split
    · rfl
    · generalize executeMiddlewares env.mws (env.waitCtx addr (some id) m) m () none = o'
      obtain ⟨r, st⟩ := o'
      cases r with
      | panicked => rfl
      | ret e =>
        cases e with
        | some e => rfl
        | none => simp only; split <;> rfl

/-- Acknowledged messages in a log. -/
def acks : List ReqEv → List BrokerMessage
  | [] => []
  | .ack m :: t => m :: acks t
  | _ :: t => acks t

theorem acks_append (a b : List ReqEv) : acks (a ++ b) = acks a ++ acks b := by
  induction a with
  | nil => rfl
  | cons e t ih => cases e <;> simp [acks, ih]

/-- What the waiting loop does. -/
theorem waitLoop_spec (env : Env C) (rty : MsgType R) (addr id : String) (hnp : NoPanic env addr id) :
    ∀ sels : List Sel,
      (∃ pre s post d, sels = pre ++ s :: post ∧ Accepts env rty addr id s d ∧
        (∀ s' ∈ pre, ∀ d', ¬ Accepts env rty addr id s' d') ∧
        (waitLoop env rty addr (some id) sels).1 = .returned d ∧
        acks (waitLoop env rty addr (some id) sels).2 = received (pre ++ [s])) ∨
      ((∀ s' ∈ sels, ∀ d', ¬ Accepts env rty addr id s' d') ∧
        (waitLoop env rty addr (some id) sels).1 = .pending ∧
        acks (waitLoop env rty addr (some id) sels).2 = received sels) := by
  intro sels
  induction sels with
  | nil => right; exact ⟨by simp, rfl, rfl⟩
  | cons s rest ih =>
    have hp := waitNext_panicked env rty addr id s hnp
    have hacks : acks (stepEvs s (waitNext env rty addr (some id) s)) = received [s] := by
      cases s with
      | ctxDone => rfl
      | recv m o =>
        simp only [stepEvs, waitNext_acked, received]
        by_cases hc : (!o && m.isUninitialized) = true
        · rw [if_pos ((closed_iff m o).mp hc), hc]; rfl
        · rw [if_neg (fun h => hc ((closed_iff m o).mpr h))]
          simp [hc, acks]
    cases hm : (waitNext env rty addr (some id) s).msg with
    | some d =>
      left
      refine ⟨[], s, rest, d, rfl, (waitNext_msg env rty addr id s d).mp hm, by simp, ?_, ?_⟩
      · simp [waitLoop, hp, hm]
      · simp only [waitLoop, hp, hm, Bool.false_eq_true, if_false, List.nil_append]
        exact hacks
    | none =>
      have hna : ∀ d', ¬ Accepts env rty addr id s d' := by
        intro d' h
        rw [(waitNext_msg env rty addr id s d').mpr h] at hm
        cases hm
      have hl : waitLoop env rty addr (some id) (s :: rest) =
          ((waitLoop env rty addr (some id) rest).1, stepEvs s (waitNext env rty addr (some id) s) ++ (waitLoop env rty addr (some id) rest).2) := by
        simp only [waitLoop, hp, hm, Bool.false_eq_true, if_false]
      rw [hl]
      rcases ih with ⟨pre, s', post, d, rfl, h1, h2, h3, h4⟩ | ⟨h1, h2, h3⟩
      · left
        refine ⟨s :: pre, s', post, d, rfl, h1, ?_, h3, ?_⟩
        · intro s'' hs
          simp only [List.mem_cons] at hs
          rcases hs with rfl | hs
          · exact hna
          · exact h2 s'' hs
        · rw [acks_append, hacks, h4, ← received_append]; rfl
      · right
        refine ⟨?_, h2, ?_⟩
        · intro s'' hs
          simp only [List.mem_cons] at hs
          rcases hs with rfl | hs
          · exact hna
          · exact h1 s'' hs
        · rw [acks_append, hacks, h3, ← received_append]; rfl

/-- The request once its subscription is made and its message sent. -/
theorem request_sent (env : Env C) (ty : MsgType T) (rty : MsgType R) (op : OpCfg) (ra : ReplyAddr T)
    (uuid reqAddr addr : String) (msg : T) (sels : List Sel) (ha : ra.resolve msg = .ok addr)
    (hs : (send env ty op uuid reqAddr (toSend ty op uuid msg)).res = .ret none) :
    request env ty rty op ra uuid reqAddr none msg sels =
      match waitLoop env rty addr
        (if op.hasCorr then some (ty.corr (toSend ty op uuid msg)) else none) sels with
      | (.pending, evs) => (.pending, .subscribe addr true ::
          (send env ty op uuid reqAddr (toSend ty op uuid msg)).pubs.map .publish ++ evs)
      | (r, evs) => (r, .subscribe addr true ::
          (send env ty op uuid reqAddr (toSend ty op uuid msg)).pubs.map .publish ++ evs ++ [.cancel]) := by
  unfold request
  have : (if (op.hasCorr && ty.corr msg == "") = true then ty.setCorr msg uuid else msg)
      = toSend ty op uuid msg := by
    unfold toSend; simp
  simp only [ha, this, hs]
  rfl

/-- **C22.** A request with correlation ID returns a message exactly when some message received on the
reply channel has the correlation ID of the message it sent and is accepted by the middlewares, and it
returns the first such one. -/
theorem C22_returns_first_matching_reply (env : Env C) (ty : MsgType T) (rty : MsgType R) (op : OpCfg)
    (hc : op.hasCorr = true) (ra : ReplyAddr T) (uuid reqAddr addr : String) (msg : T) (sels : List Sel)
    (ha : ra.resolve msg = .ok addr)
    (hs : (send env ty op uuid reqAddr (toSend ty op uuid msg)).res = .ret none)
    (hnp : NoPanic env addr (ty.corr (toSend ty op uuid msg))) (d : R) :
    (request env ty rty op ra uuid reqAddr none msg sels).1 = .returned d ↔
      ∃ pre s post, sels = pre ++ s :: post ∧
        Accepts env rty addr (ty.corr (toSend ty op uuid msg)) s d ∧
        ∀ s' ∈ pre, ∀ d', ¬ Accepts env rty addr (ty.corr (toSend ty op uuid msg)) s' d' := by
  rw [request_sent env ty rty op ra uuid reqAddr addr msg sels ha hs, hc, if_pos rfl]
  generalize ty.corr (toSend ty op uuid msg) = id at hnp
  constructor
  · intro h
    rcases waitLoop_spec env rty addr id hnp sels with ⟨pre, s, post, d', he, h1, h2, h3, _⟩ | ⟨_, h2, _⟩
    · cases hw : waitLoop env rty addr (some id) sels with
      | mk r evs =>
        rw [hw] at h h3
        simp only at h3
        subst h3
        simp only [ReqRes.returned.injEq] at h
        subst h
        exact ⟨pre, s, post, he, h1, h2⟩
    · cases hw : waitLoop env rty addr (some id) sels with
      | mk r evs =>
        rw [hw] at h h2
        simp only at h2
        subst h2
        cases h
  · rintro ⟨pre, s, post, he, h1, h2⟩
    rcases waitLoop_spec env rty addr id hnp sels with ⟨pre', s', post', d', he', h1', h2', h3, _⟩ | ⟨h1', _⟩
    · have hpp : pre = pre' := by
        rw [he] at he'
        rcases List.append_eq_append_iff.mp he' with ⟨a, ha1, ha2⟩ | ⟨a, ha1, ha2⟩
        · cases a with
          | nil => simpa using ha1.symm
          | cons x xs =>
            rw [List.cons_append] at ha2
            injection ha2 with hx _
            subst hx
            exact absurd h1 (h2' s (by rw [ha1]; simp) d)
        · cases a with
          | nil => simpa using ha1
          | cons x xs =>
            rw [List.cons_append] at ha2
            injection ha2 with hx _
            subst hx
            exact absurd h1' (h2 s' (by rw [ha1]; simp) d')
      subst hpp
      rw [he] at he'
      have := List.append_cancel_left he'
      injection this with hss _
      subst hss
      have hdd : d = d' := by
        have e1 := (waitNext_msg env rty addr id s d).mpr h1
        rw [(waitNext_msg env rty addr id s d').mpr h1'] at e1
        exact (Option.some.inj e1).symm
      subst hdd
      cases hw : waitLoop env rty addr (some id) sels with
      | mk r evs =>
        rw [hw] at h3
        simp only at h3
        subst h3
        rfl
    · exact absurd h1 (h1' s (by rw [he]; simp) d)

theorem acks_pubs (l : List Pub) : acks (l.map .publish) = [] := by
  induction l with
  | nil => rfl
  | cons p t ih => simpa [acks] using ih

/-- **C22.** When the request returns a reply, it has acknowledged, in order, exactly the messages received
up to that reply. -/
theorem C22_acknowledges_all_received (env : Env C) (ty : MsgType T) (rty : MsgType R) (op : OpCfg)
    (hc : op.hasCorr = true) (ra : ReplyAddr T) (uuid reqAddr addr : String) (msg : T)
    (pre post : List Sel) (s : Sel) (d : R) (ha : ra.resolve msg = .ok addr)
    (hs : (send env ty op uuid reqAddr (toSend ty op uuid msg)).res = .ret none)
    (hnp : NoPanic env addr (ty.corr (toSend ty op uuid msg)))
    (h1 : Accepts env rty addr (ty.corr (toSend ty op uuid msg)) s d)
    (h2 : ∀ s' ∈ pre, ∀ d', ¬ Accepts env rty addr (ty.corr (toSend ty op uuid msg)) s' d') :
    acks (request env ty rty op ra uuid reqAddr none msg (pre ++ s :: post)).2 = received (pre ++ [s]) := by
  rw [request_sent env ty rty op ra uuid reqAddr addr msg _ ha hs, hc, if_pos rfl]
  generalize ty.corr (toSend ty op uuid msg) = id at *
  rcases waitLoop_spec env rty addr id hnp (pre ++ s :: post) with
    ⟨pre', s', post', d', he', h1', h2', h3, h4⟩ | ⟨h1', _⟩
  · have hpp : pre = pre' ∧ s = s' := by
      rcases List.append_eq_append_iff.mp he' with ⟨a, ha1, ha2⟩ | ⟨a, ha1, ha2⟩
      · cases a with
        | nil => simp at ha1 ha2; exact ⟨ha1.symm, ha2.1⟩
        | cons x xs =>
          rw [List.cons_append] at ha2
          injection ha2 with hx _
          subst hx
          exact absurd h1 (h2' s (by rw [ha1]; simp) d)
      · cases a with
        | nil => simp at ha1 ha2; exact ⟨ha1, ha2.1.symm⟩
        | cons x xs =>
          rw [List.cons_append] at ha2
          injection ha2 with hx _
          subst hx
          exact absurd h1' (h2 s' (by rw [ha1]; simp) d')
    obtain ⟨rfl, rfl⟩ := hpp
    cases hw : waitLoop env rty addr (some id) (pre ++ s :: post) with
    | mk r evs =>
      rw [hw] at h3 h4
      simp only at h3 h4
      subst h3
      simp only
      rw [acks_append, acks_append, h4]
      simp [acks, acks_pubs]
  · exact absurd h1 (h1' s (by simp) d)

/-- **C22.** The correlation ID awaited is the one that was sent: what the request encodes for the broker is
the caller's message with that same correlation ID. -/
theorem C22_awaits_the_id_it_sent (env : Env C) (ty : MsgType T) (hl : ty.Lawful) (op : OpCfg)
    (uuid reqAddr : String) (hu : uuid ≠ "") (hc : op.hasCorr = true) (msg : T) (p : Pub)
    (hp : p ∈ (send env ty op uuid reqAddr (toSend ty op uuid msg)).pubs) :
    ∃ m bm pre, ty.corr m = ty.corr (toSend ty op uuid msg) ∧ ty.encode m = .ok bm ∧
      pre <+: (send env ty op uuid reqAddr (toSend ty op uuid msg)).trace ∧
      p.msg = lastWritten bm pre := by
  obtain ⟨bm, pre, h1, h2, h3⟩ := C19_published_message env ty op uuid reqAddr (toSend ty op uuid msg) p hp
  have hne := (C19_correlation_id ty hl op hc uuid hu msg).1
  have := (C19_correlation_id ty hl op hc uuid hu (toSend ty op uuid msg)).2.1 hne
  rw [this] at h1
  exact ⟨_, bm, pre, rfl, h1, h2, h3⟩

/-- A request whose reply channel carries another reply first. -/
example : request exEnv exTy exTy ⟨true, false⟩ (.fixed "back") "a" "chan" none ("", [1])
      [.recv ⟨some [("corr", [98])], some [5]⟩ true, .recv ⟨some [("corr", [97])], some [6]⟩ true,
       .recv ⟨some [("corr", [97])], some [7]⟩ true]
    = (.returned ("a", [6]),
       [.subscribe "back" true, .publish ⟨"chan", ⟨some [("corr", [97])], some [1]⟩, .ret none⟩,
        .ack ⟨some [("corr", [98])], some [5]⟩, .ack ⟨some [("corr", [97])], some [6]⟩, .cancel]) := by
  decide

example : NoPanic exEnv "back" "a" := by
  intro m
  simp [exEnv, executeMiddlewares, callLevel, runProg, logging, St.log, St.setCalled, St.start]

example : Accepts exEnv exTy "back" "a" (.recv ⟨some [("corr", [97])], some [6]⟩ true) ("a", [6]) :=
  ⟨_, _, rfl, by decide, by decide, by decide, by decide⟩

/-- **C23 (partial: the waiting step).** The step waiting for a reply returns ErrContextCanceled when the
context is done and ErrSubscriptionCanceled when the reply subscription is closed. Missing: the request
itself should then return that error; it does not (below). -/
theorem C23_waiting_step_reports_partial (env : Env C) (rty : MsgType R) (addr : String)
    (want : Option String) :
    (waitNext env rty addr want .ctxDone).err = some .contextCanceled ∧
    (waitNext env rty addr want (.recv .zero false)).err = some .subscriptionCanceled := by
  constructor <;> rfl

theorem waitLoop_append (env : Env C) (rty : MsgType R) (addr : String) (want : Option String) :
    ∀ (pre post : List Sel), (waitLoop env rty addr want pre).1 = .pending →
      (waitLoop env rty addr want (pre ++ post)).1 = (waitLoop env rty addr want post).1 := by
  intro pre
  induction pre with
  | nil => intro post _; rfl
  | cons s t ih =>
    intro post h
    simp only [waitLoop] at h
    split at h
    · cases h
    · rename_i hp
      split at h
      · cases h
      · rename_i hm
        simp only [List.cons_append, waitLoop, hp, hm, Bool.false_eq_true, if_false]
        exact ih post h

/-- **C23 is violated, always**: whatever was received before, as long as the reply has not come, the
request goes on waiting for ever after its context is done or its reply subscription is closed. -/
theorem C23_violated_forever (env : Env C) (ty : MsgType T) (rty : MsgType R) (op : OpCfg)
    (ra : ReplyAddr T) (uuid reqAddr : String) (msg : T) (sels : List Sel)
    (h : (request env ty rty op ra uuid reqAddr none msg sels).1 = .pending)
    (more : List Sel) (hm : ∀ s ∈ more, s = .ctxDone ∨ s = .recv .zero false) :
    (request env ty rty op ra uuid reqAddr none msg (sels ++ more)).1 = .pending := by
  have hidle : ∀ (addr : String) (want : Option String) (more : List Sel),
      (∀ s ∈ more, s = .ctxDone ∨ s = .recv .zero false) →
      (waitLoop env rty addr want more).1 = .pending := by
    intro addr want more
    induction more with
    | nil => intro _; rfl
    | cons s t ih =>
      intro hm
      have := ih (fun s hs => hm s (List.mem_cons_of_mem _ hs))
      rcases hm s List.mem_cons_self with rfl | rfl
      · simpa [waitLoop, waitNext] using this
      · simpa [waitLoop, waitNext, BrokerMessage.isUninitialized, BrokerMessage.zero] using this
  unfold request at h ⊢
  cases hr : ra.resolve msg with
  | error e => rw [hr] at h; cases h
  | ok addr =>
    rw [hr] at h
    simp only at h ⊢
    generalize (if (op.hasCorr && ty.corr msg == "") = true then ty.setCorr msg uuid else msg) = msg' at *
    cases hres : (send env ty op uuid reqAddr msg').res with
    | panicked => rw [hres] at h; cases h
    | ret e =>
      cases e with
      | some e => rw [hres] at h; cases h
      | none =>
        rw [hres] at h
        simp only at h ⊢
        generalize (if op.hasCorr = true then some (ty.corr msg') else none) = want at *
        have hpend : (waitLoop env rty addr want sels).1 = .pending := by
          cases hw : waitLoop env rty addr want sels with
          | mk r evs =>
            rw [hw] at h
            cases r <;> simp_all
        have h2 := (waitLoop_append env rty addr want sels more hpend).trans (hidle addr want more hm)
        cases hw : waitLoop env rty addr want (sels ++ more) with
        | mk r evs =>
          rw [hw] at h2
          simp only at h2
          subst h2
          rfl

/-- The situation of the violation exists: a request without reply yet. -/
theorem C23_violated : (request exEnv exTy exTy ⟨true, false⟩ (.fixed "back") "a" "chan" none ("", [1])
    [.recv ⟨some [("corr", [98])], some [5]⟩ true, .ctxDone, .ctxDone]).1 = .pending := by decide

/-- Position facts used by C24: `cancel` events of a log. -/
def cancels : List ReqEv → Nat
  | [] => 0
  | .cancel :: t => cancels t + 1
  | _ :: t => cancels t

theorem cancels_append (a b : List ReqEv) : cancels (a ++ b) = cancels a + cancels b := by
  induction a with
  | nil => simp [cancels]
  | cons e t ih => cases e <;> simp [cancels, ih]; omega

/-- Neither a subscription, nor a publication, nor a cancellation. -/
def AckOnly (evs : List ReqEv) : Prop := ∀ e ∈ evs, ∃ m, e = .ack m

theorem waitLoop_ackOnly (env : Env C) (rty : MsgType R) (addr : String) (want : Option String)
    (sels : List Sel) : AckOnly (waitLoop env rty addr want sels).2 := by
  induction sels with
  | nil => intro e he; simp [waitLoop] at he
  | cons s t ih =>
    have h1 : ∀ o : WaitOut C R, AckOnly (stepEvs s o) := by
      intro o e he
      cases s with
      | ctxDone => simp [stepEvs] at he
      | recv m b =>
        simp only [stepEvs] at he
        split at he
        · simp only [List.mem_singleton] at he; exact ⟨m, he⟩
        · simp at he
    simp only [waitLoop]
    split
    · exact h1 _
    · split
      · exact h1 _
      · intro e he
        rw [List.mem_append] at he
        rcases he with he | he
        · exact h1 _ e he
        · exact ih e he

theorem cancels_ackOnly {evs : List ReqEv} (h : AckOnly evs) : cancels evs = 0 := by
  induction evs with
  | nil => rfl
  | cons e t ih =>
    obtain ⟨m, rfl⟩ := h e List.mem_cons_self
    simpa [cancels] using ih (fun e he => h e (List.mem_cons_of_mem _ he))

theorem cancels_pubs (l : List Pub) : cancels (l.map .publish) = 0 := by
  induction l with
  | nil => rfl
  | cons p t ih => simpa [cancels] using ih

/-- **C24.** If the subscription to the reply channel fails, the request returns that error and publishes
nothing. -/
theorem C24_no_publication_without_subscription (env : Env C) (ty : MsgType T) (rty : MsgType R)
    (op : OpCfg) (ra : ReplyAddr T) (uuid reqAddr : String) (e : GoErr) (msg : T) (sels : List Sel)
    (addr : String) (ha : ra.resolve msg = .ok addr) :
    request env ty rty op ra uuid reqAddr (some e) msg sels = (.failed e, [.subscribe addr false]) := by
  simp [request, ha]

/-- **C24.** Otherwise the request subscribes first: every publication comes after the subscription, which
is made exactly once; and the subscription is cancelled exactly once, as its last effect, if the request
has returned or panicked, and not before. -/
theorem C24_subscribes_first_releases_last (env : Env C) (ty : MsgType T) (rty : MsgType R)
    (op : OpCfg) (ra : ReplyAddr T) (uuid reqAddr : String) (msg : T) (sels : List Sel)
    (addr : String) (ha : ra.resolve msg = .ok addr) :
    ∃ (pubs : List Pub) (evs : List ReqEv), AckOnly evs ∧
      ((request env ty rty op ra uuid reqAddr none msg sels).1 = .pending →
        (request env ty rty op ra uuid reqAddr none msg sels).2 =
          .subscribe addr true :: (pubs.map .publish ++ evs)) ∧
      ((request env ty rty op ra uuid reqAddr none msg sels).1 ≠ .pending →
        (request env ty rty op ra uuid reqAddr none msg sels).2 =
          .subscribe addr true :: (pubs.map .publish ++ evs) ++ [.cancel]) := by
  unfold request
  simp only [ha]
  generalize (if (op.hasCorr && ty.corr msg == "") = true then ty.setCorr msg uuid else msg) = msg'
  generalize ho : send env ty op uuid reqAddr msg' = o
  have hnil : AckOnly [] := fun e he => by simp at he
  cases hres : o.res with
  | panicked =>
    refine ⟨o.pubs, [], hnil, ?_, ?_⟩ <;> intro h
    · simp at h
    · simp
  | ret e =>
    cases e with
    | some e =>
      refine ⟨o.pubs, [], hnil, ?_, ?_⟩ <;> intro h
      · simp at h
      · simp
    | none =>
      simp only
      generalize (if op.hasCorr = true then some (ty.corr msg') else none) = want
      have hack := waitLoop_ackOnly env rty addr want sels
      cases hw : waitLoop env rty addr want sels with
      | mk r evs =>
        rw [hw] at hack
        cases r with
        | pending =>
          refine ⟨o.pubs, evs, hack, ?_, ?_⟩ <;> intro h
          · simp
          · simp at h
        | returned d =>
          refine ⟨o.pubs, evs, hack, ?_, ?_⟩ <;> intro h
          · simp at h
          · simp
        | failed e =>
          refine ⟨o.pubs, evs, hack, ?_, ?_⟩ <;> intro h
          · simp at h
          · simp
        | panicked =>
          refine ⟨o.pubs, evs, hack, ?_, ?_⟩ <;> intro h
          · simp at h
          · simp

/-- **C24**, counting form: cancelled exactly once on return, never while pending. -/
theorem C24_released_exactly_once (env : Env C) (ty : MsgType T) (rty : MsgType R)
    (op : OpCfg) (ra : ReplyAddr T) (uuid reqAddr : String) (msg : T) (sels : List Sel)
    (addr : String) (ha : ra.resolve msg = .ok addr) :
    cancels (request env ty rty op ra uuid reqAddr none msg sels).2 =
      match (request env ty rty op ra uuid reqAddr none msg sels).1 with
      | .pending => 0
      | _ => 1 := by
  obtain ⟨pubs, evs, hack, h1, h2⟩ :=
    C24_subscribes_first_releases_last env ty rty op ra uuid reqAddr msg sels addr ha
  cases hr : (request env ty rty op ra uuid reqAddr none msg sels).1 with
  | pending =>
    rw [h1 hr]
    simp [cancels, cancels_append, cancels_pubs, cancels_ackOnly hack]
  | _ =>
    rw [h2 (by rw [hr]; simp)]
    simp [cancels, cancels_append, cancels_pubs, cancels_ackOnly hack]

/-- A request whose sending fails: subscription released. -/
example : request exEnv exTy exTy ⟨true, false⟩ (.fixed "back") "a" "chan" none ("", []) [.ctxDone]
    = (.failed (.sending (.other "empty")), [.subscribe "back" true, .cancel]) := by decide

end Verif.Send
