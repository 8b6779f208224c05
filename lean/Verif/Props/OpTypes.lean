import Verif.Model.OpTypes

/-! # C87: the functions generated for a request and its reply fit together -/

namespace Verif.OpTypes

/-- An order of iteration lists the entries of the map, each once. -/
def Order.Lawful (o : Order) : Prop := ∀ k l, (o k l).Perm l

/-- The Go compiler's view of the side that asks: calls match signatures, returned values match results, variables have
one type and are declared once, methods exist. -/
structure Asking.Fits (a : Asking) : Prop where
  call : a.call = a.sendSig
  sendCorr : ∀ b ∈ a.sendCorr, b = true → a.sendSig.msg.corr = true
  params : ∀ p ∈ a.addrParams, p ∈ a.reqParams
  zeros : ∀ z ∈ a.zeros, z = a.result
  reqCorr : a.reqCorr = true → a.reqMsg.corr = true
  waitArg : a.waitParam = if a.waitArg then some a.reqMsg else none
  waitResult : a.waitResult = a.result
  waitCtx : a.waitCtx = true → ∃ m, a.waitParam = some m ∧ m.corr = true
  compared : ∀ d, a.decode = some d → d = a.decode2 ∧ d.corr = true ∧ ∃ m, a.waitParam = some m ∧ m.corr = true
  declared : a.declares = a.decode.isNone
  returned : a.decode2 = a.waitResult

/-- The Go compiler's view of the side that answers. -/
structure Answering.Fits (a : Answering) : Prop where
  handler : a.handler = a.listener
  decoded : a.decode = a.listener
  listenCorr : a.listenCorr = true → a.decode.corr = true
  callback : a.newMsg = a.callback
  response : a.setResponse = true → a.newMsg.corr = true ∧ a.recvMsg.corr = true
  received : a.recvMsg = a.handler
  call : a.call = a.sendSig
  sendCorr : ∀ b ∈ a.sendCorr, b = true → a.sendSig.msg.corr = true

/-- All messages of the channel are the same, and there is one. -/
def Chan.Single (c : Chan) (m : Msg) : Prop := c.messages ≠ [] ∧ ∀ e ∈ c.messages, e.2 = m

/-- The documents for which the functions fit: the operation names its message or its channel has one, the reply channel
has one, which is correlated if the request is; the request has an address; the reply channel has no parameters, and an
address unless the reply has one. -/
def Good (op : Op) : Prop :=
  ∃ m r : Msg, (op.messages.head? = some m ∨ (op.messages = [] ∧ op.chan.Single m)) ∧ op.reply.chan.Single r ∧
    (m.corr = true → r.corr = true) ∧ op.chan.address ≠ [] ∧ op.reply.chan.params = [] ∧
    op.reply.addr.isSome = op.reply.chan.address.isEmpty

theorem single_getMessage {o : Order} (ho : o.Lawful) {c : Chan} {m : Msg} (h : c.Single m) (k : Nat) :
    c.getMessage o k = some m := by
  have hp := ho k c.messages
  unfold Chan.getMessage
  split
  · rename_i he
    rw [he] at hp
    exact absurd (List.nil_perm.1 hp) h.1
  · rename_i x m' rest he
    rw [he] at hp
    have := h.2 (x, m') (hp.mem_iff.1 (by simp))
    simp only at this
    rw [this]

/-- The order that puts an entry first. -/
def front (e : Str × Msg) (l : List (Str × Msg)) : List (Str × Msg) := if e ∈ l then e :: l.erase e else l

theorem front_perm (e : Str × Msg) (l : List (Str × Msg)) : (front e l).Perm l := by
  unfold front
  split
  · rename_i h; exact (List.perm_cons_erase h).symm
  · exact List.Perm.refl _

theorem front_getMessage {o : Order} {c : Chan} {e : Str × Msg} (he : e ∈ c.messages) {k : Nat}
    (hk : o k = front e) : c.getMessage o k = some e.2 := by
  obtain ⟨x, m⟩ := e
  simp [Chan.getMessage, hk, front, he]

/-- The functions of both sides fit, whatever the orders of iteration. -/
def AlwaysFits (op : Op) : Prop :=
  ∀ o : Order, o.Lawful → (∃ a, asking o op = some a ∧ a.Fits) ∧ (∃ b, answering o op = some b ∧ b.Fits)

/-- **C87, partial.** For these documents, in whatever orders the maps are iterated over, the functions of both sides are
generated and fit together. -/
theorem C87_fits_partial (op : Op) (h : Good op) : AlwaysFits op := by
  obtain ⟨m, r, hm, hr, hc, ha, hp, hd⟩ := h
  intro o ho
  have hgm : ∀ k, getMessage o k op.messages op.chan = some m := by
    intro k
    unfold getMessage
    rcases hm with hm | ⟨hm, hs⟩
    · cases hl : op.messages with
      | nil => simp [hl] at hm
      | cons x xs => simpa [hl] using hm
    · rw [hm]; exact single_getMessage ho hs k
  have hrm := single_getMessage ho hr
  have ha' : op.chan.address.isEmpty = false := by cases h : op.chan.address <;> simp_all
  constructor
  · simp only [asking, hgm, hrm, Option.bind_eq_bind, Option.bind_some, Option.some.injEq, exists_eq_left']
    obtain ⟨mt, mc⟩ := m
    obtain ⟨rt, rc⟩ := r
    constructor <;> cases mc <;> simp_all [sendSig, addrParams]
    all_goals exact fun z h => h.elim And.right id
  · have hrm' : ∀ k, getMessage o k [] op.reply.chan = some r := hrm
    simp only [answering, hgm, hrm', Option.bind_eq_bind, Option.bind_some, Option.some.injEq, exists_eq_left']
    constructor <;> simp_all [sendSig]

theorem asking_inv {o : Order} {op : Op} {a : Asking} (h : asking o op = some a) :
    getMessage o 0 op.messages op.chan = some a.sendSig.msg ∧ getMessage o 3 op.messages op.chan = some a.reqMsg ∧
    op.reply.chan.getMessage o 4 = some a.result ∧ op.reply.chan.getMessage o 12 = some a.waitResult ∧
    a.sendSig = sendSig op.chan a.sendSig.msg ∧ a.call = ⟨!op.chan.params.isEmpty, false, a.reqMsg⟩ := by
  simp only [asking, Option.bind_eq_bind, Option.bind_eq_some_iff, Option.some.injEq] at h
  obtain ⟨_, h0, _, _, _, _, _, h3, _, h4, _, _, _, _, _, _, _, _, _, _, _, _, _, _, _, h12, _, _, _, _, _, _, _, _, _, _, rfl⟩ := h
  exact ⟨h0, h3, h4, h12, rfl, rfl⟩

theorem answering_inv {o : Order} {op : Op} {b : Answering} (h : answering o op = some b) :
    op.reply.chan.getMessage o 26 = some b.newMsg ∧
    (∃ m, getMessage o 27 op.messages op.chan = some m ∧ b.setResponse = m.corr) ∧
    b.call = ⟨false, op.reply.addr.isSome, b.newMsg⟩ ∧ b.sendSig = sendSig op.reply.chan b.sendSig.msg := by
  simp only [answering, Option.bind_eq_bind, Option.bind_eq_some_iff, Option.some.injEq] at h
  obtain ⟨_, _, _, _, _, _, _, _, _, _, _, _, _, h26, m, h27, _, _, _, _, _, _, rfl⟩ := h
  exact ⟨h26, ⟨m, h27, rfl⟩, rfl, rfl⟩

/-- Two places of a channel's message agree for all orders: there is one message. -/
theorem single_of_agree {c : Chan} (i j : Nat) (hij : i ≠ j)
    (h : ∀ o : Order, o.Lawful → ∃ m, c.getMessage o i = some m ∧ c.getMessage o j = some m) : ∃ m, c.Single m := by
  obtain ⟨m, hm, _⟩ := h (fun _ l => l) (fun _ _ => List.Perm.refl _)
  have hne : c.messages ≠ [] := by
    intro he; simp [Chan.getMessage, he] at hm
  obtain ⟨e, he⟩ := List.exists_mem_of_ne_nil _ hne
  refine ⟨e.2, hne, fun e' he' => ?_⟩
  obtain ⟨m', h1, h2⟩ := h (fun k => if k = i then front e else front e') (fun k l => by
    simp only; split <;> exact front_perm _ _)
  rw [front_getMessage he (by simp)] at h1
  rw [front_getMessage he' (by simp [Ne.symm hij])] at h2
  rw [← h2] at h1
  exact (Option.some.inj h1).symm

/-- **C87, exactly when.** These are the only documents for which the functions always fit. -/
theorem C87_only_these_partial (op : Op) : AlwaysFits op ↔ Good op := by
  refine ⟨fun H => ?_, C87_fits_partial op⟩
  have hr : ∃ r, op.reply.chan.Single r := by
    refine single_of_agree 4 12 (by decide) (fun o ho => ?_)
    obtain ⟨⟨a, ha, hf⟩, _⟩ := H o ho
    obtain ⟨_, _, h4, h12, _⟩ := asking_inv ha
    exact ⟨a.result, h4, by rw [h12, hf.waitResult]⟩
  have hm : ∃ m, op.messages.head? = some m ∨ (op.messages = [] ∧ op.chan.Single m) := by
    cases hl : op.messages with
    | cons x xs => exact ⟨x, Or.inl rfl⟩
    | nil =>
      obtain ⟨m, h⟩ : ∃ m, op.chan.Single m := by
        refine single_of_agree 0 3 (by decide) (fun o ho => ?_)
        obtain ⟨⟨a, ha, hf⟩, _⟩ := H o ho
        obtain ⟨h0, h3, _, _, _, hc⟩ := asking_inv ha
        rw [hl] at h0 h3
        refine ⟨a.reqMsg, ?_, h3⟩
        have := hf.call
        rw [hc] at this
        rw [← this] at h0
        exact h0
      exact ⟨m, Or.inr ⟨rfl, h⟩⟩
  obtain ⟨r, hr⟩ := hr
  obtain ⟨m, hm⟩ := hm
  have hid : Order.Lawful (fun _ l => l) := fun _ _ => List.Perm.refl _
  obtain ⟨⟨a, ha, hf⟩, b, hb, hg⟩ := H _ hid
  obtain ⟨_, _, _, _, hs, hc⟩ := asking_inv ha
  obtain ⟨h26, ⟨m', h27, h27'⟩, hc', hs'⟩ := answering_inv hb
  have hgm : m' = m := by
    rcases hm with hm | ⟨hl, hm⟩
    · cases hl : op.messages with
      | nil => simp [hl] at hm
      | cons x xs =>
        rw [hl] at h27 hm
        simp only [getMessage, Option.some.injEq, List.head?_cons] at h27 hm
        exact h27.symm.trans hm
    · rw [hl] at h27
      have := single_getMessage hid hm 27
      rw [getMessage, this] at h27
      exact (Option.some.inj h27).symm
  have h1 := hf.call
  rw [hc, hs] at h1
  have h2 := hg.call
  rw [hc', hs'] at h2
  simp only [sendSig, Sig.mk.injEq] at h1 h2
  refine ⟨m, r, hm, hr, ?_, ?_, ?_, h2.2.1⟩
  · intro hcorr
    have := (hg.response (by rw [h27', hgm]; exact hcorr)).1
    rw [single_getMessage hid hr 26] at h26
    rw [Option.some.inj h26]
    exact this
  · intro he
    rw [he] at h1
    simp at h1
  · have := h2.1
    cases hp : op.reply.chan.params with
    | nil => rfl
    | cons x xs => simp [hp] at this

/-- **C87, the declared messages.** Whenever code is generated, the request has the first message declared for the operation,
or else one of its channel; and the reply has one of the reply channel. -/
theorem C87_declared_types_partial (o : Order) (ho : o.Lawful) (op : Op) (a : Asking) (b : Answering)
    (ha : asking o op = some a) (hb : answering o op = some b) :
    (∀ m ∈ op.messages.head?, a.reqMsg = m ∧ a.sendSig.msg = m ∧ b.recvMsg = m) ∧
    (op.messages = [] → ∀ m ∈ [a.reqMsg, a.sendSig.msg, b.recvMsg], ∃ k, (k, m) ∈ op.chan.messages) ∧
    ∀ r ∈ [a.result, a.decode2, b.callback, b.newMsg, b.sendSig.msg], ∃ k, (k, r) ∈ op.reply.chan.messages := by
  have hmem : ∀ (c : Chan) (k : Nat) (m : Msg), c.getMessage o k = some m → ∃ x, (x, m) ∈ c.messages := by
    intro c k m h
    unfold Chan.getMessage at h
    split at h
    · cases h
    · rename_i x m' rest he
      cases h
      exact ⟨x, (ho k c.messages).mem_iff.1 (by rw [he]; simp)⟩
  simp only [asking, Option.bind_eq_bind, Option.bind_eq_some_iff, Option.some.injEq] at ha
  obtain ⟨_, h0, _, _, _, _, _, h3, _, h4, _, _, _, _, _, _, _, _, _, _, _, _, _, _, _, h12, _, _, _, _, _, _, _, _, _, h17, rfl⟩ := ha
  simp only [answering, Option.bind_eq_bind, Option.bind_eq_some_iff, Option.some.injEq] at hb
  obtain ⟨_, _, _, _, _, _, _, _, _, h24, _, h25, _, h26, _, h27, _, h28, _, _, _, _, rfl⟩ := hb
  refine ⟨?_, ?_, ?_⟩
  · intro m hm
    cases hl : op.messages with
    | nil => simp [hl] at hm
    | cons x xs =>
      rw [hl] at h0 h3 h24 hm
      simp only [getMessage, Option.some.injEq] at h0 h3 h24
      simp only [List.head?_cons, Option.mem_def, Option.some.injEq] at hm
      subst hm
      exact ⟨h3.symm, h0.symm, h24.symm⟩
  · intro hl m hm
    rw [hl] at h0 h3 h24
    simp only [List.mem_cons, List.not_mem_nil, or_false, sendSig] at hm
    rcases hm with rfl | rfl | rfl
    · exact hmem _ _ _ h3
    · exact hmem _ _ _ h0
    · exact hmem _ _ _ h24
  · intro r hr
    simp only [List.mem_cons, List.not_mem_nil, or_false, sendSig] at hr
    rcases hr with rfl | rfl | rfl | rfl | rfl
    · exact hmem _ _ _ h4
    · exact hmem _ _ _ h17
    · exact hmem _ _ _ h25
    · exact hmem _ _ _ h26
    · exact hmem _ _ _ h28

/-- **C87 is violated by a reply channel with two messages**: whatever the operation and the reply declare, there are
orders of iteration for which the functions do not fit (the generated code does not compile). -/
theorem C87_violated_two_replies (op : Op) (e e' : Str × Msg) (he : e ∈ op.reply.chan.messages)
    (he' : e' ∈ op.reply.chan.messages) (hne : e.2 ≠ e'.2) : ¬ AlwaysFits op := by
  rw [C87_only_these_partial]
  rintro ⟨m, r, _, hr, _⟩
  exact hne ((hr.2 e he).trans (hr.2 e' he').symm)

/-- **C87 is violated when only the request has a correlation ID.** -/
theorem C87_violated_uncorrelated (op : Op) (m r : Msg) (hm : op.messages.head? = some m) (hc : m.corr = true)
    (hr : ∃ k, (k, r) ∈ op.reply.chan.messages) (hrc : r.corr = false) : ¬ AlwaysFits op := by
  rw [C87_only_these_partial]
  rintro ⟨m', r', hm', hr', hc', _⟩
  obtain ⟨k, hk⟩ := hr
  rcases hm' with hm' | ⟨hl, _⟩
  · rw [hm] at hm'
    cases hm'
    have h1 := hr'.2 _ hk
    simp only at h1
    rw [← h1, hrc] at hc'
    exact absurd (hc' hc) (by simp)
  · simp [hl] at hm

/-- **C87 is violated by requests on channels whose address is given by the caller, and by replies on channels with
parameters.** -/
theorem C87_violated_arguments (op : Op) (h : op.chan.address = [] ∨ op.reply.chan.params ≠ []) : ¬ AlwaysFits op := by
  rw [C87_only_these_partial]
  rintro ⟨_, _, _, _, _, ha, hp, _⟩
  rcases h with h | h
  · exact ha h
  · exact h hp

/-- **C87: the messages declared for the reply are ignored**: the code is the same whatever they are. -/
theorem C87_violated_reply_messages (o : Order) (op : Op) (ms : List Msg) :
    asking o { op with reply := { op.reply with messages := ms } } = asking o op ∧
    answering o { op with reply := { op.reply with messages := ms } } = answering o op := ⟨rfl, rfl⟩

/-- Nor does the side that asks fit on its own when the address of the reply has a parameter that the request has not. -/
theorem C87_violated_parameter (o : Order) (op : Op) (h : op.reply.addr = none) (p : Str) (hp : p ∈ op.reply.chan.params)
    (hn : p ∉ op.chan.params) : ∀ a, asking o op = some a → ¬ a.Fits := by
  intro a ha hf
  simp only [asking, Option.bind_eq_bind, Option.bind_eq_some_iff, Option.some.injEq] at ha
  obtain ⟨_, _, _, _, _, _, _, _, _, _, _, _, _, _, _, _, _, _, _, _, _, _, _, _, _, _, _, _, _, _, _, _, _, _, _, _, rfl⟩ := ha
  have := hf.params p
  simp only [h, Option.isSome_none, Bool.false_eq_true, if_false, addrParams] at this
  exact hn (this hp)

/-- Ping and pong, correlated, over channels with fixed addresses. -/
def exOp : Op where
  messages := []
  chan := ⟨"ping".toList, ["id".toList], [("ping".toList, ⟨"PingMessage".toList, true⟩)]⟩
  reply := ⟨none, ⟨"pong".toList, [], [("pong".toList, ⟨"PongMessage".toList, true⟩)]⟩, []⟩

example : Good exOp :=
  ⟨⟨"PingMessage".toList, true⟩, ⟨"PongMessage".toList, true⟩, Or.inr ⟨rfl, by simp [exOp, Chan.Single]⟩,
    by simp [exOp, Chan.Single], fun _ => rfl, by simp [exOp], rfl, rfl⟩

/-- The types of this request. -/
example : (asking (fun _ l => l) exOp).map (fun a => (a.reqMsg.ty, a.result.ty)) =
    some ("PingMessage".toList, "PongMessage".toList) := by decide

/-- A reply that may be `pong` or `error`, declared to be `pong`. -/
example : ¬ AlwaysFits { exOp with reply := ⟨none, ⟨"pong".toList, [], [("pong".toList, ⟨"PongMessage".toList, true⟩),
    ("error".toList, ⟨"ErrorMessage".toList, true⟩)]⟩, [⟨"PongMessage".toList, true⟩]⟩ } :=
  C87_violated_two_replies _ ("pong".toList, ⟨"PongMessage".toList, true⟩) ("error".toList, ⟨"ErrorMessage".toList, true⟩)
    (by simp) (by simp) (by decide)

/-- A reply channel with a parameter. -/
example : ∃ a, asking (fun _ l => l) { exOp with reply := { exOp.reply with chan := { exOp.reply.chan with params := ["id".toList] } } } =
    some a ∧ a.addrParams = ["id".toList] := ⟨_, rfl, rfl⟩

end Verif.OpTypes
