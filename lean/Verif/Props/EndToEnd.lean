import Verif.Model.EndToEnd
import Verif.Props.Headers
import Verif.Props.Listen
import Verif.Props.NatsWire
import Verif.Props.Payload
import Verif.Props.Send
import Verif.Props.Transport

/-! # C73: the handler receives what was sent -/

namespace Verif.EndToEnd

open Verif.Middleware
open Verif.Payload (Lib)
open Verif.Send (GoErr)

/-! ## Middlewares that look but do not touch -/

/-- A middleware body that never writes the message. -/
def Silent {C M E : Type} : MProg C M E → Prop
  | .ret _ => True
  | .panic => True
  | .read k => ∀ m, Silent (k m)
  | .write _ _ => False
  | .next _ k => ∀ r, Silent (k r)
  | .nextR _ k => ∀ r, Silent (k r)

/-- A middleware that passes outcomes on and never writes the message (it may change the context). -/
def Quiet {C M E : Type} (mw : Mw C M E) : Prop := ∀ ctx, PassesOn none (mw ctx) ∧ Silent (mw ctx)

theorem specProg_silent_ran {C M X E : Type} {rest : C → M × X → Res E × (M × X)} :
    ∀ (p : MProg C M E) (e : Option E) (s : M × X), PassesOn e p → Silent p →
      specProg rest p true s = (.ret e, true, s) := by
  intro p
  induction p with
  | ret e' => intro e s h _; simp only [specProg]; rw [h]
  | panic => intro e s h _; exact absurd h (by simp [PassesOn])
  | read k ih => intro e s h h'; exact ih s.1 e s (h s.1) (h' s.1)
  | write m k ih => intro e s _ h'; exact h'.elim
  | next ctx k ih =>
    intro e s h h'
    simp only [specProg]
    exact ih none e s (by simpa using h none) (h' none)
  | nextR ctx k ih =>
    intro e s h h'
    simp only [specProg]
    exact ih (.ret none) e s (by simpa using h.1 none) (h' _)

theorem specProg_quiet {C M X E : Type} {rest : C → M × X → Res E × (M × X)} :
    ∀ (p : MProg C M E) (s : M × X), PassesOn none p → Silent p →
      specProg rest p false s = (.ret none, false, s) ∨
      ∃ ctx, specProg rest p false s = ((rest ctx s).1, true, (rest ctx s).2) := by
  intro p
  induction p with
  | ret e' => intro s h _; left; simp only [specProg]; rw [h]
  | panic => intro s h _; exact absurd h (by simp [PassesOn])
  | read k ih => intro s h h'; exact ih s.1 s (h s.1) (h' s.1)
  | write m k ih => intro s _ h'; exact h'.elim
  | next ctx k ih =>
    intro s h h'
    right
    refine ⟨ctx, ?_⟩
    simp only [specProg]
    generalize rest ctx s = o
    obtain ⟨r, s'⟩ := o
    cases r with
    | panicked => rfl
    | ret e => exact specProg_silent_ran (k e) e s' (by simpa using h e) (h' e)
  | nextR ctx k ih =>
    intro s h h'
    right
    refine ⟨ctx, ?_⟩
    simp only [specProg]
    generalize rest ctx s = o
    obtain ⟨r, s'⟩ := o
    cases r with
    | panicked => simp only [h.2, specProg]
    | ret e => exact specProg_silent_ran (k (.ret e)) e s' (by simpa using h.1 e) (h' _)

theorem specChain_quiet {C M X E : Type} (f : Callback C M X E) :
    ∀ (mws : List (Mw C M E)), (∀ mw ∈ mws, Quiet mw) → ∀ (ctx : C) (s : M × X), ∃ ctx',
      specChain (some f) mws ctx s = ((f ctx' s.1 s.2).1, (s.1, (f ctx' s.1 s.2).2)) := by
  intro mws
  induction mws with
  | nil => intro _ ctx s; exact ⟨ctx, rfl⟩
  | cons mw rest ih =>
    intro hq ctx s
    have ih' := ih (fun m hm => hq m (List.mem_cons_of_mem _ hm))
    obtain ⟨hp, hs⟩ := hq mw List.mem_cons_self ctx
    rcases specProg_quiet (rest := specChain (some f) rest) (mw ctx) s hp hs with h | ⟨c, h⟩
    · simp only [specChain, h]
      exact ih' ctx s
    · obtain ⟨c', h'⟩ := ih' c s
      refine ⟨c', ?_⟩
      simp only [specChain, h]
      rw [h']
      cases (f c' s.1 s.2).1 with
      | panicked => rfl
      | ret e => cases e <;> rfl

theorem executeMiddlewares_quiet {C M X E : Type} (f : Callback C M X E) (mws : List (Mw C M E))
    (hq : ∀ mw ∈ mws, Quiet mw) (ctx : C) (m : M) (x : X) :
    ∃ ctx', outcome (executeMiddlewares mws ctx m x (some f)) = ((f ctx' m x).1, m, (f ctx' m x).2) := by
  rw [outcome_spec]
  exact specChain_quiet f mws hq ctx (m, x)

/-! ## The specification -/

/-- Two messages with the same content: payload and declared headers. -/
def Agrees {J T : Type} {c : MsgCfg} (a b : Msg J T c) : Prop :=
  a.payload = b.payload ∧ ∀ f ∈ c.fields, a.headers f.key = b.headers f.key

/-- A message whose content the wire can express: the payload survives (see C37 for which do), headers are well typed,
times have whole seconds, no object is in an optional header (see C38); over NATS, names of headers are tokens and their
values one line without blanks around it (see C115). -/
structure Expressible {J T : Type} (via : Via) (lib : Lib J T) (force : Bool) {c : MsgCfg} (m : Msg J T c) : Prop where
  payload : Payload.Survives lib c.pay m.payload
  typed : Headers.Typed force c.fields m.headers
  times : Headers.TimesExact lib c.fields m.headers
  objects : Headers.NoPointerObject force c.fields m.headers
  required : Headers.encode lib c.fields m.headers ≠ none
  line : via = .nats → ∀ f ∈ c.fields, ∀ x, (m.headers f.key).val = some x →
    Transport.Token f.key ∧ ∀ b, Headers.encodeVal lib x = some b → Transport.OneLine b

/-- The calls of a handler: context, message, what it returned. -/
def calls {C D E : Type} (o : Listen.Out C D E) : List (C × D × Res E) :=
  o.w.log.filterMap (fun
    | .fnCall c d r => some (c, d, r)
    | _ => none)

/-- A received message was handled as the one sent: the handler was called once, with the content of `m`, and the
message was acknowledged once: positively if the handler succeeded, negatively otherwise. -/
def HandledAs {C J T : Type} {c : MsgCfg} (fn : C → Msg J T c → Res GoErr) (o : Listen.Out C (Msg J T c) GoErr)
    (m : Msg J T c) : Prop :=
  ∃ ctx d, calls o = [(ctx, d, fn ctx d)] ∧ Agrees d m ∧
    o.w.ack.hooks = [if fn ctx d = .ret none then .ack else .nak]

/-- A relation between the elements of two lists of the same length, in order. -/
def Each {A B : Type} (R : A → B → Prop) : List A → List B → Prop
  | [], [] => True
  | a :: as, b :: bs => R a b ∧ Each R as bs
  | _, _ => False

/-! ## The way of one message -/

theorem wf_encodeFields {J T : Type} (lib : Lib J T) (h : Headers.Struct J T) :
    ∀ (fs : List Headers.Field) (acc out : GoMap String Bytes), acc.WF →
      Headers.encodeFields lib h fs acc = some out → out.WF := by
  intro fs
  induction fs with
  | nil => intro acc out hw he; cases he; exact hw
  | cons f fs ih =>
    intro acc out hw he
    simp only [Headers.encodeFields] at he
    obtain ⟨acc', h1, h2⟩ := Option.bind_eq_some_iff.1 he
    refine ih acc' out ?_ h2
    unfold Headers.encodeField at h1
    split at h1
    · split at h1
      · cases h1
      · cases h1; exact hw
    · obtain ⟨b, _, rfl⟩ := Option.map_eq_some_iff.1 h1
      exact GoMap.wf_put hw _ _

theorem wf_foldl_put (es : List (String × Bytes)) : ∀ (h : GoMap String Bytes), h.WF →
    GoMap.WF (es.foldl (fun h e => GoMap.put h e.1 e.2) h) := by
  induction es with
  | nil => intro h hw; exact hw
  | cons e es ih => intro h hw; exact ih _ (GoMap.wf_put hw _ _)

theorem wf_foldl_putFirst (es : List (String × List Bytes)) : ∀ (h : GoMap String Bytes), h.WF →
    GoMap.WF (es.foldl Transport.putFirst h) := by
  induction es with
  | nil => intro h hw; exact hw
  | cons e es ih =>
    intro h hw
    refine ih _ ?_
    unfold Transport.putFirst
    split
    · exact hw
    · exact GoMap.wf_put hw _ _

/-- Headers that the text of a NATS message can carry. -/
def Fit (hs : GoMap String Bytes) : Prop := ∀ k v, hs.get k = some v → Transport.Token k ∧ Transport.OneLine v

theorem fit_put {hs : GoMap String Bytes} (h : Fit hs) {k : String} {v : Bytes} (hk : Transport.Token k)
    (hv : Transport.OneLine v) : Fit (hs.put k v) := by
  intro k' v' hg
  by_cases e : k' = k
  · subst e
    rw [GoMap.get_put_self] at hg
    cases hg
    exact ⟨hk, hv⟩
  · rw [GoMap.get_put_of_ne _ _ (Ne.symm e)] at hg
    exact h k' v' hg

theorem fit_encodeFields {J T : Type} (lib : Lib J T) (h : Headers.Struct J T) :
    ∀ (fs : List Headers.Field) (acc out : GoMap String Bytes),
      (∀ f ∈ fs, ∀ x, (h f.key).val = some x →
        Transport.Token f.key ∧ ∀ b, Headers.encodeVal lib x = some b → Transport.OneLine b) → Fit acc →
      Headers.encodeFields lib h fs acc = some out → Fit out := by
  intro fs
  induction fs with
  | nil => intro acc out _ hw he; cases he; exact hw
  | cons f fs ih =>
    intro acc out hl hw he
    simp only [Headers.encodeFields] at he
    obtain ⟨acc', h1, h2⟩ := Option.bind_eq_some_iff.1 he
    refine ih acc' out (fun f hf => hl f (List.mem_cons_of_mem _ hf)) ?_ h2
    unfold Headers.encodeField at h1
    split at h1
    · split at h1
      · cases h1
      · cases h1; exact hw
    · rename_i x hx
      obtain ⟨b, hb, rfl⟩ := Option.map_eq_some_iff.1 h1
      obtain ⟨ht, ho⟩ := hl f List.mem_cons_self x hx
      exact fit_put hw ht (ho b hb)

/-- The broker controllers deliver the same message, with a proper header map. -/
theorem wire_same {via : Via} {bm bm' : BrokerMessage} (hwf : (Transport.headersOf bm).WF)
    (hfit : via = .nats → Fit (Transport.headersOf bm)) (h : Wire via bm bm') :
    Transport.SameMessage bm' bm ∧ (Transport.headersOf bm').WF := by
  cases h with
  | nats _ o1 h1 ow hw m hm o2 h2 =>
    obtain ⟨m', e, hs⟩ := Transport.C115_unchanged_iff_partial bm hwf o1 h1 ow hw
    rw [hm] at e
    cases e
    exact ⟨(hs o2 h2).2 (hfit rfl), wf_foldl_putFirst o2 [] GoMap.wf_nil⟩
  | kafka _ o1 h1 =>
    exact ⟨Transport.C33_kafka_transports_unchanged bm hwf o1 h1, wf_foldl_put _ [] GoMap.wf_nil⟩

/-- The version header is not one of the declared ones and, over NATS, can be carried. -/
def NoClash (via : Via) (v : Option (Versioning.Cfg × Bytes)) (c : MsgCfg) : Prop :=
  ∀ cfg ver, v = some (cfg, ver) → cfg.headerKey ∉ c.fields.map (·.key) ∧
    (via = .nats → Transport.Token cfg.headerKey ∧ Transport.OneLine ver)

theorem encode_ok {J T : Type} (lib : Lib J T) (force : Bool) {c : MsgCfg} (m : Msg J T c) {via : Via}
    (he : Expressible via lib force m) :
    ∃ h p, Headers.encode lib c.fields m.headers = some h ∧ Payload.encode lib c.pay m.payload = some p ∧
      Payload.decode lib c.pay p = .ok m.payload ∧ toBroker lib c m = .ok ⟨some h, some p⟩ := by
  obtain ⟨p, hp, hd⟩ := he.payload
  cases hh : Headers.encode lib c.fields m.headers with
  | none => exact absurd hh he.required
  | some h => exact ⟨h, p, rfl, hp, hd, by simp [toBroker, hp, hh]⟩

/-- What the receiver decodes is what the sender encoded. -/
theorem decode_delivered {J T : Type} (lib : Lib J T) (hlib : lib.Lawful) (z : Headers.Zero J T) (force : Bool) (c : MsgCfg)
    (hnd : (c.fields.map (·.key)).Nodup) (m : Msg J T c) (via : Via)
    (he : Expressible via lib force m)
    (order : BrokerMessage → List (String × Bytes)) (hord : ∀ bm, (order bm).Perm (Transport.headersOf bm))
    (v : Option (Versioning.Cfg × Bytes)) (hv : NoClash via v c) (bm bm' : BrokerMessage) (hb : toBroker lib c m = .ok bm)
    (hdel : Delivered via v bm bm') : ∃ d, fromBroker lib z force c order bm' = .ok d ∧ Agrees d m := by
  obtain ⟨h, p, hh, hp, hdec, ht⟩ := encode_ok lib force m he
  rw [ht] at hb
  cases hb
  obtain ⟨bm1, h1, h2⟩ := hdel
  have hwfh : GoMap.WF h := wf_encodeFields lib m.headers c.fields [] h GoMap.wf_nil hh
  have hfith : via = .nats → Fit h := fun e =>
    fit_encodeFields lib m.headers c.fields [] h (he.line e) (fun k v hg => by cases hg) hh
  -- what the wrapper hands to the broker
  have hvia : Transport.bytesOf bm1.payload = p ∧ (Transport.headersOf bm1).WF ∧
      (via = .nats → Fit (Transport.headersOf bm1)) ∧
      ∀ f ∈ c.fields, (Transport.headersOf bm1).get f.key = h.get f.key := by
    cases v with
    | none =>
      simp only [viaVersioning, Option.some.injEq] at h1
      subst h1
      exact ⟨rfl, hwfh, hfith, fun _ _ => rfl⟩
    | some cv =>
      obtain ⟨cfg, ver⟩ := cv
      simp only [viaVersioning, Versioning.publish, Option.some.injEq] at h1
      subst h1
      refine ⟨rfl, GoMap.wf_put hwfh _ _, fun e => fit_put (hfith e) ((hv cfg ver rfl).2 e).1 ((hv cfg ver rfl).2 e).2,
        fun f hf => ?_⟩
      refine GoMap.get_put_of_ne _ _ (fun e => ?_)
      exact (hv cfg ver rfl).1 (e ▸ List.mem_map_of_mem (f := (·.key)) hf)
  obtain ⟨hpay, hwf1, hfit1, hget1⟩ := hvia
  obtain ⟨hsame, hwf2⟩ := wire_same hwf1 hfit1 h2
  obtain ⟨hs, hs1, hs2⟩ := Headers.C38_headers_survive_partial lib hlib z force c.fields hnd m.headers he.typed he.times
    he.objects h hh (Transport.headersOf bm') hwf2 (fun f hf => by rw [hsame.headers, hget1 f hf]) (order bm') (hord bm')
  have hp' : Transport.bytesOf bm'.payload = p := by rw [hsame.payload, hpay]
  refine ⟨⟨hs, m.payload⟩, ?_, rfl, hs2⟩
  simp [fromBroker, hp', hdec, hs1]

/-- A send whose middlewares are quiet publishes the encoded message once. -/
theorem send_quiet {C T : Type} (env : Send.Env C) (hq : ∀ mw ∈ env.mws, Quiet mw)
    (hacc : ∀ ctx addr bm, env.publish ctx addr bm = .ret none) (ty : Send.MsgType T) (op : Send.OpCfg)
    (uuid addr : String) (msg : T) (hid : ¬ (op.hasCorr = true ∧ ty.corr msg = "" ∧ op.isReply = true)) (bm : BrokerMessage)
    (he : ty.encode (Send.toSend ty op uuid msg) = .ok bm) :
    (Send.send env ty op uuid addr msg).res = .ret none ∧
    (Send.send env ty op uuid addr msg).pubs = [⟨addr, bm, .ret none⟩] := by
  rw [Send.send_eq env ty op uuid addr msg hid, he]
  simp only
  obtain ⟨ctx', h⟩ := executeMiddlewares_quiet (Send.pubCallback env addr) env.mws hq
    (env.ctx addr (if op.hasCorr then some (ty.corr (Send.toSend ty op uuid msg)) else none) bm) bm []
  unfold outcome at h
  simp only [Send.pubCallback, hacc, List.nil_append, Prod.mk.injEq] at h
  exact ⟨h.1, h.2.2⟩

/-- A received message that decodes, with quiet middlewares: the handler is called once, with the decoded message; the
message is acknowledged if it succeeds, otherwise the error handler is told and the message is refused. -/
theorem handle_quiet {C D : Type} (env : Listen.Env C D GoErr) (hq : ∀ mw ∈ env.mws, Quiet mw) (bm : BrokerMessage) (d : D)
    (hd : env.decode bm = .ok d) (hnp : ∀ c, env.fn c d ≠ .panicked) (heh : ∀ m e, env.eh m e = []) :
    (Listen.handle env bm).crashed = false ∧ ∃ ctx, calls (Listen.handle env bm) = [(ctx, d, env.fn ctx d)] ∧
      (Listen.handle env bm).w.ack.hooks = [if env.fn ctx d = .ret none then .ack else .nak] := by
  obtain ⟨ctx', h⟩ := executeMiddlewares_quiet (Listen.callback env) env.mws hq (env.ctx bm) bm Listen.W.start
  unfold outcome at h
  unfold Listen.handle
  generalize executeMiddlewares env.mws (env.ctx bm) bm Listen.W.start (some (Listen.callback env)) = o at h
  obtain ⟨r, s⟩ := o
  simp only [Prod.mk.injEq] at h
  obtain ⟨h1, h2, h3⟩ := h
  have hnp' := hnp (env.withCorr ctx' d)
  simp only [Listen.callback, hd] at h1 h3
  cases hf : env.fn (env.withCorr ctx' d) d with
  | panicked => exact absurd hf hnp'
  | ret e =>
    rw [hf] at h1 h3
    cases e with
    | none =>
      simp only at h1 h3
      subst h1
      refine ⟨rfl, env.withCorr ctx' d, ?_, ?_⟩
      · simp [calls, h3, hf, Listen.W.doAck, Listen.W.start]
      · rw [hf]
        simp [h3, Listen.W.doAck, Listen.W.start, Ack.step, Ack.init]
    | some e =>
      simp only at h1 h3
      subst h1
      refine ⟨rfl, env.withCorr ctx' d, ?_, ?_⟩
      · simp [calls, heh, h3, hf, Listen.W.doAck, Listen.W.start]
      · rw [hf]
        simp [heh, h3, Listen.W.doAck, Listen.W.start, Ack.step, Ack.init]

/-! ## The theorems -/

/-- The sender: its controller, and what is generated for the message. -/
structure Sender (C J T : Type) (c : MsgCfg) where
  env : Send.Env C
  ty : Send.MsgType (Msg J T c)
  op : Send.OpCfg
  addr : String

/-- Sends of one message each, with the identifier the library would draw. -/
abbrev Job (J T : Type) (c : MsgCfg) := String × Msg J T c

/-- What the content of a message sent is expected to be. -/
def Sender.content {C J T : Type} {c : MsgCfg} (s : Sender C J T c) (j : Job J T c) : Msg J T c :=
  Send.toSend s.ty s.op j.1 j.2

/-- The sends a theorem speaks of: accepted by the broker, with a content the wire can express, and not replies
without correlation ID. -/
structure Sends {C J T : Type} {c : MsgCfg} (via : Via) (lib : Lib J T) (force : Bool) (s : Sender C J T c) (js : List (Job J T c)) :
    Prop where
  quiet : ∀ mw ∈ s.env.mws, Quiet mw
  accepted : ∀ ctx addr bm, s.env.publish ctx addr bm = .ret none
  generated : s.ty.encode = toBroker lib c
  identified : ∀ j ∈ js, ¬ (s.op.hasCorr = true ∧ s.ty.corr j.2 = "" ∧ s.op.isReply = true)
  expressible : ∀ j ∈ js, Expressible via lib force (s.content j)

/-- The messages published by a list of sends, in order. -/
def published {C J T : Type} {c : MsgCfg} (s : Sender C J T c) (js : List (Job J T c)) : List BrokerMessage :=
  js.flatMap (fun j => (Send.send s.env s.ty s.op j.1 s.addr j.2).pubs.map (·.msg))

/-- The receivers a theorem speaks of. -/
structure Receives {C J T : Type} {c : MsgCfg} (lib : Lib J T) (z : Headers.Zero J T) (force : Bool)
    (env : Listen.Env C (Msg J T c) GoErr) : Prop where
  quiet : ∀ mw ∈ env.mws, Quiet mw
  noPanic : ∀ ctx d, env.fn ctx d ≠ .panicked
  noAck : ∀ m e, env.eh m e = []
  generated : ∃ order : BrokerMessage → List (String × Bytes),
    (∀ bm, (order bm).Perm (Transport.headersOf bm)) ∧ env.decode = fromBroker lib z force c order

theorem each_length {A B : Type} (R : A → B → Prop) : ∀ (as : List A) (bs : List B), Each R as bs → as.length = bs.length
  | [], [], _ => rfl
  | a :: as, b :: bs, h => by simp [each_length R as bs h.2]
  | [], _ :: _, h => h.elim
  | _ :: _, [], h => h.elim

/-- **C73 (partial).** For every list of messages sent one after the other, and whatever reaches the receiver of each of
them through the versioning wrapper and a broker (NATS, JetStream or Kafka, any order of headers): every send succeeds
and publishes once, the receiver's handler is called exactly once per message, in order, with the content that was sent
(with the correlation ID drawn when the sender gave none), each message is acknowledged once, according to
the outcome of the handler, and the listener is still running. Missing: a broker that
loses, repeats or reorders messages; contents that do not survive (C37, C38); middlewares that write messages or hide
errors; handlers that panic. -/
theorem C73_delivered_partial {C C' J T : Type} {c : MsgCfg} (lib : Lib J T) (hlib : lib.Lawful) (z : Headers.Zero J T)
    (force : Bool) (hnd : (c.fields.map (·.key)).Nodup) (s : Sender C J T c) (js : List (Job J T c))
    (via : Via) (hs : Sends via lib force s js) (env : Listen.Env C' (Msg J T c) GoErr) (hr : Receives lib z force env)
    (v : Option (Versioning.Cfg × Bytes)) (hv : NoClash via v c) (received : List BrokerMessage)
    (hdel : Each (Delivered via v) (published s js) received) :
    (∀ j ∈ js, (Send.send s.env s.ty s.op j.1 s.addr j.2).res = .ret none ∧
      (Send.send s.env s.ty s.op j.1 s.addr j.2).pubs.length = 1) ∧
    (Listen.loop env (received.map (·, true))).1 = .waiting ∧
    Each (fun o j => HandledAs env.fn o (s.content j)) (Listen.loop env (received.map (·, true))).2 js := by
  obtain ⟨order, hord, hdec⟩ := hr.generated
  have hsend : ∀ j ∈ js, ∃ bm, toBroker lib c (s.content j) = .ok bm ∧
      (Send.send s.env s.ty s.op j.1 s.addr j.2).res = .ret none ∧
      (Send.send s.env s.ty s.op j.1 s.addr j.2).pubs = [⟨s.addr, bm, .ret none⟩] := by
    intro j hj
    obtain ⟨h, p, _, _, _, ht⟩ := encode_ok lib force _ (hs.expressible j hj)
    refine ⟨_, ht, send_quiet s.env hs.quiet hs.accepted s.ty s.op j.1 s.addr j.2 (hs.identified j hj) _ ?_⟩
    rw [hs.generated]
    exact ht
  -- every received message decodes to what was sent
  have hrec : ∀ (js : List (Job J T c)) (received : List BrokerMessage),
      (∀ j ∈ js, Expressible via lib force (s.content j)) →
      (∀ j ∈ js, ∃ bm, toBroker lib c (s.content j) = .ok bm ∧
        (Send.send s.env s.ty s.op j.1 s.addr j.2).res = .ret none ∧
        (Send.send s.env s.ty s.op j.1 s.addr j.2).pubs = [⟨s.addr, bm, .ret none⟩]) →
      Each (Delivered via v) (published s js) received →
      Each (fun bm j => ∃ d, env.decode bm = .ok d ∧ Agrees d (s.content j)) received js := by
    intro js
    induction js with
    | nil =>
      intro received _ _ h
      cases received with
      | nil => trivial
      | cons _ _ => exact h.elim
    | cons j js ih =>
      intro received hex hse h
      obtain ⟨bm, h1, _, h3⟩ := hse j List.mem_cons_self
      simp only [published, List.flatMap_cons, h3, List.map_cons, List.map_nil, List.cons_append, List.nil_append] at h
      cases received with
      | nil => exact h.elim
      | cons bm' received =>
        refine ⟨?_, ih received (fun j hj => hex j (List.mem_cons_of_mem _ hj)) (fun j hj => hse j (List.mem_cons_of_mem _ hj)) h.2⟩
        rw [hdec]
        exact decode_delivered lib hlib z force c hnd (s.content j) via (hex j List.mem_cons_self) order hord v hv bm bm' h1 h.1
  have hall := hrec js received hs.expressible hsend hdel
  -- the loop
  have hloop : ∀ (received : List BrokerMessage) (js : List (Job J T c)),
      Each (fun bm j => ∃ d, env.decode bm = .ok d ∧ Agrees d (s.content j)) received js →
      (∀ m ∈ received, (Listen.handle env m).crashed = false) ∧
      Each (fun o j => HandledAs env.fn o (s.content j)) (received.map (Listen.handle env)) js := by
    intro received
    induction received with
    | nil =>
      intro js h
      cases js with
      | nil => exact ⟨by simp, trivial⟩
      | cons _ _ => exact h.elim
    | cons bm received ih =>
      intro js h
      cases js with
      | nil => exact h.elim
      | cons j js =>
        obtain ⟨⟨d, hd, hag⟩, h'⟩ := h
        obtain ⟨h2, ctx, h1, h1'⟩ := handle_quiet env hr.quiet bm d hd (fun ctx => hr.noPanic ctx d) hr.noAck
        obtain ⟨h3, h4⟩ := ih js h'
        refine ⟨?_, ?_⟩
        · intro m hm
          rcases List.mem_cons.1 hm with rfl | hm
          · exact h2
          · exact h3 m hm
        · exact ⟨⟨ctx, d, h1, hag, h1'⟩, h4⟩
  obtain ⟨hc, he⟩ := hloop received js hall
  rw [Listen.C13_keeps_listening env received hc]
  refine ⟨fun j hj => ?_, rfl, he⟩
  obtain ⟨bm, _, h2, h3⟩ := hsend j hj
  exact ⟨h2, by rw [h3]; rfl⟩

/-! ## A concrete case -/

/-- JSON values are their bytes; times have whole seconds. -/
def exLib : Lib Bytes Bytes := ⟨some, some, id, some, id⟩

def exCfg : MsgCfg := ⟨[⟨"id", .string, true⟩, ⟨"since", .dateTime, false⟩], ⟨.json, true⟩⟩

def exMsg (id body : Bytes) : Msg Bytes Bytes exCfg :=
  ⟨fun k => if k = "id" then .plain (.str id) else .ptr none, body⟩

def exSender : Sender Unit Bytes Bytes exCfg where
  env := ⟨[logging, fun c => .next c (fun e => .ret e)], fun _ _ _ => (), fun _ _ _ => .ret none, fun _ _ _ => ()⟩
  ty := ⟨exMsg [] [], fun _ => "", fun m _ => m, toBroker exLib exCfg, fun _ => (exMsg [] [], none)⟩
  op := ⟨false, false⟩
  addr := "orders"

def exReceiver : Listen.Env Unit (Msg Bytes Bytes exCfg) GoErr where
  decode := fromBroker exLib ⟨[], []⟩ false exCfg Transport.headersOf
  withCorr := fun c _ => c
  fn := fun _ m => if (show Bytes from m.payload) = [7] then .ret (some (.other "no")) else .ret none
  eh := fun _ _ => []
  mws := [logging]
  ctx := fun _ => ()

def exJobs : List (Job Bytes Bytes exCfg) := [("u1", exMsg [1] [7]), ("u2", exMsg [2] [8])]

theorem quiet_logging {C M E : Type} : Quiet (logging : Mw C M E) := by
  intro ctx
  simp [logging, PassesOn, Silent]

theorem oneLine_byte (b : UInt8) (h : ¬ Transport.Blank b) : Transport.OneLine [b] := by
  refine ⟨⟨fun x hx => ?_, fun x hx => ?_⟩, fun x hx e => ?_⟩
  · cases hx; exact h
  · cases hx; exact h
  · rw [List.mem_singleton] at hx
    subst hx
    rcases e with e | e <;> exact h (by unfold Transport.Blank; rw [e]; decide)

/-- The headers of a message with an identifier of one character. -/
theorem exLine (b : UInt8) (h : ¬ Transport.Blank b) (body : Bytes) : ∀ f ∈ exCfg.fields, ∀ x,
    ((exMsg [b] body).headers f.key).val = some x →
      Transport.Token f.key ∧ ∀ v, Headers.encodeVal exLib x = some v → Transport.OneLine v := by
  intro f hf x hx
  simp only [exCfg, List.mem_cons, List.not_mem_nil, or_false] at hf
  rcases hf with rfl | rfl
  · cases hx
    refine ⟨(Transport.validName_iff _).1 (by decide), fun v hv => ?_⟩
    cases hv
    exact oneLine_byte b h
  · cases hx

theorem exSends : Sends .nats exLib false exSender exJobs := by
  constructor
  · intro mw hmw
    simp only [exSender, List.mem_cons, List.not_mem_nil, or_false] at hmw
    rcases hmw with rfl | rfl
    · exact quiet_logging
    · intro ctx; simp [PassesOn, Silent]
  · intro _ _ _; rfl
  · rfl
  · intro j _ h; cases h.1
  · intro j hj
    simp only [exJobs, List.mem_cons, List.not_mem_nil, or_false] at hj
    rcases hj with rfl | rfl <;>
    · constructor
      · exact ⟨_, rfl, rfl⟩
      · intro f hf
        simp only [exCfg, List.mem_cons, List.not_mem_nil, or_false] at hf
        rcases hf with rfl | rfl
        · exact Or.inl ⟨_, rfl, rfl, rfl⟩
        · exact Or.inr ⟨none, rfl, rfl, by simp⟩
      · intro f _ t _; rfl
      · intro f hf hk
        simp only [exCfg, List.mem_cons, List.not_mem_nil, or_false] at hf
        rcases hf with rfl | rfl <;> cases hk
      · simp [Headers.encode, Headers.encodeFields, Headers.encodeField, Sender.content, Send.toSend, exSender, exCfg, exMsg,
          Headers.Slot.val, Headers.encodeVal]
      · intro _
        exact exLine _ (by unfold Transport.Blank; decide) _

example : Receives exLib ⟨[], []⟩ false exReceiver := by
  constructor
  · intro mw hmw
    simp only [exReceiver, List.mem_cons, List.not_mem_nil, or_false] at hmw
    rw [hmw]; exact quiet_logging
  · intro _ d
    simp only [exReceiver]
    split <;> simp
  · intro _ _; rfl
  · exact ⟨_, fun _ => List.Perm.refl _, rfl⟩

example : NoClash .nats (some (⟨"application-version", none⟩, [49])) exCfg := by
  intro cfg ver h
  cases h
  exact ⟨by decide, fun _ => ⟨(Transport.validName_iff _).1 (by decide), oneLine_byte _ (by unfold Transport.Blank; decide)⟩⟩

theorem exLib_lawful : exLib.Lawful := ⟨fun _ _ h => by cases h; rfl, fun _ => rfl⟩

theorem toBroker_ex (id body : Bytes) : toBroker exLib exCfg (exMsg id body) = .ok (Transport.withHeader "id" id body) := rfl

/-- **C73 is violated over NATS** by every identifier with a line break or blanks around it: the message is published and
delivered, and the receiver reads another identifier. -/
theorem C73_violated_nats (id body : Bytes) (hid : ¬ Transport.OneLine id) (bm : BrokerMessage)
    (hb : toBroker exLib exCfg (exMsg id body) = .ok bm) :
    (∃ bm', Delivered .nats none bm bm') ∧
    ∀ bm', Delivered .nats none bm bm' → ∀ order : BrokerMessage → List (String × Bytes),
      (order bm').Perm (Transport.headersOf bm') →
      ∃ d, fromBroker exLib ⟨[], []⟩ false exCfg order bm' = .ok d ∧ d.payload = (exMsg id body).payload ∧
        ¬ Agrees d (exMsg id body) := by
  rw [toBroker_ex] at hb
  cases hb
  have hwf := Transport.withHeader_wf "id" id body
  have htok : Transport.Token "id" := (Transport.validName_iff _).1 (by decide)
  constructor
  · obtain ⟨m', e, _⟩ := Transport.C115_what_arrives (Transport.withHeader "id" id body) hwf [("id", id)] (List.Perm.refl _)
      [("id", [id])] (List.Perm.refl _)
    exact ⟨_, _, rfl, Wire.nats (Transport.withHeader "id" id body) [("id", id)] (List.Perm.refl _) [("id", [id])]
      (List.Perm.refl _) m' e _ (List.Perm.refl _)⟩
  · rintro bm' ⟨m, hm, hw⟩ order hord
    cases hm
    cases hw with
    | nats _ o1 h1 ow hw m' hm' o2 h2 =>
      obtain ⟨m'', e, hall⟩ := Transport.C115_what_arrives _ hwf o1 h1 ow hw
      rw [hm'] at e
      cases e
      obtain ⟨hp, hget⟩ := hall o2 h2
      obtain ⟨w, hgw, hc⟩ := (hget "id").1 id htok (by show GoMap.get [("id", id)] "id" = some id; simp)
      have hne : w ≠ id := fun e => hid (Transport.oneLine_of_cleaned _ (e ▸ hc))
      have hsince := (hget "since").2 (.inr (by show GoMap.get [("id", id)] "since" = none; simp [GoMap.get_cons]))
      have key : ∃ h', Headers.decode exLib ⟨[], []⟩ false exCfg.fields (order (Transport.natsDecode o2 m')) = some h' ∧
          ∀ f ∈ exCfg.fields, h' f.key = (exMsg w body).headers f.key := by
        refine Headers.C38_headers_survive_partial exLib exLib_lawful ⟨[], []⟩ false exCfg.fields (by decide)
          (exMsg w body).headers ?_ ?_ ?_ [("id", w)] rfl (Transport.headersOf (Transport.natsDecode o2 m'))
          (wf_foldl_putFirst o2 [] GoMap.wf_nil) ?_ (order (Transport.natsDecode o2 m')) hord
        · intro f hf
          simp only [exCfg, List.mem_cons, List.not_mem_nil, or_false] at hf
          rcases hf with rfl | rfl
          · exact Or.inl ⟨_, rfl, rfl, rfl⟩
          · exact Or.inr ⟨none, rfl, rfl, by simp⟩
        · intro f _ t _; rfl
        · intro f hf hk
          simp only [exCfg, List.mem_cons, List.not_mem_nil, or_false] at hf
          rcases hf with rfl | rfl <;> cases hk
        · intro f hf
          simp only [exCfg, List.mem_cons, List.not_mem_nil, or_false] at hf
          rcases hf with rfl | rfl
          · simp only [hgw]; simp
          · simp only [hsince]; simp [GoMap.get_cons]
      obtain ⟨hs, hs1, hs2⟩ := key
      refine ⟨⟨hs, body⟩, ?_, rfl, ?_⟩
      · unfold fromBroker
        rw [hp, hs1]
        rfl
      · rintro ⟨_, hag⟩
        have h1 := hs2 ⟨"id", .string, true⟩ List.mem_cons_self
        have h2 := hag ⟨"id", .string, true⟩ List.mem_cons_self
        simp only at h1 h2
        rw [h1] at h2
        simp only [exMsg, if_true, Headers.Slot.plain.injEq, Headers.Val.str.injEq] at h2
        exact hne h2

example : ¬ Transport.OneLine [97, 32] := fun h => h.1.2 32 rfl (Or.inl rfl)

end Verif.EndToEnd
