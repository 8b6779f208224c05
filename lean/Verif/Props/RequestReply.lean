import Verif.Model.RequestReply
import Verif.Props.EndToEnd
import Verif.Props.Request

/-! # C75: every requester gets the reply to its own request -/

namespace Verif.RequestReply

open Verif.EndToEnd
open Verif.Middleware
open Verif.Payload (Lib)
open Verif.Send (GoErr)

variable {C C1 C2 J T : Type} {q r : MsgCfg}

/-! ## The specification -/

/-- The request a call sends: the message of the caller, with the identifier drawn if it had none. -/
def Client.content (cl : Client C J T q r) (c : Call J T q) : Msg J T q :=
  if cl.ty.corr c.msg = "" then cl.ty.setCorr c.msg c.uuid else c.msg

/-- The correlation ID of a call. -/
def Client.id (cl : Client C J T q r) (c : Call J T q) : String := cl.ty.corr (cl.content c)

/-- The messages a call published, in order. -/
def sentBy (evs : List Send.ReqEv) : List Send.Pub :=
  evs.filterMap (fun
    | .publish p => some p
    | _ => none)

/-- What the server makes of a request: its function applied to a new reply carrying the request's ID. -/
def Server.reply (s : Server C C1 J T q r) (m : Msg J T q) : Msg J T r := s.body m (s.ty.setCorr s.ty.new (s.corr m))

/-- What the server published while receiving messages. -/
def Server.replies (s : Server C C1 J T q r) (received : List BrokerMessage) : List Send.Pub :=
  (Listen.loop s.listen (received.map (·, true))).2.flatMap
    (fun o => (calls o).flatMap (fun call => (s.handler call.2.1).pubs))

/-- A function of the content of a message. -/
def ByContent {A : Type} {c : MsgCfg} (f : Msg J T c → A) : Prop := ∀ a b, Agrees a b → f a = f b

/-- The clients a theorem speaks of: quiet middlewares, a broker that accepts, generated conversions, requests with a
correlation ID, contents the wire can express. -/
structure Client.Fine (via : Via) (lib : Lib J T) (z : Headers.Zero J T) (force : Bool) (cl : Client C J T q r)
    (cs : List (Call J T q)) : Prop where
  quiet : ∀ mw ∈ cl.env.mws, Quiet mw
  accepted : ∀ ctx addr bm, cl.env.publish ctx addr bm = .ret none
  encode : cl.ty.encode = toBroker lib q
  decode : ∃ order : BrokerMessage → List (String × Bytes), (∀ bm, (order bm).Perm (Transport.headersOf bm)) ∧
    ∀ bm d, fromBroker lib z force r order bm = .ok d → cl.rty.decode bm = (d, none)
  lawful : cl.ty.Lawful
  correlated : cl.op = ⟨true, false⟩
  byContent : ByContent cl.rty.corr
  uuids : ∀ c ∈ cs, c.uuid ≠ ""
  expressible : ∀ c ∈ cs, Expressible via lib force (cl.content c)
  addressed : ∀ c ∈ cs, ∃ a, cl.addr.resolve c.msg = .ok a

/-- The servers a theorem speaks of, for the requests of these clients: quiet middlewares, a broker that accepts,
generated conversions, the same accessors as the client, a function that leaves the correlation ID in place and makes
replies the wire can express, an address inside the request that drawing an identifier does not change. -/
structure Server.Fine (via : Via) (lib : Lib J T) (z : Headers.Zero J T) (force : Bool) (cl : Client C2 J T q r)
    (cs : List (Call J T q)) (s : Server C C1 J T q r) : Prop where
  quiet : ∀ mw ∈ s.mws, Quiet mw
  noAck : ∀ m e, s.eh m e = []
  decode : ∃ order : BrokerMessage → List (String × Bytes), (∀ bm, (order bm).Perm (Transport.headersOf bm)) ∧
    s.decode = fromBroker lib z force q order
  quietSend : ∀ mw ∈ s.env.mws, Quiet mw
  accepted : ∀ ctx addr bm, s.env.publish ctx addr bm = .ret none
  encode : s.ty.encode = toBroker lib r
  lawful : s.ty.Lawful
  correlated : s.op.hasCorr = true
  sameCorr : s.corr = cl.ty.corr
  sameReplyCorr : s.ty.corr = cl.rty.corr
  byContent : ByContent s.corr
  keeps : ∀ m x, s.ty.corr (s.body m x) = s.ty.corr x
  sameAddr : ∀ c ∈ cs, ∀ m, Agrees m (cl.content c) → s.addr.resolve m = cl.addr.resolve c.msg
  expressible : ∀ c ∈ cs, ∀ m, Agrees m (cl.content c) → Expressible via lib force (s.reply m)

/-- What the server may receive: copies of what the clients sent, as the broker delivers them, in any order and any
number, none included. -/
def FromClients (via : Via) (v : Option (Versioning.Cfg × Bytes)) (cl : Client C J T q r) (cs : List (Call J T q))
    (received : List BrokerMessage) : Prop :=
  ∀ bm' ∈ received, ∃ c ∈ cs, ∃ p ∈ sentBy (cl.run c).2, Delivered via v p.msg bm'

/-- What a client may receive on the reply channel: copies of what the server replied to anyone, in any order and any
number, and messages of others that do not carry its correlation ID. -/
def FromServer (via : Via) (v : Option (Versioning.Cfg × Bytes)) (cl : Client C2 J T q r) (s : Server C C1 J T q r)
    (received : List BrokerMessage) (c : Call J T q) : Prop :=
  ∀ bm isOpen, Send.Sel.recv bm isOpen ∈ c.sels →
    (isOpen = false ∧ bm = .zero) ∨ (∃ p ∈ s.replies received, Delivered via v p.msg bm) ∨
    cl.rty.corr (cl.rty.decode bm).1 ≠ cl.id c

/-! ## Middlewares around nothing -/

theorem specChain_quiet_none {M E : Type} :
    ∀ (mws : List (Mw C M E)), (∀ mw ∈ mws, Quiet mw) → ∀ (ctx : C) (s : M × Unit),
      specChain (none : Option (Callback C M Unit E)) mws ctx s = (.ret none, s) := by
  intro mws
  induction mws with
  | nil => intro _ ctx s; rfl
  | cons mw rest ih =>
    intro hq ctx s
    have ih' := ih (fun m hm => hq m (List.mem_cons_of_mem _ hm))
    obtain ⟨hp, hs⟩ := hq mw List.mem_cons_self ctx
    rcases specProg_quiet (rest := specChain (none : Option (Callback C M Unit E)) rest) (mw ctx) s hp hs with h | ⟨c, h⟩
    · simp only [specChain, h]; exact ih' ctx s
    · simp only [specChain, h, ih']

theorem executeMiddlewares_quiet_none {M E : Type} (mws : List (Mw C M E)) (hq : ∀ mw ∈ mws, Quiet mw) (ctx : C) (m : M) :
    (executeMiddlewares mws ctx m () none).1 = .ret none ∧ (executeMiddlewares mws ctx m () none).2.msg = m := by
  have h := outcome_spec (X := Unit) mws ctx m () none
  rw [specChain_quiet_none mws hq] at h
  unfold outcome at h
  simp only [Prod.mk.injEq] at h
  exact ⟨h.1, h.2.1⟩

/-! ## The client -/

theorem content_eq (cl : Client C J T q r) (hc : cl.op = ⟨true, false⟩) (c : Call J T q) :
    Send.toSend cl.ty cl.op c.uuid c.msg = cl.content c := by
  simp [Send.toSend, Client.content, hc]

theorem sentBy_append (a b : List Send.ReqEv) : sentBy (a ++ b) = sentBy a ++ sentBy b := by
  simp [sentBy]

theorem sentBy_publish (ps : List Send.Pub) : sentBy (ps.map .publish) = ps := by
  induction ps with
  | nil => rfl
  | cons p ps ih => simp only [List.map_cons, sentBy, List.filterMap_cons]; rw [← sentBy, ih]

theorem sentBy_waitLoop {R : Type} (env : Send.Env C) (ty : Send.MsgType R) (addr : String) (want : Option String) :
    ∀ sels, sentBy (Send.waitLoop env ty addr want sels).2 = [] := by
  intro sels
  induction sels with
  | nil => rfl
  | cons s rest ih =>
    have hs : ∀ o : Send.WaitOut C R, sentBy (Send.stepEvs s o) = [] := by
      intro o
      cases s with
      | ctxDone => rfl
      | recv m b => simp only [Send.stepEvs]; split <;> rfl
    simp only [Send.waitLoop]
    split
    · exact hs _
    · split
      · exact hs _
      · rw [sentBy_append, hs, ih]; rfl

/-- What a call sends, and how it ends. -/
theorem run_eq {lib : Lib J T} {z : Headers.Zero J T} {force : Bool} {cl : Client C J T q r} {cs : List (Call J T q)}
    (hf : cl.Fine via lib z force cs) (c : Call J T q) (hc : c ∈ cs) (addr : String) (ha : cl.addr.resolve c.msg = .ok addr) :
    (∃ bm, toBroker lib q (cl.content c) = .ok bm ∧ sentBy (cl.run c).2 = [⟨cl.reqAddr, bm, .ret none⟩]) ∧
    (∃ post, (cl.run c).2 = .subscribe addr true :: (sentBy (cl.run c).2).map .publish ++ post ∧ sentBy post = []) ∧
    (cl.run c).1 = (Send.waitLoop cl.env cl.rty addr (some (cl.id c)) c.sels).1 := by
  obtain ⟨h, p, _, _, _, ht⟩ := encode_ok lib force _ (hf.expressible c hc)
  have hcor : cl.op.hasCorr = true := by rw [hf.correlated]
  have hne := (Send.C19_correlation_id cl.ty hf.lawful cl.op hcor c.uuid (hf.uuids c hc) c.msg).1
  have hid := (Send.C19_correlation_id cl.ty hf.lawful cl.op hcor c.uuid (hf.uuids c hc)
    (Send.toSend cl.ty cl.op c.uuid c.msg)).2.1 hne
  obtain ⟨hs1, hs2⟩ := send_quiet cl.env hf.quiet hf.accepted cl.ty cl.op c.uuid cl.reqAddr
    (Send.toSend cl.ty cl.op c.uuid c.msg) (by rw [hf.correlated]; simp) ⟨some h, some p⟩ (by
      rw [hid, content_eq cl hf.correlated, hf.encode]; exact ht)
  have hrun := Send.request_sent cl.env cl.ty cl.rty cl.op cl.addr c.uuid cl.reqAddr addr c.msg c.sels ha hs1
  rw [hs2] at hrun
  have hwant : (if cl.op.hasCorr = true then some (cl.ty.corr (Send.toSend cl.ty cl.op c.uuid c.msg)) else none)
      = some (cl.id c) := by
    rw [if_pos hcor, content_eq cl hf.correlated]; rfl
  rw [hwant] at hrun
  have hw := sentBy_waitLoop cl.env cl.rty addr (some (cl.id c)) c.sels
  unfold Client.run
  rw [hrun]
  generalize Send.waitLoop cl.env cl.rty addr (some (cl.id c)) c.sels = o at hw
  obtain ⟨res, evs⟩ := o
  have key : ∀ tail : List Send.ReqEv, sentBy tail = [] →
      sentBy (Send.ReqEv.subscribe addr true :: [(⟨cl.reqAddr, ⟨some h, some p⟩, .ret none⟩ : Send.Pub)].map .publish ++ evs ++ tail)
        = [⟨cl.reqAddr, ⟨some h, some p⟩, .ret none⟩] := by
    intro tail ht'
    rw [sentBy_append, sentBy_append, ht', hw]
    rfl
  cases res with
  | pending =>
    have := key [] rfl
    rw [List.append_nil] at this
    exact ⟨⟨_, ht, this⟩, ⟨evs, by rw [this], hw⟩, rfl⟩
  | returned d =>
    have := key [.cancel] rfl
    exact ⟨⟨_, ht, this⟩, ⟨evs ++ [.cancel], by rw [this]; simp, by rw [sentBy_append, hw]; rfl⟩, rfl⟩
  | failed d =>
    have := key [.cancel] rfl
    exact ⟨⟨_, ht, this⟩, ⟨evs ++ [.cancel], by rw [this]; simp, by rw [sentBy_append, hw]; rfl⟩, rfl⟩
  | panicked =>
    have := key [.cancel] rfl
    exact ⟨⟨_, ht, this⟩, ⟨evs ++ [.cancel], by rw [this]; simp, by rw [sentBy_append, hw]; rfl⟩, rfl⟩

/-! ## The server -/

theorem reply_corr {lib : Lib J T} {z : Headers.Zero J T} {force : Bool} {cl : Client C2 J T q r} {cs : List (Call J T q)}
    {s : Server C C1 J T q r} (hf : s.Fine via lib z force cl cs) (m : Msg J T q) : s.ty.corr (s.reply m) = s.corr m := by
  unfold Server.reply
  rw [hf.keeps]
  exact hf.lawful _ _

theorem handler_eq {lib : Lib J T} {z : Headers.Zero J T} {force : Bool} {cl : Client C2 J T q r} {cs : List (Call J T q)}
    {s : Server C C1 J T q r} (hf : s.Fine via lib z force cl cs) (m : Msg J T q) (c : Call J T q) (hc : c ∈ cs)
    (hm : Agrees m (cl.content c)) (hne : s.corr m ≠ "") (addr : String) (ha : cl.addr.resolve c.msg = .ok addr) :
    ∃ bm, toBroker lib r (s.reply m) = .ok bm ∧ (s.handler m).res = .ret none ∧
      (s.handler m).pubs = [⟨addr, bm, .ret none⟩] := by
  obtain ⟨h, p, _, _, _, ht⟩ := encode_ok lib force _ (hf.expressible c hc m hm)
  have hne' : s.ty.corr (s.reply m) ≠ "" := by rw [reply_corr hf]; exact hne
  have := send_quiet s.env hf.quietSend hf.accepted s.ty { s.op with isReply := true } "" addr (s.reply m)
    (fun h => hne' h.2.1) ⟨some h, some p⟩ (by
      unfold Send.toSend
      rw [if_neg (fun h => hne' h.2), hf.encode]; exact ht)
  refine ⟨_, ht, ?_⟩
  unfold Server.handler Send.replyTo
  rw [hf.sameAddr c hc m hm, ha]
  exact this

/-- What a received request becomes. -/
theorem received_request {via : Via} {lib : Lib J T} (hlib : lib.Lawful) {z : Headers.Zero J T} {force : Bool}
    (hnd : (q.fields.map (·.key)).Nodup) {cl : Client C2 J T q r} {cs : List (Call J T q)} (hcl : cl.Fine via lib z force cs)
    {s : Server C C1 J T q r} (hs : s.Fine via lib z force cl cs) (v : Option (Versioning.Cfg × Bytes)) (hv : NoClash via v q)
    (c : Call J T q) (hc : c ∈ cs) (p : Send.Pub) (hp : p ∈ sentBy (cl.run c).2) (bm : BrokerMessage)
    (hdel : Delivered via v p.msg bm) :
    ∃ m addr reply, Agrees m (cl.content c) ∧ s.corr m = cl.id c ∧ cl.addr.resolve c.msg = .ok addr ∧
      toBroker lib r (s.reply m) = .ok reply ∧
      (s.handler m).pubs = [⟨addr, reply, .ret none⟩] ∧ (Listen.handle s.listen bm).crashed = false ∧
      ((calls (Listen.handle s.listen bm)).flatMap (fun call => (s.handler call.2.1).pubs)) = [⟨addr, reply, .ret none⟩] ∧
      (Listen.handle s.listen bm).w.ack.hooks = [.ack] := by
  obtain ⟨addr, ha⟩ := hcl.addressed c hc
  obtain ⟨⟨b, hb, hsent⟩, _, _⟩ := run_eq hcl c hc addr ha
  rw [hsent, List.mem_singleton] at hp
  subst hp
  obtain ⟨order, hord, hdec⟩ := hs.decode
  obtain ⟨m, hm, hag⟩ := decode_delivered lib hlib z force q hnd (cl.content c) via (hcl.expressible c hc) order hord v hv b bm hb hdel
  have hcorr : s.corr m = cl.id c := by
    rw [hs.byContent m _ hag, hs.sameCorr]; rfl
  have hne : s.corr m ≠ "" := by
    rw [hcorr]
    have := (Send.C19_correlation_id cl.ty hcl.lawful cl.op (by rw [hcl.correlated]) c.uuid (hcl.uuids c hc) c.msg).1
    rwa [content_eq cl hcl.correlated] at this
  obtain ⟨reply, hr1, hr2, hr3⟩ := handler_eq hs m c hc hag hne addr ha
  obtain ⟨h1, ctx, h2, h3⟩ := handle_quiet s.listen hs.quiet bm m (by rw [show s.listen.decode = s.decode from rfl, hdec]; exact hm)
    (fun c' => by rw [show s.listen.fn c' m = (s.handler m).res from rfl, hr2]; simp) hs.noAck
  refine ⟨m, addr, reply, hag, hcorr, ha, hr1, hr3, h1, ?_, ?_⟩
  · rw [h2]; simp [hr3]
  · rw [h3]
    have : s.listen.fn ctx m = .ret none := hr2
    rw [this]; rfl

/-- What the server replies to the requests it receives, one after the other. -/
theorem replies_eq {via : Via} {lib : Lib J T} (hlib : lib.Lawful) {z : Headers.Zero J T} {force : Bool}
    (hnd : (q.fields.map (·.key)).Nodup) {cl : Client C2 J T q r} {cs : List (Call J T q)} (hcl : cl.Fine via lib z force cs)
    {s : Server C C1 J T q r} (hs : s.Fine via lib z force cl cs) (v : Option (Versioning.Cfg × Bytes)) (hv : NoClash via v q)
    (received : List BrokerMessage) (hrec : FromClients via v cl cs received) :
    (Listen.loop s.listen (received.map (·, true))).1 = .waiting ∧
    s.replies received = received.flatMap
      (fun bm => (calls (Listen.handle s.listen bm)).flatMap (fun call => (s.handler call.2.1).pubs)) := by
  have hc : ∀ m ∈ received, (Listen.handle s.listen m).crashed = false := by
    intro bm hbm
    obtain ⟨c, hc, p, hp, hdel⟩ := hrec bm hbm
    obtain ⟨_, _, _, _, _, _, _, _, h, _⟩ := received_request hlib hnd hcl hs v hv c hc p hp bm hdel
    exact h
  unfold Server.replies
  rw [Listen.C13_keeps_listening s.listen received hc]
  refine ⟨rfl, ?_⟩
  simp [List.flatMap_map]

/-! ## The theorems -/

/-- **C75 (partial).** For every set of calls with different correlation IDs, made by clients sharing a reply channel, and
whatever the brokers lose, repeat or reorder between the clients and the server: a request that returns a message returns
the content the server made from the content of that very request. Missing: contents that do not survive (C37, C38);
middlewares that write messages or hide errors; handlers that panic, or change the correlation ID; requests without
correlation ID, which return whatever comes first (C22). -/
theorem C75_own_reply_partial (via : Via) (lib : Lib J T) (hlib : lib.Lawful) (z : Headers.Zero J T) (force : Bool)
    (hq : (q.fields.map (·.key)).Nodup) (hr : (r.fields.map (·.key)).Nodup)
    (cl : Client C2 J T q r) (cs : List (Call J T q)) (hcl : cl.Fine via lib z force cs)
    (hdistinct : ∀ a ∈ cs, ∀ b ∈ cs, cl.id a = cl.id b → a = b)
    (s : Server C C1 J T q r) (hs : s.Fine via lib z force cl cs)
    (v : Option (Versioning.Cfg × Bytes)) (hv : NoClash via v q) (hv' : NoClash via v r)
    (received : List BrokerMessage) (hrec : FromClients via v cl cs received)
    (c : Call J T q) (hc : c ∈ cs) (hget : FromServer via v cl s received c)
    (d : Msg J T r) (hd : (cl.run c).1 = .returned d) :
    ∃ m, Agrees m (cl.content c) ∧ Agrees d (s.reply m) := by
  obtain ⟨addr, ha⟩ := hcl.addressed c hc
  obtain ⟨_, _, hres⟩ := run_eq hcl c hc addr ha
  rw [hres] at hd
  have hnp : Send.NoPanic cl.env addr (cl.id c) := by
    intro m
    rw [(executeMiddlewares_quiet_none cl.env.mws hcl.quiet _ m).1]; simp
  have hacc : ∃ sel ∈ c.sels, Send.Accepts cl.env cl.rty addr (cl.id c) sel d := by
    rcases Send.waitLoop_spec cl.env cl.rty addr (cl.id c) hnp c.sels with ⟨pre, s', post, d', he, h1, _, h3, _⟩ | ⟨_, h, _⟩
    · rw [h3] at hd
      cases hd
      exact ⟨s', by rw [he]; simp, h1⟩
    · rw [h] at hd; cases hd
  obtain ⟨sel, hsel, bm, isOpen, rfl, hno, hcorr, hm1, hm2⟩ := hacc
  rw [(executeMiddlewares_quiet_none cl.env.mws hcl.quiet _ bm).2] at hm2
  rcases hget bm isOpen hsel with h | ⟨p, hp, hdel⟩ | h
  · exact absurd h hno
  · rw [(replies_eq hlib hq hcl hs v hv received hrec).2, List.mem_flatMap] at hp
    obtain ⟨rb, hrb, hp⟩ := hp
    obtain ⟨c', hc', p', hp', hdel'⟩ := hrec rb hrb
    obtain ⟨m, addr', reply, hag, hid, _, hrep, _, _, hpubs, _⟩ :=
      received_request hlib hq hcl hs v hv c' hc' p' hp' rb hdel'
    rw [hpubs, List.mem_singleton] at hp
    subst hp
    obtain ⟨order, hord, hdec⟩ := hcl.decode
    obtain ⟨d', hd', hagd⟩ := decode_delivered lib hlib z force r hr (s.reply m) via (hs.expressible c' hc' m hag) order hord v hv'
      reply bm hrep hdel
    have hdd := hdec bm d' hd'
    rw [hdd] at hm2 hcorr
    cases hm2
    have : cl.id c' = cl.id c := by
      rw [← hid, ← reply_corr hs, hs.sameReplyCorr, ← hcl.byContent d _ hagd, hcorr]
    have := hdistinct c' hc' c hc this
    subst this
    exact ⟨m, hag, hagd⟩
  · exact absurd hcorr h

/-- **C75 (partial).** Every call subscribes to its reply address, then publishes its request once; when the server
receives a copy of it, it acknowledges it and publishes one reply, on that address; and when any copy of that
reply is among the messages the client receives, whatever the others, the call returns. -/
theorem C75_answered_partial (via : Via) (lib : Lib J T) (hlib : lib.Lawful) (z : Headers.Zero J T) (force : Bool)
    (hq : (q.fields.map (·.key)).Nodup) (hr : (r.fields.map (·.key)).Nodup)
    (cl : Client C2 J T q r) (cs : List (Call J T q)) (hcl : cl.Fine via lib z force cs)
    (s : Server C C1 J T q r) (hs : s.Fine via lib z force cl cs)
    (v : Option (Versioning.Cfg × Bytes)) (hv : NoClash via v q) (hv' : NoClash via v r) (c : Call J T q) (hc : c ∈ cs) :
    ∃ addr p post, (cl.run c).2 = .subscribe addr true :: .publish p :: post ∧ sentBy post = [] ∧ p.addr = cl.reqAddr ∧
      ∀ bm, Delivered via v p.msg bm →
        (Listen.handle s.listen bm).w.ack.hooks = [.ack] ∧
        ∃ reply, s.replies [bm] = [reply] ∧ reply.addr = addr ∧
          ∀ bm' isOpen, Delivered via v reply.msg bm' → Send.Sel.recv bm' isOpen ∈ c.sels → ∃ d, (cl.run c).1 = .returned d := by
  obtain ⟨addr, ha⟩ := hcl.addressed c hc
  obtain ⟨⟨b, hb, hsent⟩, ⟨post, hpost, hpost'⟩, hres⟩ := run_eq hcl c hc addr ha
  rw [hsent] at hpost
  refine ⟨addr, ⟨cl.reqAddr, b, .ret none⟩, post, hpost, hpost', rfl, ?_⟩
  intro bm hdel
  have hin : (⟨cl.reqAddr, b, .ret none⟩ : Send.Pub) ∈ sentBy (cl.run c).2 := by rw [hsent]; simp
  obtain ⟨m, addr', reply, hag, hid, ha', hrep, _, _, hpubs, hack⟩ :=
    received_request hlib hq hcl hs v hv c hc _ hin bm hdel
  rw [ha] at ha'
  cases ha'
  refine ⟨hack, ⟨addr, reply, .ret none⟩, ?_, rfl, ?_⟩
  · rw [(replies_eq hlib hq hcl hs v hv [bm] (by
      intro b' hb'
      rw [List.mem_singleton] at hb'
      subst hb'
      exact ⟨c, hc, _, hin, hdel⟩)).2]
    simp only [List.flatMap_cons, List.flatMap_nil, List.append_nil]
    exact hpubs
  · intro bm' isOpen hdel' hsel
    obtain ⟨order, hord, hdec⟩ := hcl.decode
    obtain ⟨d', hd', hagd⟩ := decode_delivered lib hlib z force r hr (s.reply m) via (hs.expressible c hc m hag) order hord v hv'
      reply bm' hrep hdel'
    have hnp : Send.NoPanic cl.env addr (cl.id c) := by
      intro m
      rw [(executeMiddlewares_quiet_none cl.env.mws hcl.quiet _ m).1]; simp
    have hzero : bm' ≠ .zero := by
      rintro rfl
      obtain ⟨w, _, hw⟩ := hdel'
      have : (BrokerMessage.zero).headers ≠ none := by
        generalize BrokerMessage.zero = x at hw
        cases hw <;> simp [Transport.natsDecode, Transport.kafkaDecode]
      exact this rfl
    have hacc : Send.Accepts cl.env cl.rty addr (cl.id c) (.recv bm' isOpen) d' := by
      refine ⟨bm', isOpen, rfl, fun h => hzero h.2, ?_, (executeMiddlewares_quiet_none cl.env.mws hcl.quiet _ bm').1, ?_⟩
      · rw [hdec bm' d' hd', hcl.byContent d' _ hagd, ← hs.sameReplyCorr, reply_corr hs, hid]
      · rw [(executeMiddlewares_quiet_none cl.env.mws hcl.quiet _ bm').2, hdec bm' d' hd']
    rw [hres]
    rcases Send.waitLoop_spec cl.env cl.rty addr (cl.id c) hnp c.sels with ⟨_, _, _, d, _, _, _, h3, _⟩ | ⟨h, _⟩
    · exact ⟨d, h3⟩
    · exact absurd hacc (h _ hsel d')

/-! ## A concrete case -/

/-- JSON values: a correlation ID and a number. -/
abbrev ExJ := String × UInt8

def exMarshal (j : ExJ) : Bytes := j.2 :: j.1.toByteArray.data.toList

theorem exMarshal_inj {a b : ExJ} (h : exMarshal a = exMarshal b) : a = b := by
  simp only [exMarshal, List.cons.injEq] at h
  refine Prod.ext (String.toByteArray_inj.1 ?_) h.1
  have := congrArg List.toArray h.2
  simp only [Array.toArray_toList] at this
  exact ByteArray.ext this

open Classical in
noncomputable def exLib : Lib ExJ Bytes where
  marshal := fun j => some (exMarshal j)
  unmarshal := fun b => if h : ∃ j, exMarshal j = b then some (Classical.choose h) else none
  format := id
  parse := some
  trunc := id

theorem exLib_lawful : exLib.Lawful := by
  constructor
  · intro j b h
    cases h
    have h : ∃ j', exMarshal j' = exMarshal j := ⟨j, rfl⟩
    simp only [exLib, dif_pos h, Option.some.injEq]
    exact exMarshal_inj (Classical.choose_spec h)
  · intro t; rfl

def exCfg : MsgCfg := ⟨[⟨"since", .dateTime, false⟩], ⟨.json, true⟩⟩

def exMsg (id : String) (n : UInt8) : Msg ExJ Bytes exCfg := ⟨fun _ => .ptr none, (id, n)⟩

noncomputable def exDecode (bm : BrokerMessage) : Msg ExJ Bytes exCfg × Option GoErr :=
  match fromBroker exLib ⟨[], ("", 0)⟩ false exCfg Transport.headersOf bm with
  | .ok d => (d, none)
  | .error e => (exMsg "" 0, some e)

/-- Correlation IDs are in payloads. -/
noncomputable def exTy : Send.MsgType (Msg ExJ Bytes exCfg) where
  new := exMsg "" 0
  corr := fun m => (show ExJ from m.payload).1
  setCorr := fun m id => ⟨m.headers, (id, (show ExJ from m.payload).2)⟩
  encode := toBroker exLib exCfg
  decode := exDecode

noncomputable def exClient : Client Unit ExJ Bytes exCfg exCfg where
  env := ⟨[logging], fun _ _ _ => (), fun _ _ _ => .ret none, fun _ _ _ => ()⟩
  ty := exTy
  rty := exTy
  op := ⟨true, false⟩
  addr := .fixed "pong"
  reqAddr := "ping"

/-- Two calls, one with an identifier of its own; the first gets the reply to the second before its own. -/
def exCalls : List (Call ExJ Bytes exCfg) :=
  [⟨"u1", exMsg "" 1, [.recv ⟨some [], some (exMarshal ("mine", 3))⟩ true, .recv ⟨some [], some (exMarshal ("u1", 2))⟩ true]⟩,
   ⟨"u2", exMsg "mine" 2, []⟩]

/-- A server that adds one. -/
noncomputable def exServer : Server Unit Unit ExJ Bytes exCfg exCfg where
  decode := fromBroker exLib ⟨[], ("", 0)⟩ false exCfg Transport.headersOf
  withCorr := fun c _ => c
  eh := fun _ _ => []
  mws := [logging]
  ctx := fun _ => ()
  env := ⟨[logging], fun _ _ _ => (), fun _ _ _ => .ret none, fun _ _ _ => ()⟩
  ty := exTy
  op := ⟨true, true⟩
  corr := exTy.corr
  addr := .fixed "pong"
  body := fun m x => ⟨x.headers, ((show ExJ from x.payload).1, (show ExJ from m.payload).2 + 1)⟩

theorem exExpressible (hs : Headers.Struct ExJ Bytes) (h : hs "since" = .ptr none) (p : ExJ) :
    Expressible .nats exLib false (c := exCfg) ⟨hs, p⟩ := by
  constructor
  · exact ⟨_, rfl, by
      have := exLib_lawful.json p _ rfl
      simp only [Payload.decode, exCfg, this]⟩
  · intro f hf
    simp only [exCfg, List.mem_cons, List.not_mem_nil, or_false] at hf
    rw [hf]
    exact Or.inr ⟨none, h, rfl, by simp⟩
  · intro f _ t _; rfl
  · intro f hf hk
    simp only [exCfg, List.mem_cons, List.not_mem_nil, or_false] at hf
    rw [hf] at hk; cases hk
  · simp [Headers.encode, Headers.encodeFields, Headers.encodeField, exCfg, h, Headers.Slot.val]
  · intro _ f hf x hx
    simp only [exCfg, List.mem_cons, List.not_mem_nil, or_false] at hf
    rw [hf] at hx
    simp [h, Headers.Slot.val] at hx

theorem quiet_one {C M E : Type} : ∀ mw ∈ [(logging : Mw C M E)], Quiet mw := by
  intro mw hmw
  rw [List.mem_singleton.1 hmw]; exact quiet_logging

theorem exClient_fine (cs : List (Call ExJ Bytes exCfg)) (h : ∀ c ∈ cs, c.uuid ≠ "" ∧ c.msg.headers "since" = .ptr none) :
    exClient.Fine .nats exLib ⟨[], ("", 0)⟩ false cs where
  quiet := quiet_one
  accepted := fun _ _ _ => rfl
  encode := rfl
  decode := ⟨Transport.headersOf, fun _ => List.Perm.refl _, by
    intro bm d h
    simp only [exClient, exTy, exDecode, h]⟩
  lawful := fun _ _ => rfl
  correlated := rfl
  byContent := fun a b h => by simp only [exClient, exTy, h.1]
  uuids := fun c hc => (h c hc).1
  expressible := by
    intro c hc
    unfold Client.content
    split
    · exact exExpressible _ (h c hc).2 _
    · exact exExpressible _ (h c hc).2 _
  addressed := fun _ _ => ⟨_, rfl⟩

theorem exCalls_ok : ∀ c ∈ exCalls, c.uuid ≠ "" ∧ c.msg.headers "since" = .ptr none := by
  intro c hc
  simp only [exCalls, List.mem_cons, List.not_mem_nil, or_false] at hc
  rcases hc with rfl | rfl <;> exact ⟨by decide, rfl⟩

example : exServer.Fine .nats exLib ⟨[], ("", 0)⟩ false exClient exCalls where
  quiet := quiet_one
  noAck := fun _ _ => rfl
  decode := ⟨Transport.headersOf, fun _ => List.Perm.refl _, rfl⟩
  quietSend := quiet_one
  accepted := fun _ _ _ => rfl
  encode := rfl
  lawful := fun _ _ => rfl
  correlated := rfl
  sameCorr := rfl
  sameReplyCorr := rfl
  byContent := fun a b h => by simp only [exServer, exTy, h.1]
  keeps := fun _ _ => rfl
  sameAddr := fun _ _ _ _ => rfl
  expressible := fun _ _ m _ => exExpressible _ rfl _

example : ∀ a ∈ exCalls, ∀ b ∈ exCalls, exClient.id a = exClient.id b → a = b := by
  intro a ha b hb h
  simp only [exCalls, List.mem_cons, List.not_mem_nil, or_false] at ha hb
  have h1 : exClient.id ⟨"u1", exMsg "" 1,
      [.recv ⟨some [], some (exMarshal ("mine", 3))⟩ true, .recv ⟨some [], some (exMarshal ("u1", 2))⟩ true]⟩ = "u1" := rfl
  have h2 : exClient.id ⟨"u2", exMsg "mine" 2, []⟩ = "mine" := rfl
  rcases ha with rfl | rfl <;> rcases hb with rfl | rfl
  · rfl
  · rw [h1, h2] at h; exact absurd h (by decide)
  · rw [h1, h2] at h; exact absurd h (by decide)
  · rfl

theorem exFromBroker (j : ExJ) : ∃ hs, fromBroker exLib ⟨[], ("", 0)⟩ false exCfg Transport.headersOf
    ⟨some [], some (exMarshal j)⟩ = .ok ⟨hs, j⟩ := by
  have := exLib_lawful.json j _ rfl
  simp only [fromBroker, Transport.bytesOf, Payload.decode, exCfg, this]
  exact ⟨_, rfl⟩

theorem exToBroker (j : ExJ) : toBroker exLib exCfg ⟨(fun _ => .ptr none), j⟩ = .ok ⟨some [], some (exMarshal j)⟩ := rfl

theorem exHandler (hs : Headers.Struct ExJ Bytes) (j : ExJ) (h : j.1 ≠ "") : (exServer.handler ⟨hs, j⟩).pubs
    = [⟨"pong", ⟨some [], some (exMarshal (j.1, j.2 + 1))⟩, .ret none⟩] ∧
    (exServer.handler ⟨hs, j⟩).res = .ret none := by
  obtain ⟨a, n⟩ := j
  have h' : (a == "") = false := by simpa using h
  simp [Server.handler, Send.replyTo, exServer, Send.ReplyAddr.resolve, Send.send, exTy, h', exToBroker, exMsg,
    executeMiddlewares, callLevel, runProg, logging, St.log, St.setCalled, St.start, Send.pubCallback]

/-- The server receives the second request, then the first one twice. -/
def exReceived : List BrokerMessage :=
  [⟨some [], some (exMarshal ("mine", 2))⟩, ⟨some [], some (exMarshal ("u1", 1))⟩, ⟨some [], some (exMarshal ("u1", 1))⟩]

theorem exWire (p : Bytes) : Delivered .nats none ⟨some [], some p⟩ ⟨some [], some p⟩ :=
  ⟨_, rfl, Wire.nats ⟨some [], some p⟩ [] (List.Perm.refl _) [] (List.Perm.refl _) _ rfl [] (List.Perm.refl _)⟩

theorem exHandle (j : ExJ) (h : j.1 ≠ "") :
    (Listen.handle exServer.listen ⟨some [], some (exMarshal j)⟩).crashed = false ∧
    (calls (Listen.handle exServer.listen ⟨some [], some (exMarshal j)⟩)).flatMap (fun call => (exServer.handler call.2.1).pubs)
      = [⟨"pong", ⟨some [], some (exMarshal (j.1, j.2 + 1))⟩, .ret none⟩] := by
  obtain ⟨hs, hd⟩ := exFromBroker j
  obtain ⟨h1, ctx, h2, _⟩ := handle_quiet exServer.listen quiet_one _ _ hd
    (fun _ => by show (exServer.handler _).res ≠ _; rw [(exHandler hs j h).2]; simp) (fun _ _ => rfl)
  refine ⟨h1, ?_⟩
  rw [h2]
  simp only [List.flatMap_cons, List.flatMap_nil, List.append_nil]
  exact (exHandler hs j h).1

theorem exReplies : exServer.replies exReceived =
    [⟨"pong", ⟨some [], some (exMarshal ("mine", 3))⟩, .ret none⟩, ⟨"pong", ⟨some [], some (exMarshal ("u1", 2))⟩, .ret none⟩,
     ⟨"pong", ⟨some [], some (exMarshal ("u1", 2))⟩, .ret none⟩] := by
  have e1 := exHandle ("mine", 2) (by decide)
  have e2 := exHandle ("u1", 1) (by decide)
  unfold Server.replies
  rw [Listen.C13_keeps_listening exServer.listen exReceived (by
    intro m hm
    simp only [exReceived, List.mem_cons, List.not_mem_nil, or_false] at hm
    rcases hm with rfl | rfl | rfl
    · exact e1.1
    · exact e2.1
    · exact e2.1)]
  simp only [exReceived, List.map_cons, List.map_nil, List.flatMap_cons, List.flatMap_nil, e1.2, e2.2]
  rfl

example : FromServer .nats none exClient exServer exReceived (exCalls[0]) := by
  intro bm o h
  simp only [exCalls, List.getElem_cons_zero, List.mem_cons, List.not_mem_nil, or_false] at h
  right; left
  rw [exReplies]
  rcases h with h | h <;> cases h
  · exact ⟨_, List.mem_cons_self, exWire _⟩
  · exact ⟨_, List.mem_cons_of_mem _ List.mem_cons_self, exWire _⟩

example : FromClients .nats none exClient exCalls exReceived := by
  intro bm h
  have h1 : (⟨"ping", ⟨some [], some (exMarshal ("u1", 1))⟩, .ret none⟩ : Send.Pub) ∈ sentBy (exClient.run exCalls[0]).2 := by
    obtain ⟨⟨b, hb, hs⟩, _⟩ := run_eq (exClient_fine _ exCalls_ok) exCalls[0] (by simp [exCalls]) "pong" rfl
    rw [hs]
    cases hb
    exact List.mem_singleton.2 rfl
  have h2 : (⟨"ping", ⟨some [], some (exMarshal ("mine", 2))⟩, .ret none⟩ : Send.Pub) ∈ sentBy (exClient.run exCalls[1]).2 := by
    obtain ⟨⟨b, hb, hs⟩, _⟩ := run_eq (exClient_fine _ exCalls_ok) exCalls[1] (by simp [exCalls]) "pong" rfl
    rw [hs]
    cases hb
    exact List.mem_singleton.2 rfl
  simp only [exReceived, List.mem_cons, List.not_mem_nil, or_false] at h
  rcases h with rfl | rfl | rfl
  · exact ⟨_, by simp [exCalls], _, h2, exWire _⟩
  · exact ⟨_, by simp [exCalls], _, h1, exWire _⟩
  · exact ⟨_, by simp [exCalls], _, h1, exWire _⟩

/-- Two calls at the same time; each is given the reply to the other. -/
def exSwapped : List (Call ExJ Bytes exCfg) :=
  [⟨"u1", exMsg "" 1, [.recv ⟨some [], some (exMarshal ("mine", 3))⟩ true]⟩,
   ⟨"u2", exMsg "mine" 2, [.recv ⟨some [], some (exMarshal ("u1", 2))⟩ true]⟩]

theorem exSwapped_ok : ∀ c ∈ exSwapped, c.uuid ≠ "" ∧ c.msg.headers "since" = .ptr none := by
  intro c hc
  simp only [exSwapped, List.mem_cons, List.not_mem_nil, or_false] at hc
  rcases hc with rfl | rfl <;> exact ⟨by decide, rfl⟩

def exSwappedReceived : List BrokerMessage :=
  [⟨some [], some (exMarshal ("u1", 1))⟩, ⟨some [], some (exMarshal ("mine", 2))⟩]

theorem exSwappedReplies : exServer.replies exSwappedReceived =
    [⟨"pong", ⟨some [], some (exMarshal ("u1", 2))⟩, .ret none⟩, ⟨"pong", ⟨some [], some (exMarshal ("mine", 3))⟩, .ret none⟩] := by
  have e1 := exHandle ("mine", 2) (by decide)
  have e2 := exHandle ("u1", 1) (by decide)
  unfold Server.replies
  rw [Listen.C13_keeps_listening exServer.listen exSwappedReceived (by
    intro m hm
    simp only [exSwappedReceived, List.mem_cons, List.not_mem_nil, or_false] at hm
    rcases hm with rfl | rfl
    · exact e2.1
    · exact e1.1)]
  simp only [exSwappedReceived, List.map_cons, List.map_nil, List.flatMap_cons, List.flatMap_nil, e1.2, e2.2]
  rfl

theorem exSkips (j : ExJ) (id : String) (h : id ≠ j.1) :
    (Send.waitLoop exClient.env exClient.rty "pong" (some id) [.recv ⟨some [], some (exMarshal j)⟩ true]).1 = .pending := by
  obtain ⟨hs, hd⟩ := exFromBroker j
  have h1 : exClient.rty.decode ⟨some [], some (exMarshal j)⟩ = (⟨hs, j⟩, none) := by
    simp only [exClient, exTy, exDecode, hd]
  have h2 : exClient.rty.corr ⟨hs, j⟩ = j.1 := rfl
  simp [Send.waitLoop, Send.waitNext, h1, h2, h]

/-- **C75 is violated with a queue group.** The queue group given to a NATS controller also applies to the subscriptions of
its requests: of two concurrent requests on the same reply channel, each may be given the reply to the other; both drop
it and go on waiting, although both were answered. -/
theorem C75_violated_queue_group :
    ∃ (choice : Nat → Nat) (calls : List (Call ExJ Bytes exCfg)) (received : List BrokerMessage),
      calls.length = 2 ∧ FromClients .nats none exClient calls received ∧
      (∀ c ∈ calls, ∃ p ∈ exServer.replies received, p.addr = "pong" ∧ ∃ m, Agrees m (exClient.content c) ∧
        toBroker exLib exCfg (exServer.reply m) = .ok p.msg) ∧
      (∀ i (h : i < calls.length), calls[i].sels = groupReceives choice ((exServer.replies received).map (·.msg)) i) ∧
      ∀ c ∈ calls, (exClient.run c).1 = .pending := by
  refine ⟨fun i => 1 - i, exSwapped, exSwappedReceived, rfl, ?_, ?_, ?_, ?_⟩
  · intro bm h
    have h1 : (⟨"ping", ⟨some [], some (exMarshal ("u1", 1))⟩, .ret none⟩ : Send.Pub) ∈ sentBy (exClient.run exSwapped[0]).2 := by
      obtain ⟨⟨b, hb, hs⟩, _⟩ := run_eq (exClient_fine _ exSwapped_ok) exSwapped[0] (by simp [exSwapped]) "pong" rfl
      rw [hs]
      cases hb
      exact List.mem_singleton.2 rfl
    have h2 : (⟨"ping", ⟨some [], some (exMarshal ("mine", 2))⟩, .ret none⟩ : Send.Pub) ∈ sentBy (exClient.run exSwapped[1]).2 := by
      obtain ⟨⟨b, hb, hs⟩, _⟩ := run_eq (exClient_fine _ exSwapped_ok) exSwapped[1] (by simp [exSwapped]) "pong" rfl
      rw [hs]
      cases hb
      exact List.mem_singleton.2 rfl
    simp only [exSwappedReceived, List.mem_cons, List.not_mem_nil, or_false] at h
    rcases h with rfl | rfl
    · exact ⟨_, by simp [exSwapped], _, h1, exWire _⟩
    · exact ⟨_, by simp [exSwapped], _, h2, exWire _⟩
  · intro c hc
    rw [exSwappedReplies]
    simp only [exSwapped, List.mem_cons, List.not_mem_nil, or_false] at hc
    rcases hc with rfl | rfl
    · exact ⟨_, List.mem_cons_self, rfl, _, ⟨rfl, fun _ _ => rfl⟩, rfl⟩
    · exact ⟨_, List.mem_cons_of_mem _ List.mem_cons_self, rfl, _, ⟨rfl, fun _ _ => rfl⟩, rfl⟩
  · intro i h
    rw [exSwappedReplies]
    match i, h with
    | 0, _ => rfl
    | 1, _ => rfl
  · intro c hc
    rw [(run_eq (exClient_fine _ exSwapped_ok) c hc "pong" rfl).2.2]
    simp only [exSwapped, List.mem_cons, List.not_mem_nil, or_false] at hc
    rcases hc with rfl | rfl
    · exact exSkips ("mine", 3) _ (by show "u1" ≠ "mine"; decide)
    · exact exSkips ("u1", 2) _ (by show "mine" ≠ "u1"; decide)

end Verif.RequestReply
