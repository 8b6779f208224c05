import Verif.Model.Send
import Verif.Props.Middleware

/-! # C19–C21: sending and replying -/

namespace Verif.Send

open Verif.Middleware

variable {C T R : Type}

/-- The message a send is expected to put on the wire: the caller's message, with a fresh correlation ID
exactly when the operation has one and the caller set none. -/
def toSend (ty : MsgType T) (op : OpCfg) (uuid : String) (msg : T) : T :=
  if op.hasCorr = true ∧ ty.corr msg = "" then ty.setCorr msg uuid else msg

theorem send_refused (env : Env C) (ty : MsgType T) (op : OpCfg) (uuid addr : String) (msg : T)
    (h : op.hasCorr = true ∧ ty.corr msg = "" ∧ op.isReply = true) :
    send env ty op uuid addr msg = ⟨.ret (some .noCorrelationID), [], none, []⟩ := by
  simp [send, h.1, h.2.1, h.2.2]

theorem send_eq (env : Env C) (ty : MsgType T) (op : OpCfg) (uuid addr : String) (msg : T)
    (h : ¬ (op.hasCorr = true ∧ ty.corr msg = "" ∧ op.isReply = true)) :
    send env ty op uuid addr msg =
      match ty.encode (toSend ty op uuid msg) with
      | .error e => ⟨.ret (some e), [], none, []⟩
      | .ok bm =>
        let ctx := env.ctx addr (if op.hasCorr then some (ty.corr (toSend ty op uuid msg)) else none) bm
        let o := executeMiddlewares env.mws ctx bm [] (some (pubCallback env addr))
        ⟨o.1, o.2.x, some bm, o.2.trace⟩ := by
  unfold send
  rw [if_neg (by simpa [and_assoc] using h)]
  have : (if (op.hasCorr && ty.corr msg == "") = true then ty.setCorr msg uuid else msg)
      = toSend ty op uuid msg := by
    unfold toSend; simp
  rw [this]
  rfl

/-- The chain of a send: publications and operation runs coincide. -/
theorem pubs_of_chain (env : Env C) (addr : String) (ctx : C) (bm : BrokerMessage) :
    let o := executeMiddlewares env.mws ctx bm [] (some (pubCallback env addr))
    o.2.x = (opRuns o.2.trace).map (fun r => ⟨addr, r.2, env.publish r.1 addr r.2⟩) ∧
    opOutcomes o.2.trace = o.2.x.map Pub.answer := by
  intro o
  have h1 := C09_world_changed_by_operation_only env.mws ctx bm ([] : List Pub) (pubCallback env addr)
  have h2 := C09_outcomes_are_real env.mws ctx bm ([] : List Pub) (pubCallback env addr)
  have key : ∀ (l : List (C × BrokerMessage)) (ps : List Pub),
      applyRuns (pubCallback env addr) ps l =
        ps ++ l.map (fun r => ⟨addr, r.2, env.publish r.1 addr r.2⟩) := by
    intro l
    induction l with
    | nil => intro ps; simp [applyRuns]
    | cons e t ih => intro ps; simp [applyRuns, ih, pubCallback]
  have key2 : ∀ (l : List (C × BrokerMessage)) (ps : List Pub),
      outcomesOf (pubCallback env addr) ps l = l.map (fun r => env.publish r.1 addr r.2) := by
    intro l
    induction l with
    | nil => intro ps; simp [outcomesOf]
    | cons e t ih => intro ps; simp [outcomesOf, ih, pubCallback]
  rw [key] at h1
  rw [key2] at h2
  refine ⟨by simpa using h1, ?_⟩
  rw [h2]
  have : o.2.x = (opRuns o.2.trace).map (fun r => ⟨addr, r.2, env.publish r.1 addr r.2⟩) := by
    simpa using h1
  rw [this, List.map_map]
  rfl

theorem mem_opRuns {M E : Type} : ∀ (t : List (Ev C M E)) (c : C) (m : M), (c, m) ∈ opRuns t →
    ∃ pre post, t = pre ++ .cb c m :: post := by
  intro t
  induction t with
  | nil => intro c m h; simp [opRuns] at h
  | cons e t ih =>
    intro c m h
    have step : (c, m) ∈ opRuns t → ∃ pre post, e :: t = pre ++ .cb c m :: post := by
      intro h
      obtain ⟨pre, post, rfl⟩ := ih c m h
      exact ⟨e :: pre, post, rfl⟩
    cases e with
    | cb c' m' =>
      simp only [opRuns, List.mem_cons] at h
      rcases h with h | h
      · cases h; exact ⟨[], t, rfl⟩
      · exact step h
    | enter i c => exact step h
    | exit i r => exact step h
    | wrote m => exact step h
    | cbExit r => exact step h

/-- **C19.** Every message handed to the broker by a send starts as the encoding of the caller's message
with its correlation ID: the caller's if set, the fresh one otherwise, nothing else changed; only
middlewares can rewrite it after that. In particular, with middlewares that write nothing, it is exactly
that encoding. -/
theorem C19_published_message (env : Env C) (ty : MsgType T) (op : OpCfg) (uuid addr : String) (msg : T)
    (p : Pub) (hp : p ∈ (send env ty op uuid addr msg).pubs) :
    ∃ bm pre, ty.encode (toSend ty op uuid msg) = .ok bm ∧
      pre <+: (send env ty op uuid addr msg).trace ∧ p.msg = lastWritten bm pre := by
  by_cases h : op.hasCorr = true ∧ ty.corr msg = "" ∧ op.isReply = true
  · rw [send_refused env ty op uuid addr msg h] at hp; simp at hp
  · rw [send_eq env ty op uuid addr msg h] at hp ⊢
    cases he : ty.encode (toSend ty op uuid msg) with
    | error e => rw [he] at hp; simp at hp
    | ok bm =>
      rw [he] at hp
      simp only at hp ⊢
      rw [(pubs_of_chain env addr _ bm).1] at hp
      obtain ⟨⟨c, m⟩, hr, rfl⟩ := List.mem_map.mp hp
      obtain ⟨pre, post, ht⟩ := mem_opRuns _ _ _ hr
      refine ⟨bm, pre, rfl, ?_, ?_⟩
      · rw [ht]; exact List.prefix_append _ _
      · exact C09_operation_sees_last_write env.mws _ bm [] _ pre post c m ht

/-- **C19.** For an operation with correlation ID, what is encoded carries a non-empty correlation ID: the
caller's if there is one, the generated one otherwise. -/
theorem C19_correlation_id (ty : MsgType T) (hl : ty.Lawful) (op : OpCfg) (hc : op.hasCorr = true)
    (uuid : String) (hu : uuid ≠ "") (msg : T) :
    ty.corr (toSend ty op uuid msg) ≠ "" ∧
    (ty.corr msg ≠ "" → toSend ty op uuid msg = msg) ∧
    (ty.corr msg = "" → ty.corr (toSend ty op uuid msg) = uuid) := by
  unfold toSend
  by_cases h : ty.corr msg = ""
  · rw [if_pos ⟨hc, h⟩]
    exact ⟨by rw [hl]; exact hu, fun h' => absurd h h', fun _ => hl _ _⟩
  · rw [if_neg (fun h' => h h'.2)]
    exact ⟨h, fun _ => rfl, fun h' => absurd h' h⟩

/-- A message type for the examples: correlation ID and payload. -/
def exTy : MsgType (String × Bytes) where
  new := ("", [])
  corr := Prod.fst
  setCorr := fun m id => (id, m.2)
  encode := fun m => if m.2 = [] then .error (.other "empty") else .ok ⟨some [("corr", if m.1 = "a" then [97] else if m.1 = "b" then [98] else [])], some m.2⟩
  decode := fun bm => match bm.headers, bm.payload with
    | some [("corr", c)], some p => ((if c = [97] then "a" else if c = [98] then "b" else "", p), none)
    | _, _ => (("", []), some (.other "bad"))

/-- An environment whose broker accepts everything, with a middleware calling `next` twice. -/
def exEnv : Env Unit :=
  ⟨[fun c => .next c (fun e => .next c (fun e' => .ret (e.or e'))), logging], fun _ _ _ => (), fun _ _ _ => .ret none, fun _ _ _ => ()⟩

example : exTy.Lawful := fun _ _ => rfl

example : (send exEnv exTy ⟨true, false⟩ "a" "chan" ("", [1, 2])).pubs =
    [⟨"chan", ⟨some [("corr", [97])], some [1, 2]⟩, .ret none⟩] := by decide

/-- **C21.** One send hands at most one message to the broker, and on the operation's address. -/
theorem C21_at_most_one_publication (env : Env C) (ty : MsgType T) (op : OpCfg) (uuid addr : String)
    (msg : T) : (send env ty op uuid addr msg).pubs.length ≤ 1 ∧
      ∀ p ∈ (send env ty op uuid addr msg).pubs, p.addr = addr := by
  by_cases h : op.hasCorr = true ∧ ty.corr msg = "" ∧ op.isReply = true
  · rw [send_refused env ty op uuid addr msg h]; simp
  · rw [send_eq env ty op uuid addr msg h]
    cases he : ty.encode (toSend ty op uuid msg) with
    | error e => simp
    | ok bm =>
      simp only
      rw [(pubs_of_chain env addr _ bm).1]
      refine ⟨?_, ?_⟩
      · rw [List.length_map]; exact C06_operation_at_most_once env.mws _ bm [] _
      · intro p hp
        obtain ⟨r, _, rfl⟩ := List.mem_map.mp hp
        rfl

/-- **C21.** If the send returns nil and every middleware reports the failures of `next`, the broker
accepted exactly one message. -/
theorem C21_success_means_accepted (env : Env C) (ty : MsgType T) (op : OpCfg) (uuid addr : String)
    (msg : T) (hrep : ∀ mw ∈ env.mws, ∀ ctx, Reports false (mw ctx))
    (hok : (send env ty op uuid addr msg).res = .ret none) :
    ∃ p, (send env ty op uuid addr msg).pubs = [p] ∧ p.addr = addr ∧ p.answer = .ret none := by
  by_cases h : op.hasCorr = true ∧ ty.corr msg = "" ∧ op.isReply = true
  · rw [send_refused env ty op uuid addr msg h] at hok; cases hok
  · have haddr := (C21_at_most_one_publication env ty op uuid addr msg).2
    rw [send_eq env ty op uuid addr msg h] at hok haddr ⊢
    cases he : ty.encode (toSend ty op uuid msg) with
    | error e => rw [he] at hok; cases hok
    | ok bm =>
      rw [he] at hok haddr
      simp only at hok haddr ⊢
      have h1 := ((C08_success_iff env.mws _ bm [] (pubCallback env addr) hrep).mp hok).2
      rw [(pubs_of_chain env addr _ bm).2] at h1
      match hx : (executeMiddlewares env.mws (env.ctx addr (if op.hasCorr = true then
          some (ty.corr (toSend ty op uuid msg)) else none) bm) bm []
          (some (pubCallback env addr))).2.x with
      | [] => rw [hx] at h1; cases h1
      | [p] =>
        rw [hx] at h1 haddr
        refine ⟨p, rfl, haddr p (by simp), ?_⟩
        simpa using h1
      | a :: b :: t => rw [hx] at h1; simp at h1

/-- **C21.** A message that cannot be encoded is not published, and the send returns the error. -/
theorem C21_encode_failure (env : Env C) (ty : MsgType T) (op : OpCfg) (uuid addr : String) (msg : T)
    (e : GoErr) (h : ty.encode (toSend ty op uuid msg) = .error e) :
    (send env ty op uuid addr msg).pubs = [] ∧ ∃ e', (send env ty op uuid addr msg).res = .ret (some e') := by
  by_cases h1 : op.hasCorr = true ∧ ty.corr msg = "" ∧ op.isReply = true
  · rw [send_refused env ty op uuid addr msg h1]; exact ⟨rfl, _, rfl⟩
  · rw [send_eq env ty op uuid addr msg h1, h]; exact ⟨rfl, _, rfl⟩

example : ∀ mw ∈ exEnv.mws, ∀ ctx, Reports false (mw ctx) := by
  intro mw hmw ctx
  simp only [exEnv, List.mem_cons, List.not_mem_nil, or_false] at hmw
  rcases hmw with rfl | rfl
  · intro r r'; cases r <;> cases r' <;> simp [Reports]
  · simp [logging, Reports]

example : (send exEnv exTy ⟨true, false⟩ "a" "chan" ("", [])).res = .ret (some (.other "empty")) := by
  decide

/-- **C20.** The user's function is given a new reply carrying the request's correlation ID, and what is
sent, if anything, is what that function made of it, on the address found for the reply. -/
theorem C20_reply_correlated (env : Env C) (ty : MsgType T) (hl : ty.Lawful) (op : OpCfg)
    (hc : op.hasCorr = true) (reqCorr : R → String) (ra : ReplyAddr R) (uuid : String) (req : R)
    (fn : T → T) :
    ∃ reply, ty.corr reply = reqCorr req ∧
      ∀ p ∈ (replyTo env ty op (some reqCorr) ra uuid req fn).pubs,
        ra.resolve req = .ok p.addr ∧ ty.corr (fn reply) ≠ "" ∧
        ∃ bm pre, ty.encode (fn reply) = .ok bm ∧
          pre <+: (replyTo env ty op (some reqCorr) ra uuid req fn).trace ∧ p.msg = lastWritten bm pre := by
  refine ⟨ty.setCorr ty.new (reqCorr req), hl _ _, ?_⟩
  intro p hp
  unfold replyTo at hp ⊢
  rw [hc] at hp ⊢
  simp only at hp ⊢
  cases hr : ra.resolve req with
  | error e => rw [hr] at hp; simp at hp
  | ok addr =>
    rw [hr] at hp
    simp only at hp ⊢
    have hne : ty.corr (fn (ty.setCorr ty.new (reqCorr req))) ≠ "" := by
      intro h0
      rw [send_refused _ _ _ _ _ _ ⟨rfl, h0, rfl⟩] at hp
      simp at hp
    obtain ⟨bm, pre, h1, h2, h3⟩ := C19_published_message _ _ _ _ _ _ p hp
    have ha := (C21_at_most_one_publication _ _ _ _ _ _).2 p hp
    rw [ha]
    refine ⟨rfl, hne, bm, pre, ?_, h2, h3⟩
    rw [← h1]
    unfold toSend
    rw [if_neg (fun h => hne h.2)]

/-- **C20.** A reply that ends up without correlation ID is refused with ErrNoCorrelationIDSet and nothing
is published. -/
theorem C20_uncorrelated_reply_refused (env : Env C) (ty : MsgType T) (op : OpCfg)
    (hc : op.hasCorr = true) (reqCorr : R → String) (ra : ReplyAddr R) (uuid : String) (req : R)
    (fn : T → T) (addr : String) (ha : ra.resolve req = .ok addr)
    (h : ty.corr (fn (ty.setCorr ty.new (reqCorr req))) = "") :
    (replyTo env ty op (some reqCorr) ra uuid req fn).res = .ret (some .noCorrelationID) ∧
    (replyTo env ty op (some reqCorr) ra uuid req fn).pubs = [] := by
  unfold replyTo
  rw [ha, hc]
  simp only
  rw [send_refused _ _ _ _ _ _ ⟨rfl, h, rfl⟩]
  exact ⟨rfl, rfl⟩

/-- **C20.** A reply with a correlation ID to a request without one is refused, unless the user's function sets it. -/
theorem C20_request_without_id_refused (env : Env C) (ty : MsgType T) (op : OpCfg)
    (hc : op.hasCorr = true) (ra : ReplyAddr R) (uuid : String) (req : R)
    (fn : T → T) (addr : String) (ha : ra.resolve req = .ok addr) (h : ty.corr (fn ty.new) = "") :
    (replyTo env ty op none ra uuid req fn).res = .ret (some .noCorrelationID) ∧
    (replyTo env ty op none ra uuid req fn).pubs = [] := by
  unfold replyTo
  rw [ha, hc]
  simp only
  rw [send_refused _ _ _ _ _ _ ⟨rfl, h, rfl⟩]
  exact ⟨rfl, rfl⟩

example : (replyTo exEnv exTy ⟨true, true⟩ none (.fixed "back") "u" () (fun t => (t.1, [1]))).res
    = .ret (some .noCorrelationID) := by decide

/-- **C20 (partial: absent address).** A reply whose address is an optional field absent from the request
is refused with ErrChannelAddressEmpty and nothing is published. Missing: an address that is present but
empty, which is not refused (below). -/
theorem C20_absent_address_refused_partial (env : Env C) (ty : MsgType T) (op : OpCfg)
    (reqCorr : Option (R → String)) (loc : R → Option String) (uuid : String) (req : R) (fn : T → T)
    (h : loc req = none) :
    (replyTo env ty op reqCorr (.optional loc) uuid req fn).res = .ret (some .channelAddressEmpty) ∧
    (replyTo env ty op reqCorr (.optional loc) uuid req fn).pubs = [] := by
  simp [replyTo, ReplyAddr.resolve, h]

/-- **C20 is violated for an address that is present but empty**: whether the field is mandatory or
optional, the reply is published on the address "". -/
theorem C20_violated_empty_address :
    (replyTo exEnv exTy ⟨true, true⟩ (some Prod.fst) (.required (fun r : String × String => r.2)) "u" ("a", "")
      (fun t => (t.1, [1]))).pubs.map Pub.addr = [""] ∧
    (replyTo exEnv exTy ⟨true, true⟩ (some Prod.fst) (.optional (fun r : String × String => some r.2)) "u" ("a", "")
      (fun t => (t.1, [1]))).pubs.map Pub.addr = [""] := by decide

example : (replyTo exEnv exTy ⟨true, true⟩ (some Prod.fst) (.required (fun r : String × String => r.2)) "u"
      ("a", "back") (fun t => (t.1, [1]))).pubs =
    [⟨"back", ⟨some [("corr", [97])], some [1]⟩, .ret none⟩] := by decide

example : (replyTo exEnv exTy ⟨true, true⟩ (some Prod.fst) (.required (fun r : String × String => r.2)) "u"
      ("", "back") (fun t => (t.1, [1]))).res = .ret (some .noCorrelationID) := by decide

end Verif.Send
