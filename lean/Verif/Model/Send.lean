import Verif.Model.Broker
import Verif.Model.Middleware

/-!
# Sending, replying and requesting

Models `Send…`, `ReplyTo…`, `Request…` and `waitFor…NextResponse`
(pkg/codegen/generators/v3/templates/controller.tmpl:254-280, 323-372, 386-526) and their v2
counterparts `Publish…`, `WaitFor…`, `waitFor…NextMessage`
(pkg/codegen/generators/v2/templates/controller.tmpl:276-313, 325-435).
-/

namespace Verif.Send

open Verif.Middleware

/-- Go errors met here (pkg/extensions/errors.go); `other` are errors of user code, the broker and the
JSON library. -/
inductive GoErr
  | noCorrelationID
  | channelAddressEmpty
  | subscriptionCanceled
  | contextCanceled
  | sending (e : GoErr)      -- fmt.Errorf("error happened when sending message: %w", err)
  | other (s : String)
  deriving DecidableEq, Repr

/-- What is generated for a message type with correlation ID (v3/templates/message.tmpl:41-51, 175-304).
`decode` returns a value even when it fails, as Go functions do. -/
structure MsgType (T : Type) where
  new : T
  corr : T → String
  setCorr : T → String → T
  encode : T → Except GoErr BrokerMessage
  decode : BrokerMessage → T × Option GoErr

/-- The correlation ID accessors are consistent (proved for the generated accessors in C39). -/
def MsgType.Lawful {T : Type} (ty : MsgType T) : Prop := ∀ m id, ty.corr (ty.setCorr m id) = id

/-- What the generator knows of an operation. -/
structure OpCfg where
  /-- the message has a correlation ID (`HaveCorrelationID`) -/
  hasCorr : Bool
  /-- the operation is a reply (`.ReplyOf`) -/
  isReply : Bool
  deriving DecidableEq, Repr

/-- The controller's environment. `publish` is the broker's answer to a publication, `ctx` makes the
context (controller.tmpl:352-358, 366) from address, correlation ID and encoded message, `waitCtx` that of a reply
(controller.tmpl:466-472, 505) from address, correlation ID of the request and received message. -/
structure Env (C : Type) where
  mws : List (Mw C BrokerMessage GoErr)
  ctx : String → Option String → BrokerMessage → C
  publish : C → String → BrokerMessage → Res GoErr
  waitCtx : String → Option String → BrokerMessage → C := ctx

/-- A publication handed to the broker, and what the broker answered. -/
structure Pub where
  addr : String
  msg : BrokerMessage
  answer : Res GoErr
  deriving DecidableEq, Repr

/-- The function passed to `executeMiddlewares` (controller.tmpl:369-371). -/
def pubCallback {C : Type} (env : Env C) (addr : String) :
    Callback C BrokerMessage (List Pub) GoErr := fun c m pubs =>
  let r := env.publish c addr m
  (r, pubs ++ [⟨addr, m, r⟩])

/-- What a call of `Send…` did: its outcome, the publications, the message given to the middlewares and
their history. -/
structure Out (C : Type) where
  res : Res GoErr
  pubs : List Pub
  encoded : Option BrokerMessage := none
  trace : List (Ev C BrokerMessage GoErr) := []

/-- `Send…` (controller.tmpl:323-372). `uuid` is what `uuid.New().String()` returns. -/
def send {C T : Type} (env : Env C) (ty : MsgType T) (op : OpCfg) (uuid addr : String) (msg : T) :
    Out C :=
  -- controller.tmpl:341-351
  if op.hasCorr && (ty.corr msg == "") && op.isReply then ⟨.ret (some .noCorrelationID), [], none, []⟩
  else
    let msg := if op.hasCorr && (ty.corr msg == "") then ty.setCorr msg uuid else msg
    match ty.encode msg with
    | .error e => ⟨.ret (some e), [], none, []⟩
    | .ok bm =>
      let ctx := env.ctx addr (if op.hasCorr then some (ty.corr msg) else none) bm
      let o := executeMiddlewares env.mws ctx bm [] (some (pubCallback env addr))
      ⟨o.1, o.2.x, some bm, o.2.trace⟩

/-- Where a reply goes (controller.tmpl:266-279): the address of the reply channel, or a location inside
the request, mandatory or optional. -/
inductive ReplyAddr (R : Type)
  | fixed (addr : String)
  | required (loc : R → String)
  | optional (loc : R → Option String)

/-- Resolve the reply address from the request (controller.tmpl:266-275 and 397-407). -/
def ReplyAddr.resolve {R : Type} (ra : ReplyAddr R) (req : R) : Except GoErr String :=
  match ra with
  | .fixed a => .ok a
  | .required loc => .ok (loc req)
  | .optional loc => match loc req with
    | none => .error .channelAddressEmpty
    | some a => .ok a

/-- `ReplyTo…` (controller.tmpl:254-280). `fn` is the user's function: what it makes of the reply it is
given. `reqCorr` is the request's `CorrelationID()` if its message has one (`HaveCorrelationID`); `ty` and `op` are
those of the reply. Where the request has one and the reply does not, the generated code does not compile
(`SetAsResponseFrom` is only generated for the latter, message.tmpl:281-304); here `setCorr` is then assumed to exist. -/
def replyTo {C T R : Type} (env : Env C) (ty : MsgType T) (op : OpCfg) (reqCorr : Option (R → String))
    (ra : ReplyAddr R) (uuid : String) (req : R) (fn : T → T) : Out C :=
  let reply := match reqCorr with
    | some reqCorr => ty.setCorr ty.new (reqCorr req)
    | none => ty.new
  let reply := fn reply
  match ra.resolve req with
  | .error e => ⟨.ret (some e), [], none, []⟩
  | .ok addr => send env ty { op with isReply := true } uuid addr reply

/-- What one `select` of `waitFor…NextResponse` (controller.tmpl:477-525) chose: a receive from the
subscription (value and `open` flag) or `ctx.Done()`. -/
inductive Sel
  | recv (m : BrokerMessage) (isOpen : Bool)
  | ctxDone
  deriving DecidableEq, Repr

/-- One call of `waitFor…NextResponse` (controller.tmpl:458-526): the reply found, if any, or the error;
`acked` says whether `Ack()` was called on the message; `panicked` if a middleware panicked; `trace` is the history of
the middlewares. -/
structure WaitOut (C T : Type) where
  msg : Option T := none
  err : Option GoErr := none
  acked : Bool := false
  panicked : Bool := false
  trace : List (Ev C BrokerMessage GoErr) := []

/-- `waitFor…NextResponse` (controller.tmpl:458-526); `want` is the correlation ID of the request when
the operation has one. -/
def waitNext {C T : Type} (env : Env C) (ty : MsgType T) (addr : String) (want : Option String) :
    Sel → WaitOut C T
  | .ctxDone => { err := some .contextCanceled }
  | .recv m isOpen =>
    if !isOpen && m.isUninitialized then { err := some .subscriptionCanceled }
    else
      let skip : Bool := match want with
        | some id => !(id == ty.corr (ty.decode m).1)
        | none => false
      if skip then { acked := true }
      else
        match executeMiddlewares env.mws (env.waitCtx addr want m) m () none with
        | (.panicked, s) => { acked := want.isSome, panicked := true, trace := s.trace }
        | (.ret (some e), s) => { err := some e, acked := want.isSome, trace := s.trace }
        | (.ret none, s) =>
          match ty.decode s.msg with
          | (_, some e) => { err := some e, acked := want.isSome, trace := s.trace }
          | (d, none) => { msg := some d, acked := want.isSome, trace := s.trace }

/-- State of a request after a number of receives. -/
inductive ReqRes (T : Type)
  | returned (d : T)
  | failed (e : GoErr)
  | panicked
  | pending
  deriving DecidableEq, Repr

/-- Effects of a request on the broker, in order. -/
inductive ReqEv
  | subscribe (addr : String) (ok : Bool)
  | publish (p : Pub)
  | ack (m : BrokerMessage)
  | cancel
  deriving DecidableEq, Repr

/-- The effect of one waiting step on the broker: the acknowledgement (controller.tmpl:495). -/
def stepEvs {C T : Type} (s : Sel) (o : WaitOut C T) : List ReqEv :=
  match s with
  | .recv m _ => if o.acked then [.ack m] else []
  | .ctxDone => []

/-- The waiting loop (controller.tmpl:441-455) over the successive `select` results. -/
def waitLoop {C T : Type} (env : Env C) (ty : MsgType T) (addr : String) (want : Option String) :
    List Sel → ReqRes T × List ReqEv
  | [] => (.pending, [])
  | s :: rest =>
    let o := waitNext env ty addr want s
    let evs := stepEvs s o
    if o.panicked then (.panicked, evs)
    else match o.msg with
      | some d => (.returned d, evs)
      | none => ((waitLoop env ty addr want rest).1, evs ++ (waitLoop env ty addr want rest).2)

/-- `Request…` (controller.tmpl:386-456) over the successive `select` results of its waiting loop.
`ty` and `op` describe the request, `rty` the reply, `subErr` the broker's answer to the subscription.
The deferred `Cancel` (controller.tmpl:424-430) runs when the function returns or panics. -/
def request {C T R : Type} (env : Env C) (ty : MsgType T) (rty : MsgType R) (op : OpCfg)
    (ra : ReplyAddr T) (uuid reqAddr : String) (subErr : Option GoErr) (msg : T) (sels : List Sel) :
    ReqRes R × List ReqEv :=
  match ra.resolve msg with
  | .error e => (.failed e, [])
  | .ok addr =>
    match subErr with
    | some e => (.failed e, [.subscribe addr false])
    | none =>
      let msg := if op.hasCorr && (ty.corr msg == "") then ty.setCorr msg uuid else msg
      let o := send env ty op uuid reqAddr msg
      let pre : List ReqEv := .subscribe addr true :: o.pubs.map .publish
      match o.res with
      | .panicked => (.panicked, pre ++ [.cancel])
      | .ret (some e) => (.failed (.sending e), pre ++ [.cancel])
      | .ret none =>
        match waitLoop env rty addr (if op.hasCorr then some (ty.corr msg) else none) sels with
        | (.pending, evs) => (.pending, pre ++ evs)
        | (r, evs) => (r, pre ++ evs ++ [.cancel])

/-- `WaitFor…` (pkg/codegen/generators/v2/templates/controller.tmpl:325-375), the request of v2 user controllers: the
caller gives the message whose correlation ID is awaited (`want`, assumed not to change meanwhile) and the function that
publishes (`pub`: its outcome and publications). `waitFor…NextMessage` (v2/templates/controller.tmpl:377-435) is `waitNext`
with a correlation ID. -/
def waitForV2 {C R : Type} (env : Env C) (rty : MsgType R) (addr want : String) (subErr : Option GoErr)
    (pub : Res GoErr × List Pub) (sels : List Sel) : ReqRes R × List ReqEv :=
  match subErr with
  | some e => (.failed e, [.subscribe addr false])
  | none =>
    let pre : List ReqEv := .subscribe addr true :: pub.2.map .publish
    match pub.1 with
    | .panicked => (.panicked, pre ++ [.cancel])
    | .ret (some e) => (.failed e, pre ++ [.cancel])
    | .ret none =>
      match waitLoop env rty addr (some want) sels with
      | (.pending, evs) => (.pending, pre ++ evs)
      | (r, evs) => (r, pre ++ evs ++ [.cancel])

end Verif.Send
