import Verif.Base.Str

/-!
# The Go functions generated for a request and its reply (v3)

Which types, arguments and methods the functions of pkg/codegen/generators/v3/templates/controller.tmpl use: `Send…`
(:316-371), `Request…` (:386-456), `waitFor…NextResponse` (:458-533) on the side that asks, `SubscribeTo…` (:146-150),
`listenTo…NextMessage` (:195-249), `ReplyTo…` (:251-281) and the `Send…` of the reply on the side that answers. The types
are computed anew at each place of the template, by `opToMsgTypeName` and `channelToMessageTypeName`, and each computation
ranges over a map of messages, in an order that Go chooses at random.

Simplifications: references are resolved, so a message stands for its Go type (distinct messages have distinct types, see
C43 and C69) and whether it has a correlation ID; the reply channel is given by a reference, as AsyncAPI requires, so that
`.Reply.Channel.Address`, which is not followed, is empty.
-/

namespace Verif.OpTypes

/-- A message: its Go type, and `HaveCorrelationID` (pkg/asyncapi/v3/message.go:598-601), which decides whether the type
has the methods `CorrelationID`, `SetCorrelationID` and `SetAsResponseFrom` (v3/templates/message.tmpl:279-330). -/
structure Msg where
  ty : Str
  corr : Bool
  deriving DecidableEq, Repr

/-- A channel (pkg/asyncapi/v3/channel.go). -/
structure Chan where
  address : Str
  params : List Str
  messages : List (Str × Msg)
  deriving DecidableEq, Repr

/-- A reply (pkg/asyncapi/v3/operation_reply.go): whether it has an address, whose location is `required` or not, its
channel and its messages. -/
structure Reply where
  addr : Option Bool
  chan : Chan
  messages : List Msg
  deriving DecidableEq, Repr

/-- An operation (pkg/asyncapi/v3/operation.go). -/
structure Op where
  messages : List Msg
  chan : Chan
  reply : Reply
  deriving DecidableEq, Repr

/-- The order of the `k`-th iteration over a map. -/
abbrev Order := Nat → List (Str × Msg) → List (Str × Msg)

/-- `Channel.GetMessage` (pkg/asyncapi/v3/channel.go:155-161). `none`: the error, which makes the helper panic and the
generation fail (v3/templates/helpers.go:71-77). -/
def Chan.getMessage (o : Order) (k : Nat) (c : Chan) : Option Msg :=
  match o k c.messages with
  | [] => none
  | (_, m) :: _ => some m

/-- `Operation.GetMessage` (pkg/asyncapi/v3/operation.go:185-192), also `OpToMsgTypeName` (v3/templates/helpers.go:79-87). -/
def getMessage (o : Order) (k : Nat) (messages : List Msg) (c : Chan) : Option Msg :=
  match messages with
  | m :: _ => some m
  | [] => c.getMessage o k

/-- Parameters of a `Send…` function, or arguments of a call to it: the channel parameters, the address, the message. -/
structure Sig where
  params : Bool
  chanAddr : Bool
  msg : Msg
  deriving DecidableEq, Repr

/-- The signature of a `Send…` function (controller.tmpl:323-332). -/
def sendSig (c : Chan) (m : Msg) : Sig := ⟨!c.params.isEmpty, c.address.isEmpty, m⟩

/-- What a channel address expression needs: the fields of `params` (`generateChannelAddr`, v3/templates/helpers.go:106-128;
here the declared parameters of the channel). -/
def addrParams (c : Chan) : List Str := c.params

/-- The functions of the side that asks. -/
structure Asking where
  sendSig : Sig
  sendCorr : List Bool          -- `msg.CorrelationID()` in Send… (:340, :355)
  reqMsg : Msg                  -- parameter of Request… (:391)
  reqParams : List Str          -- fields of its `params` (:388-390)
  result : Msg                  -- its result (:392)
  addrParams : List Str         -- fields of `params` in its address expression (:404)
  zeros : List Msg              -- `T{}` in its error returns (:399, :415, :438)
  reqCorr : Bool                -- `msg.CorrelationID()` (:428-433)
  call : Sig                    -- call of Send… (:436)
  waitArg : Bool                -- `msg` given to waitFor…NextResponse (:444)
  waitParam : Option Msg        -- its parameter (:462-464)
  waitResult : Msg              -- its result (:465)
  waitCtx : Bool                -- `msg.CorrelationID()` (:470-472)
  decode : Option Msg           -- first decoding, declares `rmsg`; then `msg.CorrelationID() != rmsg.CorrelationID()` (:485-500)
  declares : Bool               -- the second decoding declares `rmsg` (:516)
  decode2 : Msg                 -- second decoding, returned (:516-521)
  deriving DecidableEq, Repr

/-- Code for the side that asks (controller.tmpl:316-533). The numbers are those of the iterations. -/
def asking (o : Order) (op : Op) : Option Asking := do
  let gm := fun k => getMessage o k op.messages op.chan
  let rm := fun k => op.reply.chan.getMessage o k
  let sendMsg ← gm 0
  let c1 ← gm 1
  let c2 ← gm 2
  let reqMsg ← gm 3
  let result ← rm 4
  let z1 ← rm 5
  let z2 ← rm 6
  let z3 ← rm 7
  let c3 ← gm 8
  let c4 ← gm 9
  let c5 ← gm 10
  let wp ← gm 11
  let wr ← rm 12
  let c6 ← gm 13
  let c7 ← gm 14
  let d1 ← rm 15
  let c8 ← gm 16
  let d2 ← rm 17
  some {
    sendSig := sendSig op.chan sendMsg
    sendCorr := [c1.corr, c2.corr]
    reqMsg := reqMsg
    reqParams := op.chan.params
    result := result
    addrParams := if op.reply.addr.isSome then [] else addrParams op.reply.chan
    zeros := (if op.reply.addr = some false then [z1] else []) ++ [z2, z3]
    reqCorr := c3.corr
    call := ⟨!op.chan.params.isEmpty, false, reqMsg⟩
    waitArg := c4.corr
    waitParam := if c5.corr then some wp else none
    waitResult := wr
    waitCtx := c6.corr
    decode := if c7.corr then some d1 else none
    declares := !c8.corr
    decode2 := d2 }

/-- The functions of the side that answers. -/
structure Answering where
  handler : Msg                 -- handler given to SubscribeTo… (:148)
  listener : Msg                -- handler given to listenTo…NextMessage (:198)
  decode : Msg                  -- decoding, given to the handler (:221)
  listenCorr : Bool             -- `msg.CorrelationID()` (:226-231)
  recvMsg : Msg                 -- parameter of ReplyTo… (:254)
  callback : Msg                -- parameter of its callback (:254)
  newMsg : Msg                  -- `New…()` (:256), given to the callback and to Send…
  setResponse : Bool            -- `replyMsg.SetAsResponseFrom(&recvMsg)` (:257-259)
  call : Sig                    -- call of the reply's Send… (:275, :277)
  sendSig : Sig                 -- the reply's Send… (:323-332)
  sendCorr : List Bool          -- `msg.CorrelationID()` there (:340, :355)
  deriving DecidableEq, Repr

/-- Code for the side that answers (controller.tmpl:146-281, and 316-371 for the artificial operation of the reply,
pkg/asyncapi/v3/operation.go:170-183, which has no messages). -/
def answering (o : Order) (op : Op) : Option Answering := do
  let gm := fun k => getMessage o k op.messages op.chan
  let rm := fun k => getMessage o k [] op.reply.chan
  let handler ← gm 20
  let listener ← gm 21
  let decode ← gm 22
  let c1 ← gm 23
  let recvMsg ← gm 24
  let cb ← rm 25
  let new ← rm 26
  let c2 ← gm 27
  let sm ← rm 28
  let c3 ← rm 29
  let c4 ← rm 30
  some {
    handler := handler
    listener := listener
    decode := decode
    listenCorr := c1.corr
    recvMsg := recvMsg
    callback := cb
    newMsg := new
    setResponse := c2.corr
    call := ⟨false, op.reply.addr.isSome, new⟩
    sendSig := sendSig op.reply.chan sm
    sendCorr := [c3.corr, c4.corr] }

end Verif.OpTypes
