import Verif.Base.GoMap
import Verif.Base.Str

/-!
# What each side sends and receives (pkg/codegen/generators/v2/controller.go:21-80,
v2/subscriber.go:19-49, v3/common.go:17-52, v3/controller.go:38-73)
-/

namespace Verif.Sides

inductive Side
  | app
  | user
  deriving DecidableEq, Repr

namespace V2

/-- A channel: does it have a publish, a subscribe operation? -/
structure Chan where
  publish : Bool
  subscribe : Bool
  deriving DecidableEq, Repr

/-- `isSubscribeChannel` (v2/controller.go:60-69) -/
def isSubscribeChannel : Side → Chan → Bool
  | .app, c => c.publish
  | .user, c => c.subscribe

/-- `isPublishChannel` (v2/controller.go:71-80) -/
def isPublishChannel : Side → Chan → Bool
  | .app, c => c.subscribe
  | .user, c => c.publish

/-- `GetPublishSubscribeCount` (pkg/asyncapi/v2/specification.go:112-126) -/
def count : List (Str × Chan) → Nat × Nat
  | [] => (0, 0)
  | (_, c) :: rest =>
    let (p, s) := count rest
    ((if c.publish then 1 else 0) + p, (if c.subscribe then 1 else 0) + s)

structure Gen where
  methodCount : Nat
  subscribe : GoMap Str Chan
  publish : GoMap Str Chan
  deriving DecidableEq, Repr

/-- The loop of `NewControllerGenerator` (v2/controller.go:35-45), in iteration order. -/
def loop (side : Side) : List (Str × Chan) → GoMap Str Chan × GoMap Str Chan → GoMap Str Chan × GoMap Str Chan
  | [], acc => acc
  | (name, c) :: rest, (sub, pub) =>
    let sub' := if isSubscribeChannel side c then sub.put name c else sub
    let pub' := if isPublishChannel side c then pub.put name c else pub
    loop side rest (sub', pub')

/-- `NewControllerGenerator` (v2/controller.go:21-58) -/
def newController (side : Side) (spec : List (Str × Chan)) : Gen :=
  let (p, s) := count spec
  let (sub, pub) := loop side spec ([], [])
  { methodCount := (match side with | .app => p | .user => s), subscribe := sub, publish := pub }

/-- The channels of `NewSubscriberGenerator` (v2/subscriber.go:31-38), in iteration order. -/
def subscriberLoop (side : Side) : List (Str × Chan) → GoMap Str Chan → GoMap Str Chan
  | [], acc => acc
  | (name, c) :: rest, acc =>
    subscriberLoop side rest
      (if c.publish && side = .app then acc.put name c
       else if c.subscribe && side = .user then acc.put name c else acc)

end V2

namespace V3

/-- The action of an operation (pkg/asyncapi/v3/operation.go): anything else than `send` and `receive` is neither. -/
inductive Action
  | send
  | receive
  | other
  deriving DecidableEq, Repr

/-- An operation: its action and, if it has a reply with a channel, the name of that channel (followed). -/
structure Op where
  id : Nat
  action : Action
  reply : Option Str
  deriving DecidableEq, Repr

/-- What a controller can send: a declared operation or the artificial operation of a reply (`op.ReplyIs`,
pkg/asyncapi/v3/operation.go:170-183). -/
inductive SendOp
  | declared (op : Op)
  | replyTo (op : Op)
  deriving DecidableEq, Repr

/-- `isControllerReceiveOperation` (v3/controller.go:53-62) -/
def isReceive : Side → Op → Bool
  | .app, op => op.action = .receive
  | .user, op => op.action = .send

/-- `isControllerSendOperation` (v3/controller.go:64-73) -/
def isSend : Side → Op → Bool
  | .app, op => op.action = .send
  | .user, op => op.action = .receive

/-- `shouldControllerRespondToReply` (v3/controller.go:38-51) -/
def shouldRespond (side : Side) (op : Op) : Bool :=
  match op.reply with
  | none => false
  | some _ => isReceive side op

/-- `GetOperationCountByAction` (pkg/asyncapi/v3/specification.go:181-195) -/
def count : List (Str × Op) → Nat × Nat
  | [] => (0, 0)
  | (_, op) :: rest =>
    let (s, r) := count rest
    ((if op.action = .send then 1 else 0) + s, (if op.action = .receive then 1 else 0) + r)

structure Ops where
  sendCount : Nat
  receiveCount : Nat
  receive : GoMap Str Op
  send : GoMap Str SendOp
  deriving DecidableEq, Repr

/-- One round of the loop of `NewActionOperations` (v3/common.go:33-49). -/
def step (side : Side) (acc : GoMap Str Op × GoMap Str SendOp) (e : Str × Op) : GoMap Str Op × GoMap Str SendOp :=
  let (name, op) := e
  let recv := if isReceive side op then acc.1.put name op else acc.1
  let send := if isSend side op then acc.2.put name (.declared op) else acc.2
  let send' := match op.reply with
    | some ch => if shouldRespond side op then send.put ch (.replyTo op) else send
    | none => send
  (recv, send')

/-- `NewActionOperations` (v3/common.go:17-52) -/
def newActionOperations (side : Side) (spec : List (Str × Op)) : Ops :=
  let (s, r) := count spec
  let acc := spec.foldl (step side) ([], [])
  { sendCount := (match side with | .app => s | .user => r)
    receiveCount := (match side with | .app => r | .user => s)
    receive := acc.1
    send := acc.2 }

/-- An entry of `operations` as it is read: the fields written in place, and the operation of the components it refers
to (`ReferenceTo`, pkg/asyncapi/v3/operation.go:138-151). -/
structure Entry where
  own : Op
  ref : Option Str := none
  deriving DecidableEq, Repr

/-- `NewActionOperations` on entries: action and reply are read from the entry itself, `Follow` is not called
(v3/common.go:33-49, v3/controller.go:38-73, pkg/asyncapi/v3/specification.go:181-195). -/
def entryOperations (side : Side) (spec : List (Str × Entry)) : Ops :=
  newActionOperations side (spec.map (fun e => (e.1, e.2.own)))

end V3

end Verif.Sides
