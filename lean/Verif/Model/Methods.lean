import Verif.Model.Names
import Verif.Model.Sides

/-!
# The functions a generated controller declares and calls

Models the names of the methods written by pkg/codegen/generators/v2/templates/controller.tmpl and
v3/templates/controller.tmpl, of the interfaces of v2/templates/subscriber.tmpl and v3/templates/subscriber.tmpl, and which
of these the generated methods call. Signatures and bodies are not modelled here.
-/

namespace Verif.Methods
open Naming (Uni Bytes namify)
open Names (lit fullName)
open Sides (Side)

namespace V2

/-- A publish or subscribe operation (pkg/asyncapi/v2/operation.go:14-20): its `operationId`, and whether its message has
a correlation ID. -/
structure Op where
  id : Bytes
  corr : Bool
  deriving DecidableEq, Repr

/-- A channel (pkg/asyncapi/v2/channel.go:8-20): its path, its operations, whether it has parameters. -/
structure Chan where
  path : Bytes
  publish : Option Op
  subscribe : Option Op
  params : Bool
  deriving DecidableEq, Repr

/-- The `operationId`, when there is an operation and it is not empty. -/
def givenId : Option Op → Option Bytes
  | none => none
  | some o => if o.id = [] then none else some o.id

/-- `OperationName` (v2/templates/helpers.go:129-142); the name of the channel is its path through `Namify`
(pkg/asyncapi/v2/channel.go:25). `none` is a panic. -/
def operationName (u : Uni) (c : Chan) : Option Bytes :=
  match givenId c.publish with
  | some i => namify u i
  | none => match givenId c.subscribe with
    | some i => namify u i
    | none => (namify u c.path).bind (namify u)

/-- A channel as the template sees it on one side: the name of its operation, whether it has parameters, whether the
message of its subscribe operation has a correlation ID (v2/templates/controller.tmpl:318). -/
structure Entry where
  name : Bytes
  params : Bool
  corr : Bool
  deriving DecidableEq, Repr

/-- The entry of a channel. -/
def entry (u : Uni) (c : Chan) : Option Entry :=
  (operationName u c).map (fun n => ⟨n, c.params, (c.subscribe.map Op.corr) == some true⟩)

/-- All entries, or a panic. -/
def entries (u : Uni) : List Chan → Option (List Entry)
  | [] => some []
  | c :: rest => match entry u c, entries u rest with
    | some e, some es => some (e :: es)
    | _, _ => none

/-- `isSubscribeChannel` (v2/controller.go:60-69). -/
def receives : Side → Chan → Bool
  | .app, c => c.publish.isSome
  | .user, c => c.subscribe.isSome

/-- `isPublishChannel` (v2/controller.go:71-80). -/
def sends : Side → Chan → Bool
  | .app, c => c.subscribe.isSome
  | .user, c => c.publish.isSome

/-- A method of the controller. -/
inductive Decl
  | wrap
  | exec
  | close
  | subAll
  | unsubAll
  | sub (n : Bytes)
  | listen (n : Bytes)
  | unsub (n : Bytes)
  | pub (n : Bytes)
  | wait (n : Bytes)
  | waitNext (n : Bytes)
  deriving DecidableEq, Repr

/-- Its name (v2/templates/controller.tmpl:31, 80, 95, 107, 124, 137, 189, 248-250, 276, 325, 379). -/
def Decl.name : Decl → Bytes
  | .wrap => lit "wrapMiddlewares"
  | .exec => lit "executeMiddlewares"
  | .close => lit "Close"
  | .subAll => lit "SubscribeAll"
  | .unsubAll => lit "UnsubscribeAll"
  | .sub n => lit "Subscribe" ++ n
  | .listen n => lit "listenTo" ++ n ++ lit "NextMessage"
  | .unsub n => lit "Unsubscribe" ++ n
  | .pub n => lit "Publish" ++ n
  | .wait n => lit "WaitFor" ++ n
  | .waitNext n => lit "waitFor" ++ n ++ lit "NextMessage"

/-- The functions on a request (v2/templates/controller.tmpl:316-439): for users only. -/
def waits : Side → List Entry → List Decl
  | .app, _ => []
  | .user, sub => (sub.filter Entry.corr).flatMap (fun e => [.wait e.name, .waitNext e.name])

/-- The methods, with the channels it receives from and sends to (v2/templates/controller.tmpl:31-439). The number of
methods is that of the channels it receives from (v2/controller.go:25-31, C53). -/
def decls (side : Side) (sub pub : List Entry) : List Decl :=
  [.wrap, .exec, .close] ++
  (if sub.length ≠ 0 then [.subAll, .unsubAll] else []) ++
  sub.flatMap (fun e => [.sub e.name, .listen e.name, .unsub e.name]) ++
  pub.map (fun e => .pub e.name) ++
  waits side sub

/-- The methods a method calls on its controller (v2/templates/controller.tmpl:98, 112-117, 125-129, 137-186, 189-242,
276-312, 325-376, 379-434). `SubscribeAll` and `UnsubscribeAll` leave out channels with parameters. -/
def calls (sub : List Entry) : Decl → List Decl
  | .close => if sub.length ≠ 0 then [.unsubAll] else []
  | .subAll => (sub.filter (fun e => !e.params)).map (fun e => .sub e.name)
  | .unsubAll => (sub.filter (fun e => !e.params)).map (fun e => .unsub e.name)
  | .sub n => [.listen n]
  | .listen _ => [.exec]
  | .pub _ => [.exec]
  | .wait n => [.waitNext n]
  | .waitNext _ => [.exec]
  | .exec => [.wrap]
  | .wrap => [.wrap]
  | .unsub _ => []

/-- The functions of the subscriber that `SubscribeAll` uses (v2/templates/controller.tmpl:114). -/
def handlersUsed (sub : List Entry) : List Bytes := (sub.filter (fun e => !e.params)).map Entry.name

/-- The functions of the interface (v2/templates/subscriber.tmpl:4-7, v2/subscriber.go:31-38). -/
def handlers (sub : List Entry) : List Bytes := sub.map Entry.name

/-- What is generated for one side of a document. -/
structure Code where
  methods : List Bytes
  called : List Bytes
  handlers : List Bytes
  handlersUsed : List Bytes
  deriving DecidableEq, Repr

/-- The code of one side (v2/controller.go:21-58 and the templates). -/
def code (u : Uni) (side : Side) (doc : List Chan) : Option Code :=
  match entries u (doc.filter (receives side)), entries u (doc.filter (sends side)) with
  | some sub, some pub =>
    some ⟨(decls side sub pub).map Decl.name, ((decls side sub pub).flatMap (calls sub)).map Decl.name,
      handlers sub, handlersUsed sub⟩
  | _, _ => none

end V2

namespace V3

/-- An operation of the document (pkg/asyncapi/v3/operation.go:31-49): its key, its action, whether its channel has
parameters and, if it has a reply, the name of the channel of that reply. Operations given by a reference have no action
of their own. -/
structure Op where
  key : Bytes
  action : Sides.V3.Action
  params : Bool
  reply : Option Bytes
  deriving DecidableEq, Repr

/-- An operation as the templates see it: its name, whether its channel has parameters, whether it has a reply. -/
structure Entry where
  name : Bytes
  params : Bool
  reply : Bool
  deriving DecidableEq, Repr

/-- The name of an operation (pkg/asyncapi/v3/operation.go:58, pkg/asyncapi/v3/specification.go:120-124), and
`namify $value.Follow.Name` in the templates. -/
def opName (u : Uni) (o : Op) : Option Bytes := (fullName u [] o.key (lit "Operation")).bind (namify u)

/-- The entry of a declared operation. -/
def declared (u : Uni) (o : Op) : Option Entry := (opName u o).map (fun n => ⟨n, o.params, o.reply.isSome⟩)

/-- The entry of the reply of an operation (pkg/asyncapi/v3/operation.go:170-183, `ReplyIs`): its name is `ReplyTo`
followed by that of the operation, it has no reply. Whether the reply channel has parameters is not needed here. -/
def replying (u : Uni) (o : Op) : Option Entry :=
  ((fullName u [] o.key (lit "Operation")).bind (fun n => namify u (lit "ReplyTo" ++ n))).map (fun n => ⟨n, false, false⟩)

/-- `isControllerReceiveOperation` (v3/controller.go:53-62). -/
def receives : Side → Op → Bool
  | .app, o => o.action = .receive
  | .user, o => o.action = .send

/-- `isControllerSendOperation` (v3/controller.go:64-73). -/
def sends : Side → Op → Bool
  | .app, o => o.action = .send
  | .user, o => o.action = .receive

/-- What a controller can send. -/
inductive Sent
  | declared (o : Op)
  | replyTo (o : Op)
  deriving DecidableEq, Repr

/-- One round of the loop of `NewActionOperations` (v3/common.go:33-49) on what is sent: a map whose keys are keys of
operations and names of reply channels (C54). -/
def sendStep (side : Side) (acc : GoMap Bytes Sent) (o : Op) : GoMap Bytes Sent :=
  let acc1 := if sends side o then acc.put o.key (.declared o) else acc
  match o.reply with
  | some ch => if receives side o then acc1.put ch (.replyTo o) else acc1
  | none => acc1

/-- What is sent, in the order of the loop (v3/common.go:33-49). -/
def sent (side : Side) (doc : List Op) : List Sent := (doc.foldl (sendStep side) []).map (·.2)

/-- The entry of what is sent. -/
def Sent.entry (u : Uni) : Sent → Option Entry
  | .declared o => V3.declared u o
  | .replyTo o => replying u o

/-- All entries, or a panic. -/
def entries {α : Type} (f : α → Option Entry) : List α → Option (List Entry)
  | [] => some []
  | a :: rest => match f a, entries f rest with
    | some e, some es => some (e :: es)
    | _, _ => none

/-- A method of the controller. -/
inductive Decl
  | wrap
  | exec
  | close
  | subAll
  | unsubAll
  | sub (n : Bytes)
  | listen (n : Bytes)
  | reply (n : Bytes)
  | unsub (n : Bytes)
  | send (n : Bytes)
  | request (n : Bytes)
  | waitNext (n : Bytes)
  deriving DecidableEq, Repr

/-- `Send…` of a side (v3/templates/controller.tmpl:323). -/
def sendWord : Side → Bytes
  | .app => lit "SendAs"
  | .user => lit "SendTo"

/-- `Request…` of a side (v3/templates/controller.tmpl:386). -/
def requestWord : Side → Bytes
  | .app => lit "RequestAs"
  | .user => lit "RequestTo"

/-- Its name (v3/templates/controller.tmpl:31, 80, 95, 108, 125, 143, 195, 254, 286, 323, 386, 458). -/
def Decl.name (side : Side) : Decl → Bytes
  | .wrap => lit "wrapMiddlewares"
  | .exec => lit "executeMiddlewares"
  | .close => lit "Close"
  | .subAll => lit "SubscribeToAllChannels"
  | .unsubAll => lit "UnsubscribeFromAllChannels"
  | .sub n => lit "SubscribeTo" ++ n
  | .listen n => lit "listenTo" ++ n ++ lit "NextMessage"
  | .reply n => lit "ReplyTo" ++ n
  | .unsub n => lit "UnsubscribeFrom" ++ n
  | .send n => sendWord side ++ n
  | .request n => requestWord side ++ n
  | .waitNext n => lit "waitFor" ++ n ++ lit "NextResponse"

/-- The methods for an operation it receives (v3/templates/controller.tmpl:134-312). -/
def recvDecls (e : Entry) : List Decl :=
  [.sub e.name, .listen e.name] ++ (if e.reply then [.reply e.name] else []) ++ [.unsub e.name]

/-- The methods for an operation it sends (v3/templates/controller.tmpl:314-529). -/
def sendDecls (e : Entry) : List Decl :=
  [.send e.name] ++ (if e.reply then [.request e.name, .waitNext e.name] else [])

/-- The methods (v3/templates/controller.tmpl:31-529). The count of the template is the number of operations it receives
(pkg/asyncapi/v3/specification.go:181-195, C53). -/
def decls (recv send : List Entry) : List Decl :=
  [.wrap, .exec, .close] ++
  (if recv.length ≠ 0 then [.subAll, .unsubAll] else []) ++
  recv.flatMap recvDecls ++ send.flatMap sendDecls

/-- The methods a method calls on its controller (v3/templates/controller.tmpl:98, 113-119, 126-130, 143-192, 195-248,
276-278, 323-372, 436, 444, 458-526). -/
def calls (recv : List Entry) : Decl → List Decl
  | .close => if recv.length ≠ 0 then [.unsubAll] else []
  | .subAll => (recv.filter (fun e => !e.params)).map (fun e => .sub e.name)
  | .unsubAll => (recv.filter (fun e => !e.params)).map (fun e => .unsub e.name)
  | .sub n => [.listen n]
  | .listen _ => [.exec]
  | .reply n => [.send (lit "ReplyTo" ++ n)]
  | .send _ => [.exec]
  | .request n => [.send n, .waitNext n]
  | .waitNext _ => [.exec]
  | .exec => [.wrap]
  | .wrap => [.wrap]
  | .unsub _ => []

/-- What is generated for one side of a document. -/
structure Code where
  methods : List Bytes
  called : List Bytes
  handlers : List Bytes
  handlersUsed : List Bytes
  deriving DecidableEq, Repr

/-- A function of the subscriber (v3/templates/subscriber.tmpl:6, v3/templates/controller.tmpl:115). -/
def handler (e : Entry) : Bytes := e.name ++ lit "Received"

/-- The code of one side (v3/controller.go:18-36, v3/common.go:17-52 and the templates). -/
def code (u : Uni) (side : Side) (doc : List Op) : Option Code :=
  match entries (declared u) (doc.filter (receives side)), entries (Sent.entry u) (sent side doc) with
  | some recv, some send =>
    some ⟨(decls recv send).map (Decl.name side), ((decls recv send).flatMap (calls recv)).map (Decl.name side),
      recv.map handler, (recv.filter (fun e => !e.params)).map handler⟩
  | _, _ => none

end V3

end Verif.Methods
