import Verif.Model.Idents

/-!
# What the generated file declares, with AsyncAPI v2

Models the names a generated file declares at the level of its package: those of pkg/codegen/generators/v2/templates/types.tmpl,
message.tmpl, schema_definition.tmpl, controller.tmpl and subscriber.tmpl. Not modelled: the types of what is nested in the
schemas of payloads, headers and components (their names are those of C69), alternatives of messages.
-/

namespace Verif.Idents.V2
open Naming (Uni Bytes namify namifyWithoutParams)
open Names (lit)

/-- Where a message is written: in an operation of a channel, whose name has a suffix if the channel has both operations,
or in the components. -/
inductive Src
  | op (channel suffix : Bytes)
  | comp (key : Bytes)
  deriving DecidableEq, Repr

/-- What comes before `Message` in the name of the message: the name of the operation (pkg/asyncapi/v2/channel.go:25, 37, 44,
operation.go:25, 32), or the key (components.go:27). -/
def Src.raw (u : Uni) : Src → Option Bytes
  | .op c suffix => (namify u c).bind (fun n => namify u (n ++ suffix))
  | .comp k => some k

/-- `Message.Name` (operation.go:36, components.go:27, message.go:61). -/
def Src.name (u : Uni) (s : Src) : Option Bytes := (s.raw u).bind (fun k => namify u (k ++ lit "Message"))

/-- One declaration. -/
inductive Decl
  | fixed (n : Bytes)
  | message (s : Src)
  | new (s : Src)
  | decode (s : Src)
  | payload (s : Src)
  | headers (s : Src)
  | schema (k : Bytes)
  | params (c : Bytes)
  | path (c : Bytes)
  deriving DecidableEq, Repr

/-- Its name: the type and the functions of a message (v2/templates/message.tmpl:19, 32, 45); payloads, headers and schemas
(pkg/asyncapi/v2/message.go:65, 123, components.go:20, schema.go:65, schema_definition.tmpl:11, 35); the parameters and the
path of a channel (types.tmpl:62, 94). `none` is a panic of `Namify`. -/
def Decl.name (u : Uni) : Decl → Option Bytes
  | .fixed n => some n
  | .message s => (s.name u).bind (namify u)
  | .new s => ((s.name u).bind (namify u)).map (lit "New" ++ ·)
  | .decode s => ((s.name u).bind (namify u)).map (lit "brokerMessageTo" ++ ·)
  | .payload s => ((s.name u).bind (fun n => namify u (n ++ lit "_Payload"))).bind (namify u)
  | .headers s => ((s.name u).bind (fun n => namify u (n ++ lit "_Headers"))).bind (namify u)
  | .schema k => (namify u (k ++ lit "_Schema")).bind (namify u)
  | .params c => ((namify u c).bind (namifyWithoutParams u)).map (· ++ lit "Parameters")
  | .path c => ((namify u c).bind (namifyWithoutParams u)).map (· ++ lit "Path")

/-- A message: whether its payload and its headers get a type of their own (message.tmpl:3-12). -/
structure Msg where
  payload : Bool
  headers : Bool
  deriving DecidableEq, Repr

/-- An operation: its message, if it is written there with a payload (types.tmpl:69-75); else it is a reference. -/
structure Op where
  message : Option Msg
  deriving DecidableEq, Repr

/-- A channel. -/
structure Chan where
  key : Bytes
  params : Bool := false
  subscribe : Option Op := none
  publish : Option Op := none
  deriving DecidableEq, Repr

/-- A document: whether each side receives, the channels, the messages and schemas of the components. -/
structure Doc where
  appReceives : Bool
  userReceives : Bool
  channels : List Chan
  messages : List (Bytes × Msg)
  schemas : List Bytes
  deriving Repr

/-- The message written in an operation. -/
def written (c : Bytes) (suffix : Bytes) : Option Op → List (Src × Msg)
  | some ⟨some m⟩ => [(.op c suffix, m)]
  | _ => []

/-- Those of a channel (channel.go:28-50). -/
def Chan.written (c : Chan) : List (Src × Msg) :=
  if c.subscribe.isSome && c.publish.isSome
  then V2.written c.key (lit "Subscribe") c.subscribe ++ V2.written c.key (lit "Publish") c.publish
  else V2.written c.key [] c.subscribe ++ V2.written c.key [] c.publish

/-- All messages with a type (types.tmpl:58-80). -/
def Doc.written (d : Doc) : List (Src × Msg) :=
  d.channels.flatMap Chan.written ++ d.messages.map (fun e => (.comp e.1, e.2))

/-- The declarations of a message (message.tmpl). -/
def ofMessage (e : Src × Msg) : List Decl :=
  (if e.2.headers then [.headers e.1] else []) ++ ((if e.2.payload then [.payload e.1] else []) ++
    [.message e.1, .new e.1, .decode e.1])

/-- One side (v2/templates/subscriber.tmpl:1-3, controller.tmpl:3, 8, 88, generator.go:69-95). -/
def side (p : Bytes) (receives : Bool) : List Decl :=
  (if receives then [.fixed (p ++ lit "Subscriber")] else []) ++
    [.fixed (p ++ lit "Controller"), .fixed (lit "New" ++ p ++ lit "Controller"), .fixed (lit "add" ++ p ++ lit "ContextValues")]

/-- The fixed part of the types (v2/templates/types.tmpl:1-56). -/
def fixedTypes : List Decl :=
  [.fixed (lit "AsyncAPIVersion"), .fixed (lit "controller"), .fixed (lit "ControllerOption"), .fixed (lit "WithLogger"),
    .fixed (lit "WithMiddlewares"), .fixed (lit "WithErrorHandler"), .fixed (lit "MessageWithCorrelationID"), .fixed (lit "Error")]

/-- What comes from the types part (v2/templates/types.tmpl). The template writes the parameters and messages of one channel
after the other; here all parameters come first. -/
def ofTypes (d : Doc) : List Decl :=
  fixedTypes ++ ((if d.channels = [] then [] else [.fixed (lit "ChannelsPaths")]) ++
    ((d.channels.filter Chan.params).map (fun c => .params c.key) ++ (d.written.flatMap ofMessage ++
      (d.schemas.map .schema ++ d.channels.map (fun c => .path c.key)))))

/-- The whole file (v2/generator.go:21-50). -/
def decls (o : Cli.Opts) (d : Doc) : List Decl :=
  (if o.application then side (lit "App") d.appReceives else []) ++ ((if o.user then side (lit "User") d.userReceives else []) ++
    if o.types then ofTypes d else [])

/-- All names, or a panic. -/
def names (u : Uni) : List Decl → Option (List Bytes)
  | [] => some []
  | d :: ds => match d.name u, names u ds with
    | some n, some l => some (n :: l)
    | _, _ => none

/-- The identifiers of the file. -/
def idents (u : Uni) (o : Cli.Opts) (d : Doc) : Option (List Bytes) := names u (decls o d)

end Verif.Idents.V2
