import Verif.Model.Names
import Verif.Model.Cli

/-!
# What the generated file declares

Models the names a generated file declares at the level of its package, with AsyncAPI v3: those of
pkg/codegen/generators/v3/templates/types.tmpl, message.tmpl, schema_definition.tmpl, controller.tmpl and subscriber.tmpl.
For v2, the names that come with a message (v2/templates/message.tmpl). Methods are not part of the package level
(C91). Which places of a document get a type is left open here: it is a list (see `Verif.Model.Types` for one answer).
-/

namespace Verif.Idents
open Naming (Uni Bytes namify namifyWithoutParams)
open Names (lit Root Step docName chanName messageName)

/-- One declaration. -/
inductive Decl
  | fixed (n : Bytes)
  | type (r : Root) (ps : List Step)
  | new (c : Option Bytes) (m : Bytes)
  | decode (c : Option Bytes) (m : Bytes)
  | params (c : Bytes)
  | path (c : Bytes)
  deriving DecidableEq, Repr

/-- Its name: types through `namify .Name` (v3/templates/message.tmpl:28, schema_definition.tmpl:11, 35), the functions of
a message (message.tmpl:41, 54), the parameters (types.tmpl:63) and the path (types.tmpl:91) of a channel. `none` is a
panic of `Namify`. -/
def Decl.name (u : Uni) : Decl → Option Bytes
  | .fixed n => some n
  | .type r ps => (docName u r ps).bind (namify u)
  | .new c m => ((messageName u m c).bind (namify u)).map (lit "New" ++ ·)
  | .decode c m => ((messageName u m c).bind (namify u)).map (lit "brokerMessageTo" ++ ·)
  | .params c => ((chanName u c).bind (namifyWithoutParams u)).map (· ++ lit "Parameters")
  | .path c => ((chanName u c).bind (namifyWithoutParams u)).map (· ++ lit "Path")

/-- A channel of the document: its key, the key of the channel it refers to, and whether it has
parameters of its own (pkg/asyncapi/v3/channel.go:22-41). -/
structure Chan where
  key : Bytes
  ref : Option Bytes := none
  params : Bool := false
  deriving DecidableEq, Repr

/-- The key behind `Follow().Name` (pkg/asyncapi/v3/channel.go:147-153): a channel of the components is named like one of
the document (v3/components.go:109-114). -/
def Chan.follow (c : Chan) : Bytes :=
  match c.ref with
  | some k => k
  | none => c.key

/-- What the templates declare: whether each side receives, the channels, the places with a type. -/
structure Doc where
  appReceives : Bool
  userReceives : Bool
  channels : List Chan
  types : List (Root × List Step)
  deriving Repr

/-- One side: v3/templates/subscriber.tmpl:1-3 and controller.tmpl:3, 8, 88; the subscriber comes first
(pkg/codegen/generators/v3/generator.go:70-94). -/
def side (p : Bytes) (receives : Bool) : List Decl :=
  (if receives then [.fixed (p ++ lit "Subscriber")] else []) ++
    [.fixed (p ++ lit "Controller"), .fixed (lit "New" ++ p ++ lit "Controller"), .fixed (lit "add" ++ p ++ lit "ContextValues")]

/-- The fixed part of the types (v3/templates/types.tmpl:2-56). -/
def fixedTypes : List Decl :=
  [.fixed (lit "AsyncAPIVersion"), .fixed (lit "controller"), .fixed (lit "ControllerOption"), .fixed (lit "WithLogger"),
    .fixed (lit "WithMiddlewares"), .fixed (lit "WithErrorHandler"), .fixed (lit "MessageWithCorrelationID"), .fixed (lit "Error")]

/-- A place: its type, and with a message the functions that make and decode it (v3/templates/message.tmpl:28, 41, 54). -/
def ofPlace : Root × List Step → List Decl
  | (.message c m, []) => [.type (.message c m) [], .new c m, .decode c m]
  | (r, ps) => [.type r ps]

/-- What comes from the types part (v3/templates/types.tmpl). The template writes the parameters and messages of one channel
after the other; here all parameters come first. -/
def ofTypes (d : Doc) : List Decl :=
  fixedTypes ++ ((d.channels.filter Chan.params).map (fun c => .params c.key) ++ (d.types.flatMap ofPlace ++
    (d.channels.map (fun c => .path c.follow) ++ if d.channels = [] then [] else [.fixed (lit "ChannelsPaths")])))

/-- The whole file (pkg/codegen/generators/v3/generator.go:21-50). -/
def decls (o : Cli.Opts) (d : Doc) : List Decl :=
  (if o.application then side (lit "App") d.appReceives else []) ++ ((if o.user then side (lit "User") d.userReceives else []) ++
    if o.types then ofTypes d else [])

/-- All names, or a panic. -/
def names (u : Uni) : List Decl → Option (List Bytes)
  | [] => some []
  | d :: ds => match d.name u, names u ds with
    | some n, some l => some (n :: l)
    | _, _ => none

/-- The identifiers of the file. -/
def idents (u : Uni) (o : Cli.Opts) (d : Doc) : Option (List Bytes) := names u (decls o d)

namespace V2

/-- The name of a message (pkg/asyncapi/v2/components.go:27, operation.go:36, message.go:60): a key of the components or the
name of an operation. -/
def messageName (u : Uni) (k : Bytes) : Option Bytes := (namify u (k ++ lit "Message")).bind (namify u)

/-- The names declared with a message (v2/templates/message.tmpl:19, 32, 45). -/
def messageNames (u : Uni) (k : Bytes) : Option (List Bytes) :=
  (messageName u k).map (fun n => [n, lit "New" ++ n, lit "brokerMessageTo" ++ n])

/-- The names declared with some messages. -/
def messagesNames (u : Uni) : List Bytes → Option (List Bytes)
  | [] => some []
  | k :: ks => match messageNames u k, messagesNames u ks with
    | some l, some r => some (l ++ r)
    | _, _ => none

end V2

end Verif.Idents
