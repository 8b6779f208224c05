import Verif.Model.Refs

/-!
# Resolving the references of a whole document

Models the `setDependencies` methods of pkg/asyncapi/v3 (and v2): which elements of a document they visit, in which order,
with which function they resolve the reference of an element, and where they stop. A document is a tree of elements
labelled with the JSON member they come from. What merging (`MergeWith`, `ApplyTrait`) adds is not modelled: it adds
elements of the document a second time, and resolves references already resolved.
-/

namespace Verif.Walk

/-- The Go structs of a document. -/
inductive Kind
  | spec | info | components | server | serverVariable | securityScheme | tag | externalDocs | serverBindings
  | channel | channelBindings | parameter | message | messageExample | messageBindings | messageTrait | correlationID
  | schema | operation | operationTrait | operationBindings | reply | replyAddress
  deriving DecidableEq, Repr

/-- An element: its kind, its identity (the Go pointer), its `$ref` (empty if none), its `location` (reply addresses and
correlation IDs) and its children with the JSON member that holds them. A member that holds a map or an array gives several
children, in the order Go iterates over it. -/
inductive Node
  | mk (kind : Kind) (id : Nat) (ref : String) (loc : String) (kids : List (String × Node))

def Node.kind : Node → Kind
  | .mk k _ _ _ _ => k
def Node.id : Node → Nat
  | .mk _ i _ _ _ => i
def Node.ref : Node → String
  | .mk _ _ r _ _ => r
def Node.loc : Node → String
  | .mk _ _ _ l _ => l
def Node.kids : Node → List (String × Node)
  | .mk _ _ _ _ ks => ks

/-- How a method or a whole run ends. -/
inductive Status
  | ok
  | error
  | panic
  deriving DecidableEq, Repr

/-- What a `ReferenceX` function returns. -/
inductive Look (τ : Type)
  | found (t : τ)
  | error
  | panic

/-- What happened: the `ReferenceTo` fields set so far, and how it ended. -/
structure Out (τ : Type) where
  log : List (Nat × τ)
  status : Status

/-- Doing nothing. -/
def Out.nil {τ : Type} : Out τ := ⟨[], .ok⟩

/-- One thing after the other, unless the first fails (`if err := …; err != nil { return err }`). -/
def Out.seq {τ : Type} (a b : Out τ) : Out τ :=
  match a.status with
  | .ok => ⟨a.log ++ b.log, b.status⟩
  | _ => a

/-- The outside: `ReferenceX` for each kind `X`, and the search of a location in the message of an operation
(`isLocationRequired`, v3/operation_reply_address.go:61-74, for an operation that has a channel or messages). -/
structure Env (τ : Type) where
  lookup : Kind → String → Look τ
  located : Nat → String → Status

/-- The steps of a `setDependencies` method. -/
inductive Step
  /-- resolve the reference of the element with the function of this kind -/
  | ref (k : Kind)
  /-- visit the children of this member -/
  | kids (label : String)
  /-- `isLocationRequired` -/
  | location
  /-- `generateReply` -/
  | reply
  deriving DecidableEq, Repr

/-- The `setDependencies` methods of v3, as lists of steps:
specification.go:132-177 (after the dependencies, see `process`), info.go:40-59, components.go:67-100 and 196-310,
server.go:60-119, server_variable.go:33-49, security_scheme.go:64-80, tag.go:34-55, external_documentation.go:36-52,
server_bindings.go:48-64, channel.go:84-145, channel_bindings.go:46-62, parameter.go:31-47,
message.go:116-178 (with 186-194, 202-210, 230-236, 248-262, 274-285), message_example.go:32-48,
message_bindings.go:48-64, message_trait.go:75-135, correlation_id.go:31-47 (which resolves a channel),
schema.go:163-293, operation.go:87-168, operation_trait.go:52-88, operation_bindings.go:48-64,
operation_reply.go:37-70, operation_reply_address.go:36-59. -/
def v3 : Kind → List Step
  | .spec => [.kids "components", .kids "info", .kids "servers", .kids "channels", .kids "operations"]
  | .info => [.kids "tags", .kids "externalDocs"]
  | .components => [.kids "schemas", .kids "servers", .kids "channels", .kids "operations", .kids "messages",
      .kids "securitySchemes", .kids "serverVariables", .kids "parameters", .kids "correlationIds", .kids "externalDocs",
      .kids "tags", .kids "operationTraits", .kids "messageTraits", .kids "serverBindings", .kids "channelBindings",
      .kids "operationBindings", .kids "messageBindings", .kids "replies", .kids "replyAddresses"]
  | .server => [.ref .server, .kids "variables", .kids "security", .kids "tags", .kids "externalDocs", .kids "bindings"]
  | .serverVariable => [.ref .serverVariable]
  | .securityScheme => [.ref .securityScheme]
  | .tag => [.kids "externalDocs", .ref .tag]
  | .externalDocs => [.ref .externalDocs]
  | .serverBindings => [.ref .serverBindings]
  | .channel => [.ref .channel, .kids "messages", .kids "servers", .kids "parameters", .kids "tags", .kids "externalDocs",
      .kids "bindings"]
  | .channelBindings => [.ref .channelBindings]
  | .parameter => [.ref .parameter]
  | .message => [.ref .message, .kids "payload", .kids "headers", .kids "oneOf", .kids "tags", .kids "externalDocs",
      .kids "bindings", .kids "examples", .kids "traits"]
  | .messageExample => [.ref .messageExample]
  | .messageBindings => [.ref .messageBindings]
  | .messageTrait => [.ref .messageTrait, .kids "headers", .kids "payload", .kids "tags", .kids "externalDocs",
      .kids "bindings", .kids "examples"]
  | .correlationID => [.ref .channel]
  | .schema => [.ref .schema, .kids "properties", .kids "patternProperties", .kids "additionalProperties",
      .kids "additionalItems", .kids "items", .kids "contains", .kids "anyOf", .kids "oneOf", .kids "allOf", .kids "not"]
  | .operation => [.ref .operation, .kids "channel", .kids "security", .kids "externalDocs", .kids "bindings", .kids "traits",
      .kids "messages", .kids "reply", .reply]
  | .operationTrait => [.ref .operationTrait, .kids "security", .kids "externalDocs", .kids "tags", .kids "bindings"]
  | .operationBindings => [.ref .operationBindings]
  | .reply => [.ref .reply, .kids "channel", .kids "messages", .kids "address"]
  | .replyAddress => [.ref .replyAddress, .location]

/-- The `setDependencies` methods of v2, as lists of steps: specification.go:94-109, channel.go:58-81, operation.go:40-43,
parameter.go:29-40, components.go:41-64, message.go:85-114 (with 130-147, 175-188), schema.go:118-160 (with 175-183,
195-203, 215-229, 241-255, 267-281, 293-301). The kinds v2 does not have get no step. The error for headers that are not an
object (message.go:139-144) is left out. -/
def v2 : Kind → List Step
  | .spec => [.kids "channels", .kids "components"]
  | .components => [.kids "schemas", .kids "messages", .kids "parameters"]
  | .channel => [.kids "subscribe", .kids "publish", .kids "parameters"]
  | .operation => [.kids "message"]
  | .parameter => [.ref .parameter]
  | .message => [.kids "payload", .ref .message, .kids "headers", .kids "oneOf"]
  | .schema => [.ref .schema, .kids "properties", .kids "items", .kids "anyOf", .kids "oneOf", .kids "allOf",
      .kids "additionalProperties"]
  | _ => []

/-- Resolving a reference (e.g. v3/channel.go:132-145). -/
def resolveRef {τ : Type} (env : Env τ) (k : Kind) (id : Nat) (ref : String) : Out τ :=
  if ref = "" then .nil
  else match env.lookup k ref with
    | .found t => ⟨[(id, t)], .ok⟩
    | .error => ⟨[], .error⟩
    | .panic => ⟨[], .panic⟩

/-- `isLocationRequired(op)` (v3/operation_reply_address.go:61-74). For the replies and reply addresses of the components,
`op` is `&Operation{}` (v3/components.go:84-97), whose nil channel is dereferenced. -/
def location {τ : Type} (env : Env τ) (op : Option Nat) (loc : String) : Out τ :=
  if loc = "" then .nil
  else match op with
    | none => ⟨[], .panic⟩
    | some i => ⟨[], env.located i loc⟩

/-- `op.Reply.Channel` of the operation is nil (v3/operation.go:177). -/
def replyWithoutChannel (kids : List (String × Node)) : Bool :=
  kids.any (fun e => e.1 == "reply" && !(e.2.kids.any (fun f => f.1 == "channel")))

/-- `generateReply` (v3/operation.go:170-184): `Follow` on a nil channel panics. -/
def generateReply {τ : Type} (kids : List (String × Node)) : Out τ :=
  ⟨[], if replyWithoutChannel kids then .panic else .ok⟩

/-- The operation given to the `setDependencies` of replies and their addresses. -/
def opFor (k : Kind) (id : Nat) (op : Option Nat) : Option Nat :=
  match k with
  | .operation => some id
  | .components => none
  | _ => op

/-- The visits of the children of one member, in order. -/
def runKids {τ : Type} (label : String) (rs : List (String × Out τ)) : Out τ :=
  rs.foldr (fun e acc => if e.1 = label then e.2.seq acc else acc) .nil

/-- One step; `rs` holds what visiting each child does. -/
def runStep {τ : Type} (env : Env τ) (op : Option Nat) (n : Node) (rs : List (String × Out τ)) : Step → Out τ
  | .ref k => resolveRef env k n.id n.ref
  | .kids l => runKids l rs
  | .location => location env op n.loc
  | .reply => generateReply n.kids

/-- The steps of a method, in order. -/
def runSteps {τ : Type} (env : Env τ) (op : Option Nat) (n : Node) (rs : List (String × Out τ)) (steps : List Step) : Out τ :=
  steps.foldr (fun s acc => (runStep env op n rs s).seq acc) .nil

mutual
/-- `setDependencies` of an element: the steps of its kind (`table`). -/
def visit {τ : Type} (table : Kind → List Step) (env : Env τ) (op : Option Nat) : Node → Out τ
  | .mk k id ref loc kids =>
    runSteps env op (.mk k id ref loc kids) (visitAll table env (opFor k id op) kids) (table k)
/-- `setDependencies` of each child. -/
def visitAll {τ : Type} (table : Kind → List Step) (env : Env τ) (op : Option Nat) :
    List (String × Node) → List (String × Out τ)
  | [] => []
  | (l, n) :: rest => (l, visit table env op n) :: visitAll table env op rest
end

/-- `setDependencies` of a document and of the files given as dependencies, which come first (v3/specification.go:139-143,
v2/specification.go:96-100) and are resolved in their own file (they have no dependencies themselves, as `FromFile` only
gives dependencies to the main document: pkg/codegen/codegen.go:40-54). -/
def process {τ : Type} (table : Kind → List Step) : List (Env τ × Node) → Out τ
  | [] => .nil
  | (env, doc) :: rest => (visit table env none doc).seq (process table rest)

end Verif.Walk
