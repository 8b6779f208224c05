import Verif.Model.Walk

/-! # The references of a document -/

namespace Verif.Walk

/-- The members of a v3 document that hold elements, with the kind of these elements, as the Go structs declare them
(the fields of v3/specification.go:27-34, info.go:9-18, components.go:9-27, server.go:9-21, tag.go:9-12, channel.go:26-36,
message.go:40-54, message_trait.go:9-21, schema.go:33-57, operation.go:29-41, operation_trait.go:9-16,
operation_reply.go:9-12). -/
def fields3 : Kind → List (String × Kind)
  | .spec => [("info", .info), ("servers", .server), ("channels", .channel), ("operations", .operation),
      ("components", .components)]
  | .info => [("tags", .tag), ("externalDocs", .externalDocs)]
  | .components => [("schemas", .schema), ("servers", .server), ("channels", .channel), ("operations", .operation),
      ("messages", .message), ("securitySchemes", .securityScheme), ("serverVariables", .serverVariable),
      ("parameters", .parameter), ("correlationIds", .correlationID), ("replies", .reply), ("replyAddresses", .replyAddress),
      ("externalDocs", .externalDocs), ("tags", .tag), ("operationTraits", .operationTrait),
      ("messageTraits", .messageTrait), ("serverBindings", .serverBindings), ("channelBindings", .channelBindings),
      ("operationBindings", .operationBindings), ("messageBindings", .messageBindings)]
  | .server => [("variables", .serverVariable), ("security", .securityScheme), ("tags", .tag), ("externalDocs", .externalDocs),
      ("bindings", .serverBindings)]
  | .tag => [("externalDocs", .externalDocs)]
  | .channel => [("messages", .message), ("servers", .server), ("parameters", .parameter), ("tags", .tag),
      ("externalDocs", .externalDocs), ("bindings", .channelBindings)]
  | .message => [("headers", .schema), ("payload", .schema), ("oneOf", .message), ("correlationId", .correlationID),
      ("tags", .tag), ("externalDocs", .externalDocs), ("bindings", .messageBindings), ("examples", .messageExample),
      ("traits", .messageTrait)]
  | .messageTrait => [("headers", .schema), ("payload", .schema), ("correlationId", .correlationID), ("tags", .tag),
      ("externalDocs", .externalDocs), ("bindings", .messageBindings), ("examples", .messageExample)]
  | .schema => [("properties", .schema), ("patternProperties", .schema), ("additionalProperties", .schema),
      ("additionalItems", .schema), ("items", .schema), ("contains", .schema), ("allOf", .schema), ("anyOf", .schema),
      ("oneOf", .schema), ("not", .schema)]
  | .operation => [("channel", .channel), ("security", .securityScheme), ("tags", .tag), ("externalDocs", .externalDocs),
      ("bindings", .operationBindings), ("traits", .operationTrait), ("messages", .message), ("reply", .reply)]
  | .operationTrait => [("security", .securityScheme), ("tags", .tag), ("externalDocs", .externalDocs),
      ("bindings", .operationBindings)]
  | .reply => [("address", .replyAddress), ("channel", .channel), ("messages", .message)]
  | _ => []

/-- The same for v2 (v2/specification.go:27-32, components.go:9-11, channel.go:11-14, operation.go:15-16, parameter.go:11-14,
message.go:39-44, schema.go:33-39, asyncapi/schema.go:23-25). -/
def fields2 : Kind → List (String × Kind)
  | .spec => [("channels", .channel), ("components", .components)]
  | .components => [("messages", .message), ("schemas", .schema), ("parameters", .parameter)]
  | .channel => [("parameters", .parameter), ("subscribe", .operation), ("publish", .operation)]
  | .operation => [("message", .message)]
  | .message => [("headers", .schema), ("oneOf", .message), ("payload", .schema)]
  | .schema => [("properties", .schema), ("items", .schema), ("additionalProperties", .schema), ("allOf", .schema),
      ("anyOf", .schema), ("oneOf", .schema)]
  | _ => []

/-- The kinds that can be a reference: all but the document, its information and its components; in v2 only messages,
schemas and parameters. -/
def refs3 : Kind → Bool
  | .spec | .info | .components => false
  | _ => true

def refs2 : Kind → Bool
  | .message | .schema | .parameter => true
  | _ => false

/-- A tree that follows the Go structs. -/
inductive WF (fields : Kind → List (String × Kind)) (refs : Kind → Bool) : Node → Prop
  | mk {k : Kind} {id : Nat} {ref loc : String} {kids : List (String × Node)}
      (shape : ∀ l m, (l, m) ∈ kids → (l, m.kind) ∈ fields k)
      (noRef : refs k = false → ref = "")
      (all : ∀ l m, (l, m) ∈ kids → WF fields refs m) : WF fields refs (.mk k id ref loc kids)

/-- `Within op n op' x`: `x` is `n` or is below `n`, where members in `skip` are not entered. `op` and `op'` are the
operations around `n` and `x`: an operation is around its reply, and no operation is around components. -/
inductive Within (skip : Kind → String → Prop) : Option Nat → Node → Option Nat → Node → Prop
  | here (op : Option Nat) (n : Node) : Within skip op n op n
  | inside {op op' : Option Nat} {k : Kind} {id : Nat} {ref loc : String} {kids : List (String × Node)} {l : String}
      {m x : Node} : (l, m) ∈ kids → ¬ skip k l →
      Within skip (if k = .operation then some id else if k = .components then none else op) m op' x →
      Within skip op (.mk k id ref loc kids) op' x

/-- Nothing is skipped. -/
def noSkip : Kind → String → Prop := fun _ _ => False

/-- What v3 does not look at: the correlation IDs of messages and message traits, the tags of operations. -/
def missed : Kind → String → Prop := fun k l =>
  (k = .message ∧ l = "correlationId") ∨ (k = .messageTrait ∧ l = "correlationId") ∨ (k = .operation ∧ l = "tags")

/-- Two trees that differ in the order of members only (the order in which Go iterates over maps). -/
inductive Reordered : Node → Node → Prop
  | mk {k : Kind} {id : Nat} {ref loc : String} {kids kids' kids'' : List (String × Node)} (perm : kids.Perm kids')
      (labels : kids'.map (·.1) = kids''.map (·.1)) (all : ∀ p ∈ kids'.zip kids'', Reordered p.1.2 p.2.2) :
      Reordered (.mk k id ref loc kids) (.mk k id ref loc kids'')

end Verif.Walk
