import Verif.Base.GoMap
import Verif.Base.Str
import Verif.Model.Dedup

/-!
# Creating the correlation ID property (pkg/asyncapi/v3/message.go:282-383, pkg/asyncapi/v2/message.go:195-304)

The two versions have the same code. It runs in `generateMetadata`, before references are resolved
(`ReferenceTo` is nil then), so the case `(*placeholder).ReferenceTo != nil` (v3/message.go:337) is never taken
and is not modelled; schemas are trees.
-/

namespace Verif.CorrTree

/-- The data of a schema besides its properties: its type, its required names, its `$ref`. -/
structure Info where
  type : Str
  required : List Str
  ref : Option Nat
  deriving DecidableEq, Repr

/-- A schema. -/
inductive Tree
  | node (info : Info) (props : List (Str × Tree))

def Tree.info : Tree → Info
  | .node i _ => i

def Tree.props : Tree → GoMap Str Tree
  | .node _ p => p

/-- `SchemaTypeIsString`, `SchemaTypeIsObject`, `MessageFieldIsHeader` as they print. -/
def tyString : Str := ['s', 't', 'r', 'i', 'n', 'g']
def tyObject : Str := ['o', 'b', 'j', 'e', 'c', 't']
def tyHeader : Str := ['h', 'e', 'a', 'd', 'e', 'r']

/-- `NewSchema()` with a type (v3/schema.go:69-76). -/
def newSchema (type : Str) : Tree := .node ⟨type, [], none⟩ []

/-- The loop of `downToLocation` (v3/message.go:358-380): the schema with what is missing on the path. -/
def down : Tree → List Str → Tree
  | t, [] => t
  | t, v :: rest =>
    let child := match t.props.get v with
      | some c => c
      | none => newSchema (if rest = [] then tyString else tyHeader)
    .node t.info (t.props.put v (down child rest))

/-- What `downToLocation` returns (v3/message.go:354-383), after the tree has been created: the parent of the
last element; `none` is nil, when the path is empty. -/
def parentOf : Tree → List Str → Option Tree
  | _, [] => none
  | t, [_] => some t
  | t, v :: w :: rest =>
    match t.props.get v with
    | some c => parentOf c (w :: rest)
    | none => none

/-- The message. -/
structure Msg where
  headers : Option Tree
  payload : Option Tree

/-- Where a location leads (v3/message.go:305-323). -/
inductive Field
  | header
  | payload
  | nowhere
  deriving DecidableEq, Repr

def headerPrefix : Str := ['$', 'm', 'e', 's', 's', 'a', 'g', 'e', '.', 'h', 'e', 'a', 'd', 'e', 'r', '#']
def payloadPrefix : Str := ['$', 'm', 'e', 's', 's', 'a', 'g', 'e', '.', 'p', 'a', 'y', 'l', 'o', 'a', 'd', '#']

/-- The prefix tests of `createTreeUntilLocation` (v3/message.go:305-323) -/
def fieldOf (location : Str) : Field :=
  if location = [] then .nowhere
  else if headerPrefix.isPrefixOf location then .header
  else if payloadPrefix.isPrefixOf location then .payload
  else .nowhere

/-- `strings.Split(location, "/")[1:]` (v3/message.go:357-358) -/
def pathOf (location : Str) : List Str := (Str.split '/' location).tail

/-- The top-level schema, created if missing (v3/message.go:334-348). -/
def placeholder : Option Tree → Tree
  | some t => t
  | none => newSchema tyObject

/-- `createTreeUntilLocation` (v3/message.go:305-352) -/
def createTree (msg : Msg) (location : Str) : Msg :=
  match fieldOf location with
  | .header => { msg with headers := some (down (placeholder msg.headers) (pathOf location)) }
  | .payload => { msg with payload := some (down (placeholder msg.payload) (pathOf location)) }
  | .nowhere => msg

/-- The outcome of `isCorrelationIDRequired`. -/
inductive Outcome
  | ok (required : Bool)
  | panic
  deriving DecidableEq, Repr

/-- The schema a location is looked up in. -/
def top (msg : Msg) : Field → Option Tree
  | .header => msg.headers
  | .payload => msg.payload
  | .nowhere => some (newSchema [])

/-- `isCorrelationIDRequired` on the message whose tree has been created (v3/message.go:287-295): a nil parent
is dereferenced. With a location that is neither in the headers nor in the payload the parent is a new schema
(v3/message.go:322). -/
def isRequired (msg : Msg) (location : Str) : Outcome :=
  match fieldOf location with
  | .nowhere => .ok false
  | f =>
    match top msg f with
    | none => .panic   -- not reached after `createTree`
    | some t =>
      match parentOf t (pathOf location), (Str.split '/' location).getLast? with
      | some p, some last => .ok (Dedup.isInSlice p.info.required last)
      | _, _ => .panic

/-- The correlation ID part of `generateMetadata` (v3/message.go:109-110). -/
def generate (msg : Msg) (location : Str) : Msg × Outcome :=
  let msg' := createTree msg location
  (msg', isRequired msg' location)

end Verif.CorrTree
