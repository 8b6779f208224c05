import Verif.Model.Names

/-!
# Messages that take over the headers of a trait (pkg/asyncapi/v3/message.go:566-603)

A message without headers takes those of its trait: the schema at the top is copied, and names are generated again below the
copy. What is below is reached through pointers, which the copy shares with the trait and with the other messages that use
it. Schemas therefore have addresses, and names are in a store.

Simplifications: only properties, items and additional properties (as in `Verif.Names`); the trait has no reference below
its headers; the payload, which is taken over in the same way (message.go:586-603), is not repeated.
-/

namespace Verif.Shared
open Naming (Uni Bytes)
open Names (Step stepName fullName messageName lit)

/-- What the `type` of a schema says, as far as declarations go (v3/templates/helpers.go:29-38). -/
inductive Kind
  | object
  | array
  | other
  deriving DecidableEq, Repr

/-- What is below a schema: its children, each with the address of its structure, and what is below it. This is what
`json.Unmarshal` builds for `Properties`, `Items` and `AdditionalProperties` (v3/schema.go:20-58). -/
inductive Below
  | nil
  | cons (step : Step) (addr : Nat) (kind : Kind) (below rest : Below)

/-- The `Name` of every schema (v3/schema.go:60). -/
abbrev Store := Nat → Bytes

/-- `s.Name = …` (v3/schema.go:92). -/
def Store.set (h : Store) (a : Nat) (n : Bytes) : Store := fun q => if q = a then n else h q

/-- `generateMetadata` on the children of a schema called `parent` (v3/schema.go:94-126), in any order the list stands for.
`none` is the panic of the naming function. -/
def nameBelow (u : Uni) (parent : Bytes) : Below → Store → Option Store
  | .nil, h => some h
  | .cons s a _ b rest, h =>
    match stepName u parent s with
    | none => none
    | some n =>
      match nameBelow u n b (h.set a n) with
      | none => none
      | some h' => nameBelow u parent rest h'

/-- A message that takes over headers: its channel, when it is not of the components, its key, and the address of its copy
of the top schema (`&newHeaders`, v3/message.go:574-575). -/
structure Msg where
  chan : Option Bytes
  key : Bytes
  top : Nat
  deriving DecidableEq, Repr

/-- `mergeHeaders` for a message without headers (v3/message.go:573-580): the copy shares what is below the headers of the
trait. -/
def takeHeaders (u : Uni) (b : Below) (m : Msg) (h : Store) : Option Store :=
  match messageName u m.key m.chan with
  | none => none
  | some mn =>
    match fullName u mn (lit "Headers") [] with
    | none => none
    | some n => nameBelow u n b (h.set m.top n)

/-- The messages are processed one after the other (v3/components.go:165-175 and v3/channel.go, over maps: in any order). -/
def takeAll (u : Uni) (b : Below) : List Msg → Store → Option Store
  | [], h => some h
  | m :: ms, h =>
    match takeHeaders u b m h with
    | none => none
    | some h' => takeAll u b ms h'

/-- The types declared below a schema: its children that are objects, or arrays of objects, and what is declared below them
(v3/templates/helpers.go:17-41, schema_definition.tmpl). `inArray` looks for the items of an array only. -/
def declsBelow (h : Store) (inArray : Bool) : Below → List Bytes
  | .nil => []
  | .cons s a k b rest =>
    (if inArray && s ≠ .item then []
     else match k with
      | .object => h a :: declsBelow h false b
      | .array => if inArray then [] else declsBelow h true b
      | .other => []) ++ declsBelow h inArray rest

/-- The types declared for the headers of a message (v3/templates/message.tmpl:12-14). -/
def declsMsg (h : Store) (b : Below) (m : Msg) : List Bytes := h m.top :: declsBelow h false b

/-- The types declared for the headers of all messages, in the order of the file. -/
def declsAll (h : Store) (b : Below) (ms : List Msg) : List Bytes := ms.flatMap (declsMsg h b)

end Verif.Shared
