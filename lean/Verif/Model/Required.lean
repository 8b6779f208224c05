import Verif.Model.Process
import Verif.Model.Validations

/-!
# Which properties are required (pkg/asyncapi/v3/schema.go:81-167, pkg/asyncapi/v2/schema.go:64-104)

`generateMetadata` marks the schema of each property that its parent requires; processing (`Process`) copies marks along
references and merges the lists of required names; the templates look at both.

Simplification: no `x-omitempty`, no `--force-pointers`.
-/

namespace Verif.Required

open SchemaMerge (Ref Sch Heap)

/-- A schema of the document with the schemas written in it; properties and pattern properties come with their names. -/
inductive Node
  | mk (id : Nat) (kids : List (Option Str × Node))

/-- The schema itself (v3/schema.go:26, `type Schema`). -/
def Node.id : Node → Nat
  | .mk i _ => i

/-- The schemas written in it (v3/schema.go:38-48, the fields of type `*Schema` and their maps and lists). -/
def Node.kids : Node → List (Option Str × Node)
  | .mk _ ks => ks

/-- The last argument of the nested calls (v3/schema.go:96, 103; `false` for the others, v3/schema.go:110-157). -/
def wanted (required : List Str) : Option Str → Bool
  | some n => Dedup.isInSlice required n
  | none => false

mutual
/-- `generateMetadata` (v3/schema.go:84-167, v2/schema.go:64-104), the part about `IsRequired`: the children first. -/
def mark (h : Heap) : Node → Bool → Heap
  | .mk id kids, isRequired =>
    let h1 := markAll h (h id).required kids
    h1.set id { h1 id with isRequired := isRequired }
/-- The loops over the children (v3/schema.go:94-159). -/
def markAll (h : Heap) (required : List Str) : List (Option Str × Node) → Heap
  | [] => h
  | (o, c) :: rest => markAll (mark h c (wanted required o)) required rest
end

/-- The schemas that are not written in another one: those of the components, payloads, headers
(v3/components.go:40-44, message.go:77, 217). -/
def markRoots (h : Heap) : List Node → Heap
  | [] => h
  | n :: ns => markRoots (mark h n false) ns

/-- What is written for a property (schema_definition.tmpl:18): a pointer or not, with `omitempty` or not. -/
structure Field where
  pointer : Bool
  omitempty : Bool
  deriving DecidableEq, Repr

/-- The type compared with in `isFieldPointer` (pkg/codegen/generators/v3/templates/helpers.go:130-134). -/
def array : Str := ['a', 'r', 'r', 'a', 'y']

/-- The field of a struct (schema_definition.tmpl:18): `isFieldPointer $ $key $value` and `generateJSONTags
$value.Validations $key`. -/
def field (h : Heap) (s : Nat) (k : Str) : Option Field :=
  match (h s).props.get k with
  | none => none
  | some x => some {
      pointer := Validations.isFieldPointer (Dedup.isInSlice (h s).required k) { isRequired := (h.look x).isRequired }
        (decide ((h.look x).type = array))
      omitempty := Validations.shouldAddOmitEmpty { isRequired := (h.look x).isRequired } }

end Verif.Required
