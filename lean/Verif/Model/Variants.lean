import Verif.Model.Values

/-!
# The Go type of a composition

`allOf`, `anyOf` and `oneOf` are treated alike: the alternatives are merged into the schema, which becomes an object
(pkg/asyncapi/v3/schema.go:245-288, 319-341; pkg/asyncapi/v2/schema.go:206-284, 316-338).

Simplification: the merge is that of schemas whose properties are known; in which order references are followed is in
`Compose` and `Process`.
-/

namespace Verif.Values

/-- A schema without composition: its type, if it has one, and the names it requires. -/
structure Part where
  type : Option T
  required : List Str

/-- The properties of a schema: none unless it is an object (v3/schema.go:30-66). -/
def Part.fields (env : Str → T) (p : Part) : List F :=
  match p.type with
  | none => []
  | some t => match res env t with
    | .struct fs _ => fs
    | _ => []

/-- Its additional properties. -/
def Part.adds (env : Str → T) (p : Part) : Option T :=
  match p.type with
  | none => none
  | some t => match res env t with
    | .struct _ adds => adds
    | _ => none

/-- `mergeWithSchemaProperties` (v3/schema.go:414-470): what is there stays. -/
def addFields (fs gs : List F) : List F := fs ++ gs.filter (fun g => !(fs.map F.key).contains g.key)

/-- A property that only the merged list of required names makes required is a plain field (`isFieldPointer` reads that list,
v3/templates/helpers.go:130-132), and its tag keeps the `omitempty` it had (`shouldAddOmitEmpty` does not read it,
pkg/codegen/generators/helpers.go:31-37). -/
def promote (required : List Str) : F → F
  | .mk k req ext t =>
    if req then .mk k req ext t
    else if required.contains k then .mk k true (some (ext != some false)) t
    else .mk k req ext t

/-- The fields of a schema merged with its alternatives (v3/schema.go:319-341, 414-470). -/
def merged (env : Str → T) (own : Part) (alts : List Part) : List F :=
  ((alts.map (Part.fields env)).foldl addFields (own.fields env)).map (promote (own.required ++ alts.flatMap Part.required))

/-- The type generated for a schema with alternatives (`MergeWith`, v3/schema.go:319-341). Additional properties are not
merged: those of the schema itself stay. -/
def typeOf (env : Str → T) (own : Part) (alts : List Part) : Option T :=
  if alts = [] then own.type else some (.struct (merged env own alts) (own.adds env))

end Verif.Values
