import Verif.Model.Validator

/-!
# Running the validation tags on objects with additional properties

An object with additional properties has one more field, a map, after those of its properties
(pkg/codegen/generators/v3/templates/schema_definition.tmpl:21-24, the same in v2). Its tag is `json:"-"`, without `validate`.

Simplification: only the object that is validated has additional properties, the ones inside it do not.
-/

namespace Verif.Validator

/-- An object with properties and the schema of the others (schema_definition.tmpl:12-25). -/
structure MoreSch where
  fields : Flds
  decl : Decl
  elem : Sch

/-- A value: its fields and the map, in any order. -/
structure MoreV where
  fields : List GoV
  more : List (Str × GoV)

/-- The `validate` tag of the map (schema_definition.tmpl:23): there is none, whatever is declared. -/
def moreTag (_ : MoreSch) : Str := []

/-- The field of the map (validator: `traverseField`). For the directives the generator writes, maps are validated like slices:
by their number of entries, and without `dive` the values are not looked at. -/
def runMap (s : MoreSch) (m : List (Str × GoV)) : Res :=
  runField (.arr s.decl s.elem) (fun _ => .pass) (parseTag (moreTag s)) (.slice (some (m.map (·.2))))

/-- `validator.Struct` on a structure with additional properties. -/
def runMore (s : MoreSch) (v : MoreV) : Res :=
  (runStruct s.fields v.fields).both (runMap s v.more)

end Verif.Validator
