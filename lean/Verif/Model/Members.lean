import Verif.Model.Strcase
import Verif.Model.Names

/-!
# The fields and methods of a generated struct

The struct of an object schema (v3/templates/schema_definition.tmpl:11-30, v2/templates/schema_definition.tmpl:11-30, the same
lines), with the methods written for additional properties (marshaling/additional_properties.tmpl), and the struct of the
parameters of a v3 channel (v3/templates/types.tmpl:62-69), which has no additional properties. Names are those of the default
naming scheme. Simplification: only names; the texts of cases are taken as keys without quotes and escapes (C92).
-/

namespace Verif.Members

open Naming (Uni Bytes namify)
open Names (lit)
open Strcase (Conversion convertKey)

/-- An object: the keys of its properties, and whether it declares additional properties. -/
structure Obj where
  keys : List Bytes
  additional : Bool
  deriving DecidableEq, Repr

/-- `namify $key` for each property (schema_definition.tmpl:18); `none` when one of the calls panics. -/
def names (u : Uni) : List Bytes → Option (List Bytes)
  | [] => some []
  | k :: ks => (namify u k).bind fun n => (names u ks).map (n :: ·)

/-- The fields of the struct (schema_definition.tmpl:11-25). -/
def fields (u : Uni) (o : Obj) : Option (List Bytes) :=
  (names u o.keys).map (· ++ if o.additional then [lit "AdditionalProperties"] else [])

/-- The methods of the struct (schema_definition.tmpl:27-30, v3 additional_properties.tmpl:4, 38, v2 4, 26). -/
def methods (o : Obj) : List Bytes := if o.additional then [lit "MarshalJSON", lit "UnmarshalJSON"] else []

/-- The cases of the switch in `UnmarshalJSON` (v3 additional_properties.tmpl:60, v2 48). -/
def cases (c : Conversion) (o : Obj) : List Bytes := if o.additional then o.keys.map (convertKey c) else []

end Verif.Members
