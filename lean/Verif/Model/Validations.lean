import Verif.Base.Str

/-!
# Validation constraints and struct tags

Models `Validations.Merge` (pkg/asyncapi/schema.go:5-99) and the tags of pkg/codegen/generators/helpers.go:11-98.
Numbers are integers here; only whether they are zero and how `%g` prints them matters, and printing is a
parameter.
-/

namespace Verif.Validations

/-- A value of Go type `any` decoded from a document: a string or something else. -/
inductive AnyV
  | str (s : Str)
  | other (id : Nat)
  deriving DecidableEq, Repr

/-- `Validations` (schema.go:5-30). Schemas in `allOf`, `anyOf`, `oneOf` are pointers, here numbers. -/
structure V where
  required : List Str := []
  multipleOf : List Str := []
  maximum : Int := 0
  exclusiveMaximum : Int := 0
  minimum : Int := 0
  exclusiveMinimum : Int := 0
  maxLength : Nat := 0
  minLength : Nat := 0
  pattern : Str := []
  maxItems : Nat := 0
  minItems : Nat := 0
  uniqueItems : Bool := false
  maxProperties : Nat := 0
  minProperties : Nat := 0
  enum : List AnyV := []
  const : Option AnyV := none
  allOf : List Nat := []
  anyOf : List Nat := []
  oneOf : List Nat := []
  isRequired : Bool := false
  shouldOmitEmpty : Option Bool := none
  deriving DecidableEq, Repr

/-- `v.Merge(newV)` (schema.go:35-99), field by field. -/
def merge (v n : V) : V where
  required := if n.required.length > 0 then n.required else v.required
  multipleOf := if n.multipleOf.length > 0 then n.multipleOf else v.multipleOf
  maximum := if n.maximum ≠ 0 then n.maximum else v.maximum
  exclusiveMaximum := if n.exclusiveMaximum ≠ 0 then n.exclusiveMaximum else v.exclusiveMaximum
  minimum := if n.minimum ≠ 0 then n.minimum else v.minimum
  exclusiveMinimum := if n.exclusiveMinimum ≠ 0 then n.exclusiveMinimum else v.exclusiveMinimum
  maxLength := if n.maxLength ≠ 0 then n.maxLength else v.maxLength
  minLength := if n.minLength ≠ 0 then n.minLength else v.minLength
  pattern := if n.pattern ≠ [] then n.pattern else v.pattern
  maxItems := if n.maxItems ≠ 0 then n.maxItems else v.maxItems
  minItems := if n.minItems ≠ 0 then n.minItems else v.minItems
  uniqueItems := if n.uniqueItems then n.uniqueItems else v.uniqueItems
  maxProperties := if n.maxProperties ≠ 0 then n.maxProperties else v.maxProperties
  minProperties := if n.minProperties ≠ 0 then n.minProperties else v.minProperties
  enum := if n.enum.length > 0 then n.enum else v.enum
  const := if n.const ≠ none then n.const else v.const
  allOf := if n.allOf.length > 0 then n.allOf else v.allOf
  anyOf := if n.anyOf.length > 0 then n.anyOf else v.anyOf
  oneOf := if n.oneOf.length > 0 then n.oneOf else v.oneOf
  isRequired := if n.isRequired then n.isRequired else v.isRequired
  shouldOmitEmpty := if n.shouldOmitEmpty ≠ none then n.shouldOmitEmpty else v.shouldOmitEmpty

/-! ## Tags -/

/-- A directive of a validation tag, before it is printed. -/
inductive Dir
  | required
  | omitempty
  | num (name : Str) (value : Int)
  | unique
  | oneof (values : List Str)
  | eq (value : Str)
  deriving DecidableEq, Repr

/-- `appendDirectiveIfDefined` (helpers.go:11-16) -/
def ifDefined (name : Str) (value : Int) : List Dir := if value ≠ 0 then [.num name value] else []

/-- The string, if the value is one. -/
def asStr : AnyV → Option Str
  | .str s => some s
  | .other _ => none

/-- `appendEnumDirectives` (helpers.go:82-98) -/
def enumDirs (v : V) : List Dir :=
  if v.enum.length > 0 then
    let strs := v.enum.filterMap asStr
    if v.enum.length = strs.length then [.oneof strs] else []
  else []

/-- The constant (helpers.go:58-63) -/
def constDirs (v : V) : List Dir :=
  match v.const with
  | some (.str s) => [.eq s]
  | _ => []

/-- The directives of `GenerateValidateTags` (helpers.go:41-75). -/
def directives (v : V) (isPointer : Bool) (isArray : Bool) : List Dir :=
  let ds := (if v.isRequired && (isPointer || isArray) then [.required] else []) ++
    ifDefined "min".toList v.minLength ++ ifDefined "max".toList v.maxLength ++
    ifDefined "gte".toList v.minimum ++ ifDefined "lte".toList v.maximum ++
    ifDefined "gt".toList v.exclusiveMinimum ++ ifDefined "lt".toList v.exclusiveMaximum ++
    (if v.uniqueItems then [.unique] else []) ++ enumDirs v ++ constDirs v
  if ds.length > 0 then (if v.isRequired then ds else .omitempty :: ds) else []

/-- How a directive is printed; `g` prints a number (`%g`). -/
def Dir.print (g : Int → Str) : Dir → Str
  | .required => "required".toList
  | .omitempty => "omitempty".toList
  | .num name value => name ++ '=' :: g value
  | .unique => "unique".toList
  | .oneof values => "oneof=".toList ++ Str.join ' ' (values.map (fun s => '\'' :: (s ++ ['\''])))
  | .eq value => "eq=".toList ++ value

/-- The value of the `validate` tag, empty if there is none (helpers.go:66-74). -/
def validateTag (g : Int → Str) (v : V) (isPointer isArray : Bool) : Str :=
  Str.join ',' ((directives v isPointer isArray).map (Dir.print g))

/-- `shouldAddOmitEmpty` (helpers.go:31-37) -/
def shouldAddOmitEmpty (v : V) : Bool :=
  if v.isRequired then (match v.shouldOmitEmpty with
    | some b => b
    | none => false)
  else (match v.shouldOmitEmpty with
    | some b => b
    | none => true)

/-- The value of the `json` tag (helpers.go:19-29); `key` is already converted. -/
def jsonTag (v : V) (key : Str) : Str :=
  Str.join ',' (key :: (if shouldAddOmitEmpty v then ["omitempty".toList] else []))

/-- `isFieldPointer` (v3/templates/helpers.go:130-132): `parentRequires` is `IsRequired(parent, field)`. -/
def isFieldPointer (parentRequires : Bool) (v : V) (isArray : Bool) : Bool :=
  !(parentRequires || v.isRequired) && !isArray

end Verif.Validations
