import Verif.Model.Types

/-!
# The comment written for schemas without a type (pkg/codegen/generators/v3/templates/schema_name.tmpl:75-78)

`describeStruct` prints the schema with `%+v` (pkg/utils/template/helpers.go:124-126). `fmt` is not in the repository; what is
modelled of it: structs with the names of their fields, maps with sorted keys, slices, and pointers below the top as the
address they hold (the documentation of `fmt`: "the default format for %v is … pointer: %p … except at the top level").
-/

namespace Verif.Describe

/-- A Go value as `fmt` walks it. `text`: anything printed without pointers; `ptr`: a pointer to the object of that number. -/
inductive GoV
  | text (s : Str)
  | nil
  | ptr (o : Nat)
  | list (vs : List GoV)
  | map (es : List (Str × GoV))
  | struct (fs : List (Str × GoV))

/-- Hexadecimal digits (`%p`). -/
def hex (n : Nat) : Str :=
  if n < 16 then [Nat.digitChar n] else hex (n / 16) ++ [Nat.digitChar (n % 16)]
termination_by n
decreasing_by omega

mutual
/-- `%+v` below the top level. `addr`: where the objects are in memory. -/
def show' (addr : Nat → Nat) : GoV → Str
  | .text s => s
  | .nil => ['<', 'n', 'i', 'l', '>']
  | .ptr o => '0' :: 'x' :: hex (addr o)
  | .list vs => '[' :: (showAll addr vs ++ [']'])
  | .map es => 'm' :: 'a' :: 'p' :: '[' :: (showEntries addr es ++ [']'])
  | .struct fs => '{' :: (showEntries addr fs ++ ['}'])
/-- The elements of a slice. -/
def showAll (addr : Nat → Nat) : List GoV → Str
  | [] => []
  | [v] => show' addr v
  | v :: vs => show' addr v ++ ' ' :: showAll addr vs
/-- The entries of a map, the fields of a struct. -/
def showEntries (addr : Nat → Nat) : List (Str × GoV) → Str
  | [] => []
  | [(k, v)] => k ++ ':' :: show' addr v
  | (k, v) :: es => k ++ ':' :: (show' addr v ++ ' ' :: showEntries addr es)
end

/-- What a schema (v3/schema.go:29-66, asyncapi/schema.go:5-30, v3/extensions.go:10-20) holds behind pointers, by the numbers
of the objects; `texts` prints the other fields, by their names. -/
structure Schema where
  texts : Str → Str
  properties : List (Str × Nat) := []
  patternProperties : List (Str × Nat) := []
  additionalProperties : Option Nat := none
  additionalItems : List Nat := []
  items : Option Nat := none
  contains : List Nat := []
  allOf : List Nat := []
  anyOf : List Nat := []
  oneOf : List Nat := []
  not : Option Nat := none
  referenceTo : Option Nat := none
  inheritedAllOf : List Nat := []
  inheritedAnyOf : List Nat := []
  inheritedOneOf : List Nat := []
  shouldOmitEmpty : Option Nat := none
  goTypeImport : Option Nat := none
  omitEmpty : Option Nat := none

/-- A pointer field. -/
def opt : Option Nat → GoV
  | none => .nil
  | some o => .ptr o

/-- A map of pointers. -/
def ptrs (es : List (Str × Nat)) : GoV := .map (es.map (fun e => (e.1, .ptr e.2)))

/-- A slice of pointers. -/
def seq (os : List Nat) : GoV := .list (os.map .ptr)

/-- A field printed without pointers. -/
def plain (s : Schema) (name : String) : Str × GoV := (name.toList, .text (s.texts name.toList))

/-- The schema as `fmt` sees it, in the order of the fields. `Examples`, `Enum`, `Const` and `Default` hold decoded JSON, in
which there are no pointers. (v3/schema.go:29-66) -/
def Schema.value (s : Schema) : GoV := .struct [
  plain s "Title", plain s "Type", plain s "Examples", plain s "ReadOnly", plain s "WriteOnly",
  ("Properties".toList, ptrs s.properties), ("PatternProperties".toList, ptrs s.patternProperties),
  ("AdditionalProperties".toList, opt s.additionalProperties), ("AdditionalItems".toList, seq s.additionalItems),
  ("Items".toList, opt s.items), plain s "PropertyNames", ("Contains".toList, seq s.contains),
  ("AllOf".toList, seq s.allOf), ("AnyOf".toList, seq s.anyOf), ("OneOf".toList, seq s.oneOf), ("Not".toList, opt s.not),
  plain s "Description", plain s "Format", plain s "Default", plain s "Reference", plain s "Name",
  ("ReferenceTo".toList, opt s.referenceTo),
  ("Validations".toList, .struct [
    plain s "Required", plain s "MultipleOf", plain s "Maximum", plain s "ExclusiveMaximum", plain s "Minimum",
    plain s "ExclusiveMinimum", plain s "MaxLength", plain s "MinLength", plain s "Pattern", plain s "MaxItems",
    plain s "MinItems", plain s "UniqueItems", plain s "MaxProperties", plain s "MinProperties", plain s "Enum", plain s "Const",
    ("AllOf".toList, seq s.inheritedAllOf), ("AnyOf".toList, seq s.inheritedAnyOf), ("OneOf".toList, seq s.inheritedOneOf),
    plain s "IsRequired", ("ShouldOmitEmpty".toList, opt s.shouldOmitEmpty)]),
  ("Extensions".toList, .struct [
    plain s "ExtGoType", ("ExtGoTypeImport".toList, opt s.goTypeImport), ("ExtOmitEmpty".toList, opt s.omitEmpty)])]

/-- `DescribeStruct` of a pointer to a schema (pkg/utils/template/helpers.go:124-133). -/
def describe (addr : Nat → Nat) (s : Schema) : Str := ChannelAddr.multiLineComment ('&' :: show' addr s.value)

end Verif.Describe
