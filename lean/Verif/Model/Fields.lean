import Verif.Model.Validations

/-!
# Fields of generated structs in JSON

How `encoding/json` treats a generated field: pointers for optional properties, slices for arrays, plain
values otherwise (v3/templates/schema_definition.tmpl:19), with or without `omitempty`
(pkg/codegen/generators/helpers.go:19-37). JSON values of the element type are opaque.
-/

namespace Verif.Fields

/-- A Go type: its zero value and which values `encoding/json` calls empty. -/
structure Ty (J : Type) where
  zero : J
  empty : J → Bool
  empty_zero : ∀ j, empty j = true → j = zero

/-- Shapes of generated fields. -/
inductive Shape
  | pointer
  | plain
  | slice
  deriving DecidableEq, Repr

/-- A value of a field. -/
inductive Val (J : Type)
  | nilPtr
  | ptr (j : J)
  | plain (j : J)
  | nilSlice
  | slice (js : List J)

/-- The shape of a property (schema_definition.tmpl:19). -/
def shape (parentRequires : Bool) (v : Validations.V) (isArray : Bool) : Shape :=
  if isArray then .slice
  else if Validations.isFieldPointer parentRequires v isArray then .pointer else .plain

/-- Values of a shape. -/
def Val.has {J : Type} : Shape → Val J → Prop
  | .pointer, .nilPtr => True
  | .pointer, .ptr _ => True
  | .plain, .plain _ => True
  | .slice, .nilSlice => True
  | .slice, .slice _ => True
  | _, _ => False

/-- What is written for a field: nothing, null, a value, or an array. -/
inductive Wire (J : Type)
  | absent
  | null
  | val (j : J)
  | arr (js : List J)

/-- `encoding/json`: is the value empty (for `omitempty`)? -/
def Val.isEmpty {J : Type} (t : Ty J) : Val J → Bool
  | .nilPtr => true
  | .ptr _ => false
  | .plain j => t.empty j
  | .nilSlice => true
  | .slice js => js.isEmpty

/-- `json.Marshal` of a field. -/
def encode {J : Type} (t : Ty J) (omitEmpty : Bool) (v : Val J) : Wire J :=
  if omitEmpty && v.isEmpty t then .absent
  else match v with
    | .nilPtr => .null
    | .ptr j => .val j
    | .plain j => .val j
    | .nilSlice => .null
    | .slice js => .arr js

/-- The zero value of a shape. -/
def zeroVal {J : Type} (t : Ty J) : Shape → Val J
  | .pointer => .nilPtr
  | .plain => .plain t.zero
  | .slice => .nilSlice

/-- `json.Unmarshal` into a fresh field; `none` is a decoding error. -/
def decode {J : Type} (t : Ty J) (s : Shape) : Wire J → Option (Val J)
  | .absent => some (zeroVal t s)
  | .null => some (zeroVal t s)
  | .val j => match s with
    | .pointer => some (.ptr j)
    | .plain => some (.plain j)
    | .slice => none
  | .arr js => match s with
    | .slice => some (.slice js)
    | _ => none

end Verif.Fields
