import Verif.Model.Validator

/-!
# What validation has to do

A value of the generated types conforms to the document when it meets every declared constraint, at every
depth. Nothing here mentions tags.
-/

namespace Verif.Validator

/-! ## Values of a type -/

mutual
/-- Values of the Go type of a schema. -/
def Typed : Sch → GoV → Prop
  | .str, .str _ => True
  | .int, .int _ => True
  | .num, .flt _ => True
  | .bool, .bool _ => True
  | .arr _ e, .slice l => ∀ xs, l = some xs → ∀ x ∈ xs, Typed e x
  | .obj fs, .struct xs => TypedF fs xs
  | _, _ => False
/-- Values of a structure: optional properties are pointers, required ones and arrays are not. -/
def TypedF : Flds → List GoV → Prop
  | .nil, [] => True
  | .cons d s r, x :: xs =>
    (if d.required || s.isArray then Typed s x
     else ∃ o, x = .ptr o ∧ ∀ y, o = some y → Typed s y) ∧ TypedF r xs
  | _, _ => False
end

/-! ## Conformance -/

/-- A declared constraint holds. -/
def Holds {α : Type} (o : Option α) (p : α → Prop) : Prop := ∀ a, o = some a → p a

mutual
/-- Equality as JSON values. -/
def jsonEq : GoV → GoV → Bool
  | .str a, .str b => a == b
  | .int a, .int b => a == b
  | .flt a, .flt b => a == b
  | .bool a, .bool b => a == b
  | .slice none, .slice none => true
  | .slice (some a), .slice (some b) => jsonEqs a b
  | .struct a, .struct b => jsonEqs a b
  | .ptr none, .ptr none => true
  | .ptr (some a), .ptr (some b) => jsonEq a b
  | _, _ => false
def jsonEqs : List GoV → List GoV → Bool
  | [], [] => true
  | a :: as, b :: bs => jsonEq a b && jsonEqs as bs
  | _, _ => false
end

/-- A value that is present meets its constraints, as JSON Schema defines them: lengths and enumerations are
about strings, bounds about numbers, uniqueness about arrays. -/
def Meets (d : Decl) : GoV → Prop
  | .str s =>
    Holds d.minLength (fun n => n ≤ s.length) ∧ Holds d.maxLength (fun n => s.length ≤ n) ∧
    Holds d.enum (fun l => s ∈ l) ∧ Holds d.const (fun c => s = c)
  | .int n =>
    Holds d.minimum (fun b => b ≤ n) ∧ Holds d.maximum (fun b => n ≤ b) ∧
    Holds d.exclusiveMinimum (fun b => b < n) ∧ Holds d.exclusiveMaximum (fun b => n < b)
  | .flt q =>
    Holds d.minimum (fun b => (b : Rat) ≤ q) ∧ Holds d.maximum (fun b => q ≤ (b : Rat)) ∧
    Holds d.exclusiveMinimum (fun b => (b : Rat) < q) ∧ Holds d.exclusiveMaximum (fun b => q < (b : Rat))
  | .slice (some l) => d.unique = true → l.Pairwise (fun a b => jsonEq a b = false)
  | _ => True

/-- The value of a property that is there: neither a nil pointer nor a nil slice. -/
def present : GoV → Option GoV
  | .ptr o => o
  | .slice none => none
  | x => some x

mutual
/-- The parts of a value conform. -/
def Conforms : Sch → GoV → Prop
  | .arr d e, .slice l => ∀ xs, l = some xs → ∀ x ∈ xs, Meets d x ∧ Conforms e x
  | .obj fs, .struct xs => ConformsF fs xs
  | _, _ => True
/-- A structure conforms: required properties are there, those that are there meet their constraints. -/
def ConformsF : Flds → List GoV → Prop
  | .cons d s r, x :: xs =>
    ((present x = none → d.required = false) ∧ ∀ y, present x = some y → Meets d y ∧ Conforms s y) ∧ ConformsF r xs
  | _, _ => True
end

/-! ## Documents the tags can express -/

/-- No constraint. -/
def Decl.Free (d : Decl) : Prop := d = {} ∨ d = { required := true }

/-- A bound on an integer: not zero, less than a million in magnitude. -/
def IntBound (o : Option Int) : Prop := ∀ b, o = some b → b ≠ 0 ∧ b.natAbs < 1000000

/-- A bound on a number: not zero, a whole number that is a `float64`. -/
def NumBound (o : Option Int) : Prop := ∀ b, o = some b → b ≠ 0 ∧ b.natAbs ≤ 2 ^ 53

/-- No `0x`. -/
def noHex : Str → Bool
  | [] => true
  | '0' :: 'x' :: _ => false
  | _ :: s => noHex s

/-- A string that can be written in a tag: no separator, no escape, and nothing that ends the tag. -/
def TagText (s : Str) : Prop :=
  ',' ∉ s ∧ '|' ∉ s ∧ '\'' ∉ s ∧ '"' ∉ s ∧ '\\' ∉ s ∧ '`' ∉ s ∧ '\n' ∉ s ∧ noHex s = true

/-- The constraints of a property are those of its type, and can be written in a tag. -/
def Fits (d : Decl) : Sch → Prop
  | .str =>
    d = { required := d.required, minLength := d.minLength, maxLength := d.maxLength, enum := d.enum, const := d.const } ∧
    (∀ n, d.minLength = some n → n < 1000000) ∧ (∀ n, d.maxLength = some n → n ≠ 0 ∧ n < 1000000) ∧
    (∀ l, d.enum = some l → l ≠ [] ∧ ∀ s ∈ l, TagText s) ∧ (∀ s, d.const = some s → TagText s)
  | .int =>
    d = { required := d.required, minimum := d.minimum, maximum := d.maximum, exclusiveMinimum := d.exclusiveMinimum,
          exclusiveMaximum := d.exclusiveMaximum } ∧
    IntBound d.minimum ∧ IntBound d.maximum ∧ IntBound d.exclusiveMinimum ∧ IntBound d.exclusiveMaximum
  | .num =>
    d = { required := d.required, minimum := d.minimum, maximum := d.maximum, exclusiveMinimum := d.exclusiveMinimum,
          exclusiveMaximum := d.exclusiveMaximum } ∧
    NumBound d.minimum ∧ NumBound d.maximum ∧ NumBound d.exclusiveMinimum ∧ NumBound d.exclusiveMaximum
  | .bool => d.Free
  | .arr _ e => d = { required := d.required, unique := d.unique } ∧
    (d.unique = true → e matches .str | .int | .num | .bool)
  | .obj _ => d.Free

mutual
/-- Nothing to validate inside. -/
def Sch.Free : Sch → Prop
  | .arr d e => d.Free ∧ e.Free
  | .obj fs => fs.Free
  | _ => True
def Flds.Free : Flds → Prop
  | .nil => True
  | .cons d s r => (d.Free ∧ (s.isArray = true → d.required = false)) ∧ s.Free ∧ r.Free
end

mutual
/-- The constraints are expressible at every depth outside of arrays; there are none inside of arrays. -/
def Sch.Fine : Sch → Prop
  | .arr d e => d.Free ∧ e.Free
  | .obj fs => fs.Fine
  | _ => True
def Flds.Fine : Flds → Prop
  | .nil => True
  | .cons d s r => Fits d s ∧ s.Fine ∧ r.Fine
end

end Verif.Validator
