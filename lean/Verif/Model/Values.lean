import Verif.Base.Json
import Verif.Base.GoMap
import Verif.Model.Validations
import Verif.Model.Times
import Verif.Model.AddProps

/-!
# Payload values in generated types

What `json.Unmarshal` and `json.Marshal` do with the types the generator writes for object payloads
(pkg/codegen/generators/v3/templates/schema_name.tmpl and schema_definition.tmpl for the types, message.tmpl:81-86 and
131-137 for the calls). `encoding/json` itself is not in the repository: its treatment of struct fields (exact match of
names first, then a match up to case; `omitempty`; null) is modelled from its documentation.

Dates and date-times are those the generator makes when they are not disabled (`isDateOrDateTimeGenerated`); a named
date-time has the methods of marshaling/time.tmpl, which do the same as those of `time.Time`.

Simplifications: no custom Go types; a name that occurs twice in an object is not merged, the last one wins; years of
dates are not negative.
-/

namespace Verif.Values

mutual
/-- A Go type written by the generator, with what it takes from the schema. -/
inductive T
  | bool                          -- schema_name.tmpl:14-15
  | str                           -- 24
  | date                          -- 19-20
  | time                          -- 21-22
  | int (bits : Nat)              -- 28-33
  | float                         -- 40-45
  | slice (t : T)                 -- 36-37
  | struct (fs : List F) (adds : Option T)   -- schema_definition.tmpl:11-26: fields, type of the additional properties
  | name (n : Str)                -- schema_name.tmpl:71-72
/-- A field of a struct: its JSON name, whether the property is required, `x-omitempty`, its type. -/
inductive F
  | mk (key : Str) (req : Bool) (ext : Option Bool) (t : T)
end

def F.key : F → Str
  | .mk k _ _ _ => k
def F.req : F → Bool
  | .mk _ r _ _ => r
def F.ext : F → Option Bool
  | .mk _ _ e _ => e
def F.type : F → T
  | .mk _ _ _ t => t

def T.isSlice : T → Bool
  | .slice _ => true
  | _ => false

/-- Is the field a pointer? (`isFieldPointer`, v3/templates/helpers.go:130-132; a reference to an array has no type of
its own) -/
def F.ptr (f : F) : Bool := Validations.isFieldPointer f.req { isRequired := f.req } f.type.isSlice

/-- Does the tag say `omitempty`? (`shouldAddOmitEmpty`, pkg/codegen/generators/helpers.go:31-37) -/
def F.omitempty (f : F) : Bool := Validations.shouldAddOmitEmpty { isRequired := f.req, shouldOmitEmpty := f.ext }

/-- Is it a struct for `encoding/json`? `civil.Date` and `time.Time` are. -/
def T.isStruct : T → Bool
  | .struct _ _ => true
  | .date => true
  | .time => true
  | _ => false

/-- What is not in the repository: reading and writing floating point numbers, folding of letter case, and which
characters `strconv` holds for printable. -/
structure Go (R : Type) where
  parse : Str → Option R
  print : R → Str
  isZero : R → Bool
  fold : Str → Str
  isPrint : Char → Bool

/-- A `civil.Date`. -/
structure Date where
  year : Nat
  month : Nat
  day : Nat
  deriving DecidableEq, Repr

/-- `civil.Date.String`: `%04d-%02d-%02d` -/
def Date.text (d : Date) : Str :=
  Times.padded 4 d.year ++ '-' :: (Times.padded 2 d.month ++ '-' :: Times.padded 2 d.day)

/-- `civil.ParseDate`: `time.Parse("2006-01-02", s)` -/
def parseDate (s : Str) : Option Date :=
  match Times.four s with
  | none => none
  | some (year, s) => match Times.skip '-' s with
    | none => none
    | some s => match Times.two s with
      | none => none
      | some (month, s) =>
        if month = 0 ∨ 12 < month then none
        else match Times.skip '-' s with
          | none => none
          | some s => match Times.two s with
            | none => none
            | some (day, rest) =>
              if rest ≠ [] then none
              else if day < 1 ∨ Times.daysIn month year < day then none
              else some ⟨year, month, day⟩

/-- A value of a generated type. `zero` is the zero value of any type: nil for pointers and slices. -/
inductive V (R : Type)
  | zero
  | bool (b : Bool)
  | str (s : Str)
  | int (n : Int)
  | float (r : R)
  | slice (vs : List (V R))
  | date (d : Date)
  | time (m : Times.Moment)
  | struct (fs : List (Str × V R)) (adds : List (Str × V R))
  | ptr (v : V R)

/-- A decimal digit. -/
def digitOf (c : Char) : Option Nat := if Json.isDigit c then some (c.toNat - '0'.toNat) else none

/-- `strconv.ParseInt` on digits. -/
def readDigits : Nat → Str → Option Nat
  | acc, [] => some acc
  | acc, c :: s => match digitOf c with
    | some d => readDigits (10 * acc + d) s
    | none => none

/-- `strconv.ParseInt(s, 10, _)` before the check of the range; encoding/json only passes number texts. -/
def readInt : Str → Option Int
  | [] => none
  | c :: s =>
    if c = '-' then (if s = [] then none else (readDigits 0 s).map (fun (n : Nat) => - (n : Int)))
    else (readDigits 0 (c :: s)).map (fun (n : Nat) => (n : Int))

/-- Does a number fit in that many bits? -/
def fits (bits : Nat) (n : Int) : Bool := decide (-(2 ^ (bits - 1) : Int) ≤ n) && decide (n < (2 ^ (bits - 1) : Int))

def digitChar (n : Nat) : Char := Char.ofNat ('0'.toNat + n)

/-- `strconv.FormatInt` on natural numbers. -/
def showNat (n : Nat) : Str :=
  if n < 10 then [digitChar n] else showNat (n / 10) ++ [digitChar (n % 10)]
termination_by n
decreasing_by omega

/-- `strconv.FormatInt` -/
def showInt (n : Int) : Str := if n < 0 then '-' :: showNat n.natAbs else showNat n.natAbs

/-- The declaration a type name stands for. -/
def res (env : Str → T) : T → T
  | .name n => env n
  | t => t

/-- The field `encoding/json` finds for a member: the one of that name, or the first one with that name up to case. -/
def findField {R : Type} (g : Go R) (fs : List F) (k : Str) : Option F :=
  match fs.find? (fun f => f.key = k) with
  | some f => some f
  | none => fs.find? (fun f => g.fold f.key = g.fold k)

/-- The last value assigned to a field. -/
def lastOf {A : Type} (k : Str) : List (Str × A) → Option A
  | [] => none
  | (k', a) :: rest => match lastOf k rest with
    | some b => some b
    | none => if k' = k then some a else none

/-- The struct after all assignments. -/
def fill {R : Type} (fs : List F) (as : List (Str × V R)) : List (Str × V R) :=
  fs.map (fun f => (f.key, match lastOf f.key as with
    | some v => v
    | none => .zero))

/-- What is stored in a field: a pointer to the value for pointer fields, nil for null. -/
def wrap {R : Type} (f : F) (v : V R) : V R := if f.ptr then (match v with
  | .zero => .zero
  | v => .ptr v) else v

/-- The members that are no declared properties (additional_properties.tmpl:57-66). -/
def undeclared {R : Type} (fs : List F) (m : List (Str × V R)) : List (Str × V R) :=
  m.filter (fun e => !decide (e.1 ∈ fs.map F.key))

mutual
/-- `json.Unmarshal` into a new variable of the type. `none`: an error. -/
def decode {R : Type} (g : Go R) (env : Str → T) : T → Json → Option (V R)
  | _, .null => some .zero
  | t, .bool b => match res env t with
    | .bool => some (.bool b)
    | _ => none
  | t, .str s => match res env t with
    | .str => some (.str s)
    | .date => (parseDate s).map .date
    | .time => (Times.parse s).map .time
    | _ => none
  | t, .num x => match res env t with
    | .int bits => match readInt x with
      | some n => if fits bits n then some (.int n) else none
      | none => none
    | .float => (g.parse x).map .float
    | _ => none
  | t, .arr js => match res env t with
    | .slice u => (decodeAll g env u js).map .slice
    | _ => none
  | t, .obj ms => match res env t with
    | .struct fs none => (decodeMembers g env fs ms).map (fun as => .struct (fill fs as) [])
    | .struct fs (some u) => match decodeMap g env u ms with
      | none => none
      | some m => (decodeMembers g env fs ms).map (fun as => .struct (fill fs as) (undeclared fs m))
    | _ => none
/-- The elements of an array. -/
def decodeAll {R : Type} (g : Go R) (env : Str → T) (t : T) : List Json → Option (List (V R))
  | [] => some []
  | j :: js => match decode g env t j with
    | none => none
    | some v => match decodeAll g env t js with
      | none => none
      | some vs => some (v :: vs)
/-- The members of an object: what is assigned to which field. Unknown members are skipped. -/
def decodeMembers {R : Type} (g : Go R) (env : Str → T) (fs : List F) : List (Str × Json) → Option (List (Str × V R))
  | [] => some []
  | (k, j) :: ms => match findField g fs k with
    | none => decodeMembers g env fs ms
    | some f => match decode g env f.type j with
      | none => none
      | some v => match decodeMembers g env fs ms with
        | none => none
        | some as => some ((f.key, wrap f v) :: as)
/-- All members as a `map[string]T` (additional_properties.tmpl:42-45). -/
def decodeMap {R : Type} (g : Go R) (env : Str → T) (t : T) : List (Str × Json) → Option (List (Str × V R))
  | [] => some []
  | (k, j) :: ms => match decode g env t j with
    | none => none
    | some v => match decodeMap g env t ms with
      | none => none
      | some m => some (match lastOf k m with
        | some _ => m
        | none => (k, v) :: m)
end

/-- `encoding/json`: is the value of a field empty? -/
def V.isEmpty {R : Type} (g : Go R) : V R → Bool
  | .zero => true
  | .bool b => !b
  | .str s => s.isEmpty
  | .int n => n == 0
  | .float r => g.isZero r
  | .slice vs => vs.isEmpty
  | .date _ => false
  | .time _ => false
  | .struct _ _ => false
  | .ptr _ => false

/-- Is the value of the field empty? The zero value of a struct in place is not. -/
def emptyIn {R : Type} (g : Go R) (env : Str → T) (f : F) (v : V R) : Bool :=
  match v with
  | .zero => f.ptr || !(res env f.type).isStruct
  | v => v.isEmpty g

/-- The zero `time.Time` -/
def zeroTime : Times.Moment := ⟨1, 1, 1, 0, 0, 0, 0, 0⟩

/-- The zero value of a plain field. `none` for structs, which are not modelled here. -/
def zeroOf (env : Str → T) (t : T) : Option Json :=
  match res env t with
  | .bool => some (.bool false)
  | .str => some (.str [])
  | .int _ => some (.num ['0'])
  | .float => some (.num ['0'])
  | .slice _ => some .null
  | .date => some (.str (Date.text ⟨0, 0, 0⟩))
  | .time => (Times.marshal zeroTime).map .str
  | _ => none

/-- The value of an additional property. -/
def orZero {R : Type} (env : Str → T) (t : T) (v : V R) (written : Option Json) : Option Json :=
  match v with
  | .zero => zeroOf env t
  | _ => written

/-- Nil pointers and slices are written as null. -/
def orNull {R : Type} (env : Str → T) (f : F) (v : V R) (written : Option Json) : Option Json :=
  match v with
  | .zero => if f.ptr || f.type.isSlice then some .null else zeroOf env f.type
  | _ => written

mutual
/-- `json.Marshal`. `none`: an error, or the zero value of a struct, which is not modelled. What `MarshalJSON` returns for
structs with additional properties has to be JSON. -/
def encode {R : Type} (g : Go R) (env : Str → T) : T → V R → Option Json
  | _, .zero => none
  | _, .bool b => some (.bool b)
  | _, .str s => some (.str s)
  | _, .int n => some (.num (showInt n))
  | _, .float r => some (.num (g.print r))
  | t, .slice vs => match res env t with
    | .slice u => (encodeAll g env u vs).map .arr
    | _ => none
  | _, .date d => some (.str d.text)
  | _, .time m => (Times.marshal m).map .str
  | t, .struct vs as => match res env t with
    | .struct fs none => (encodeFields g env fs vs).map .obj
    | .struct fs (some u) => match encodeFields g env fs vs with
      | none => none
      | some ds => match encodeAdds g env u as with
        | none => none
        | some es => Json.parse (AddProps.marshalV3 g.isPrint ds es)
    | _ => none
  | t, .ptr v => encode g env t v
/-- The elements of a slice. -/
def encodeAll {R : Type} (g : Go R) (env : Str → T) (t : T) : List (V R) → Option (List Json)
  | [] => some []
  | v :: vs => match encode g env t v with
    | none => none
    | some j => match encodeAll g env t vs with
      | none => none
      | some js => some (j :: js)
/-- The fields of a struct, in order. -/
def encodeFields {R : Type} (g : Go R) (env : Str → T) : List F → List (Str × V R) → Option (List (Str × Json))
  | f :: fs, (_, v) :: vs =>
    if f.omitempty && emptyIn g env f v then encodeFields g env fs vs
    else match orNull env f v (encode g env f.type v) with
      | none => none
      | some j => match encodeFields g env fs vs with
        | none => none
        | some ms => some ((f.key, j) :: ms)
  | _, _ => some []
/-- The additional properties (additional_properties.tmpl:21-31); Go walks the map in any order, here it is that of the
list. -/
def encodeAdds {R : Type} (g : Go R) (env : Str → T) (t : T) : List (Str × V R) → Option (List (Str × Json))
  | [] => some []
  | (k, v) :: vs => match orZero env t v (encode g env t v) with
    | none => none
    | some j => match encodeAdds g env t vs with
      | none => none
      | some js => some ((k, j) :: js)
end

end Verif.Values
