import Verif.Model.Decode
import Verif.Model.Validations

/-!
# Running the validation tags

The generated structures carry `validate` tags (pkg/codegen/generators/helpers.go:41-75,
pkg/codegen/generators/v3/templates/schema_definition.tmpl:18) that users run with go-playground/validator
v10.20.0 (go.mod:11; test/v2/issues/131/suite_test.go:42). The tag is the one of `Verif.Model.Validations`,
with the printing of numbers made concrete. The validator is a dependency whose source is not in /repo: it is
modelled after its published source, and only for what generated structures use.
-/

namespace Verif.Validator

open Validations (V AnyV Dir validateTag isFieldPointer)
open Decode (natOf)

/-! ## `%g` -/

/-- Two digits at least. -/
def twoDigits (n : Nat) : Str := if n < 10 then '0' :: Nat.toDigits 10 n else Nat.toDigits 10 n

/-- Without the zeros at the end. -/
def stripZeros (s : Str) : Str := (s.reverse.dropWhile (· == '0')).reverse

/-- `%g` of a `float64` that is a whole number, without its sign (helpers.go:13). Go prints the shortest digits
that identify the number, which are its own for whole numbers up to 2^53; larger ones are not modelled. From
exponent 6 on, it switches to scientific notation. -/
def gNat (n : Nat) : Str :=
  let ds := Nat.toDigits 10 n
  if ds.length ≤ 6 then ds
  else
    match stripZeros ds with
    | [] => []
    | c :: frac => c :: ((if frac = [] then [] else '.' :: frac) ++ 'e' :: '+' :: twoDigits (ds.length - 1))

/-- `%g` of a `float64` that is a whole number (helpers.go:13). -/
def gPrint : Int → Str
  | .ofNat n => gNat n
  | .negSucc n => '-' :: gNat (n + 1)

/-! ## Reading numbers -/

/-- Digits only, one at least. -/
def digits (s : Str) : Option Nat := if s = [] then none else natOf 0 s

/-- The sign. -/
def sign : Str → Bool × Str
  | '-' :: s => (true, s)
  | '+' :: s => (false, s)
  | s => (false, s)

/-- `strconv.ParseInt(s, 0, 64)`; `none` is an error. Not modelled: other bases (a leading zero) and
underscores, which `%g` never prints. -/
def parseInt (s : Str) : Option Int :=
  match digits (sign s).2 with
  | none => none
  | some n =>
    if (sign s).1 then (if n ≤ 2 ^ 63 then some (-n) else none)
    else (if n < 2 ^ 63 then some n else none)

/-- What is before a character, and what is after. -/
def cut (c : Char) : Str → Str × Option Str
  | [] => ([], none)
  | a :: s => if a = c then ([], some s) else (a :: (cut c s).1, (cut c s).2)

/-- The digits after the point, if there is one. -/
def fraction : Option Str → Str
  | none => []
  | some f => f

/-- The exponent of a decimal. -/
def exponent : Option Str → Option Int
  | none => some 0
  | some s => (digits (sign s).2).map (fun n => if (sign s).1 then -n else n)

/-- `strconv.ParseFloat(s, 64)`; `none` is an error. The result is not rounded: the texts are those of
`float64`s. Not modelled: hexadecimal numbers, infinities. -/
def parseFloat (s : Str) : Option Rat :=
  let (mant, exp) := cut 'e' (sign s).2
  let (whole, frac) := cut '.' mant
  match digits (whole ++ fraction frac), exponent exp with
  | some m, some e =>
    let r : Rat := m * (10 : Rat) ^ (e - (fraction frac).length)
    some (if (sign s).1 then -r else r)
  | _, _ => none

/-! ## Schemas and values -/

/-- The constraints a document declares for a property, before decoding: a bound can be absent. Enumerated
values and constants are strings. -/
structure Decl where
  required : Bool := false
  minLength : Option Nat := none
  maxLength : Option Nat := none
  minimum : Option Int := none
  maximum : Option Int := none
  exclusiveMinimum : Option Int := none
  exclusiveMaximum : Option Int := none
  unique : Bool := false
  enum : Option (List Str) := none
  const : Option Str := none
  deriving DecidableEq, Repr

/-- A decoded number: absent is zero. -/
def numOf {α : Type} [Zero α] : Option α → α
  | none => 0
  | some n => n

/-- The constraints as decoded from the document (pkg/asyncapi/schema.go:5-30); `isRequired` is set by the
object that names the property as required (pkg/asyncapi/v3/schema.go:161-162). -/
def Decl.decoded (d : Decl) : V where
  isRequired := d.required
  minLength := numOf d.minLength
  maxLength := numOf d.maxLength
  minimum := numOf d.minimum
  maximum := numOf d.maximum
  exclusiveMinimum := numOf d.exclusiveMinimum
  exclusiveMaximum := numOf d.exclusiveMaximum
  uniqueItems := d.unique
  enum := match d.enum with
    | none => []
    | some l => l.map AnyV.str
  const := d.const.map AnyV.str

mutual
/-- Schemas: scalars, arrays with the constraints of their items, objects (schema_definition.tmpl:12-25,
schema_name.tmpl). Not modelled: formats, compositions; additional
properties are in `Verif.Model.ValidatorMore`. -/
inductive Sch
  | str | int | num | bool
  | arr (items : Decl) (elem : Sch)
  | obj (fs : Flds)
/-- The properties of an object. -/
inductive Flds
  | nil
  | cons (d : Decl) (s : Sch) (rest : Flds)
end

/-- Values of the generated types. A `float64` is a rational. -/
inductive GoV
  | str (s : Str)
  | int (n : Int)
  | flt (q : Rat)
  | bool (b : Bool)
  | slice (l : Option (List GoV))
  | struct (fs : List GoV)
  | ptr (o : Option GoV)

/-- Is the schema an array (`$value.Type`)? -/
def Sch.isArray : Sch → Bool
  | .arr _ _ => true
  | _ => false

/-- The `validate` tag of the field of a property (schema_definition.tmpl:18); the object requires a property
exactly when it is marked required (property C105). -/
def tagText (d : Decl) (s : Sch) : Str :=
  validateTag gPrint d.decoded (isFieldPointer d.required d.decoded s.isArray) s.isArray

/-! ## The validator -/

/-- What validating gives: the value is accepted, refused, or the validator panics. -/
inductive Res
  | pass | fail | panic
  deriving DecidableEq, Repr

/-- A comparison. -/
def Res.of (b : Bool) : Res := if b then .pass else .fail

/-- Several fields: all are validated. -/
def Res.both : Res → Res → Res
  | .panic, _ => .panic
  | _, .panic => .panic
  | .fail, _ => .fail
  | .pass, r => r

/-- In parameters, `0x2C` stands for a comma and `0x7C` for a bar. -/
def unescape : Str → Str
  | '0' :: 'x' :: '2' :: 'C' :: s => ',' :: unescape s
  | '0' :: 'x' :: '7' :: 'C' :: s => '|' :: unescape s
  | c :: s => c :: unescape s
  | [] => []

/-- A directive: its name and its parameter (`strings.SplitN(t, "=", 2)`). -/
def directive (s : Str) : Str × Str :=
  match cut '=' s with
  | (name, none) => (name, [])
  | (name, some p) => (name, unescape p)

/-- A tag: directives separated by commas, alternatives by bars (validator: `parseFieldTagsRecursive`). -/
def parseTag (tag : Str) : List (List (Str × Str)) :=
  if tag = [] then [] else (Str.split ',' tag).map (fun d => (Str.split '|' d).map directive)

/-- The words of a `oneof` parameter: quoted, or without spaces (validator: `'[^']*'|\S+`). Texts without a
quote at the start of a word are taken as one word here; the generator always quotes. -/
def words : Option Str → Str → List Str
  | none, [] => []
  | some _, [] => []
  | none, c :: s => if c = '\'' then words (some []) s else words none s
  | some acc, c :: s => if c = '\'' then acc :: words none s else words (some (acc ++ [c])) s

mutual
/-- `reflect.Value.IsZero`. -/
def isZero : GoV → Bool
  | .str s => s.isEmpty
  | .int n => n == 0
  | .flt q => q == 0
  | .bool b => !b
  | .slice l => match l with
    | none => true
    | some _ => false
  | .struct fs => allZero fs
  | .ptr o => match o with
    | none => true
    | some _ => false
def allZero : List GoV → Bool
  | [] => true
  | x :: xs => isZero x && allZero xs
end

/-- `hasValue`: `isPtr` says that the field is a pointer, `x` is what it points to. -/
def hasValue (isPtr : Bool) (x : GoV) : Bool :=
  match x with
  | .slice l => l.isSome
  | x => isPtr || !isZero x

/-- A comparison with the parameter: string and slice lengths and integers with an integer (`asInt`), floats
with a float (`asFloat64`); a parameter that cannot be read is a panic, and so is any other kind of field. -/
def compare (cmpI : Int → Int → Bool) (cmpF : Rat → Rat → Bool) (p : Str) : GoV → Res
  | .str s => match parseInt p with
    | none => .panic
    | some b => .of (cmpI s.length b)
  | .int n => match parseInt p with
    | none => .panic
    | some b => .of (cmpI n b)
  | .flt q => match parseFloat p with
    | none => .panic
    | some b => .of (cmpF q b)
  | .slice l => match parseInt p with
    | none => .panic
    | some b => .of (cmpI (match l with
      | none => 0
      | some l => l.length) b)
  | .bool _ => .panic
  | .struct _ => .panic
  | .ptr _ => .panic

mutual
/-- Can values of the type be keys of a map? -/
def hashable : Sch → Bool
  | .str => true
  | .int => true
  | .num => true
  | .bool => true
  | .arr _ _ => false
  | .obj fs => hashableF fs
def hashableF : Flds → Bool
  | .nil => true
  | .cons d s r => (isFieldPointer d.required d.decoded s.isArray || hashable s) && hashableF r
end

mutual
/-- Equality of keys: pointers are compared as addresses, and decoding allocates each anew. -/
def sameKey : GoV → GoV → Bool
  | .str a, .str b => a == b
  | .int a, .int b => a == b
  | .flt a, .flt b => a == b
  | .bool a, .bool b => a == b
  | .struct a, .struct b => sameKeys a b
  | .ptr none, .ptr none => true
  | _, _ => false
def sameKeys : List GoV → List GoV → Bool
  | [], [] => true
  | a :: as, b :: bs => sameKey a b && sameKeys as bs
  | _, _ => false
end

/-- No two elements are the same key. -/
def noDup : List GoV → Bool
  | [] => true
  | x :: xs => !xs.any (sameKey x) && noDup xs

/-- `isUnique`: slices whose elements can be keys; anything else is a panic. -/
def runUnique (s : Sch) (x : GoV) : Res :=
  match s, x with
  | .arr _ e, .slice l =>
    if hashable e then .of (match l with
      | none => true
      | some l => noDup l)
    else .panic
  | _, _ => .panic

/-- `isOneOf`: strings and integers. -/
def runOneof (p : Str) : GoV → Res
  | .str s => .of ((words none p).contains s)
  | .int n => .of ((words none p).contains (if n < 0 then '-' :: Nat.toDigits 10 n.natAbs else Nat.toDigits 10 n.natAbs))
  | _ => .panic

/-- `isEq`. -/
def runEq (p : Str) (x : GoV) : Res :=
  match x with
  | .str s => .of (s == p)
  | x => compare (fun a b => a == b) (fun a b => a == b) p x

def kRequired : Str := "required".toList
def kOmitempty : Str := "omitempty".toList
def kMin : Str := "min".toList
def kMax : Str := "max".toList
def kGte : Str := "gte".toList
def kLte : Str := "lte".toList
def kGt : Str := "gt".toList
def kLt : Str := "lt".toList
def kUnique : Str := "unique".toList
def kOneof : Str := "oneof".toList
def kEq : Str := "eq".toList

/-- One directive on the value of a field (validator: `bakedInValidators`). Only the directives the generator
writes are modelled; any other name is taken as an undefined validation, which is a panic. -/
def runDir (s : Sch) (isPtr : Bool) (x : GoV) (d : Str × Str) : Res :=
  if d.1 = kRequired then .of (hasValue isPtr x)
  else if d.1 = kMin then compare (fun a b => decide (b ≤ a)) (fun a b => decide (b ≤ a)) d.2 x
  else if d.1 = kMax then compare (fun a b => decide (a ≤ b)) (fun a b => decide (a ≤ b)) d.2 x
  else if d.1 = kGte then compare (fun a b => decide (b ≤ a)) (fun a b => decide (b ≤ a)) d.2 x
  else if d.1 = kLte then compare (fun a b => decide (a ≤ b)) (fun a b => decide (a ≤ b)) d.2 x
  else if d.1 = kGt then compare (fun a b => decide (b < a)) (fun a b => decide (b < a)) d.2 x
  else if d.1 = kLt then compare (fun a b => decide (a < b)) (fun a b => decide (a < b)) d.2 x
  else if d.1 = kUnique then runUnique s x
  else if d.1 = kOneof then runOneof d.2 x
  else if d.1 = kEq then runEq d.2 x
  else .panic

/-- Is the name of a directive defined? -/
def known (n : Str) : Bool :=
  [kRequired, kOmitempty, kMin, kMax, kGte, kLte, kGt, kLt, kUnique, kOneof, kEq].contains n

/-- Alternatives: the first that passes. -/
def runAlts (s : Sch) (isPtr : Bool) (x : GoV) : List (Str × Str) → Res
  | [] => .fail
  | d :: ds => match runDir s isPtr x d with
    | .pass => .pass
    | .panic => .panic
    | .fail => runAlts s isPtr x ds

/-- Is a directive `omitempty`? -/
def isOmit : List (Str × Str) → Bool
  | [d] => d.1 == kOmitempty
  | _ => false

/-- The directives of a field, in order, then the structure inside it (validator: `traverseField`); the first
that fails is the last. -/
def loop (s : Sch) (isPtr : Bool) (x : GoV) (nested : Res) : List (List (Str × Str)) → Res
  | [] => nested
  | alts :: rest =>
    if isOmit alts then (if hasValue isPtr x then loop s isPtr x nested rest else .pass)
    else match runAlts s isPtr x alts with
      | .pass => loop s isPtr x nested rest
      | .fail => .fail
      | .panic => .panic

/-- A field (validator: `traverseField`). A nil pointer passes if it has no tag or may be empty; undefined
validations panic when the tag is read. `nested` validates the structure inside the field, if it is one. -/
def runField (s : Sch) (nested : GoV → Res) (tag : List (List (Str × Str))) (x : GoV) : Res :=
  if tag.all (fun alts => alts.all (fun d => known d.1)) then
    match x with
    | .ptr none => match tag with
      | [] => .pass
      | alts :: _ => if isOmit alts then .pass else .fail
    | .ptr (some y) => loop s true y (nested y) tag
    | y => loop s false y (nested y) tag
  else .panic

mutual
/-- What is inside a field: structures are validated, the elements of slices are not (the generator never
writes `dive`). -/
def inside : Sch → GoV → Res
  | .obj fs, .struct xs => runStruct fs xs
  | _, _ => .pass
/-- `validator.Struct` on a generated structure. A structure with too few fields is not a value of the type. -/
def runStruct : Flds → List GoV → Res
  | .nil, _ => .pass
  | .cons _ _ _, [] => .panic
  | .cons d s r, x :: xs => (runField s (inside s) (parseTag (tagText d s)) x).both (runStruct r xs)
end

end Verif.Validator
