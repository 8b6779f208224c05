import Verif.Base.Json
import Verif.Base.GoMap

/-!
# Objects with additional properties

Models the generated `MarshalJSON` and `UnmarshalJSON`
(pkg/codegen/generators/v3/templates/marshaling/additional_properties.tmpl:4-69 and the v2 version, which
differs in lines 16-19). Strings are sequences of characters (invalid UTF-8 is not modelled); Go values are
represented by their JSON values.
-/

namespace Verif.AddProps

/-- Two hexadecimal digits. -/
def hex2 (n : Nat) : Str := [Json.hexDigit (n / 16 % 16), Json.hexDigit (n % 16)]

/-- How `%q` (strconv.Quote) writes a character; `isPrint` is `strconv.IsPrint` outside ASCII. -/
def goEsc (isPrint : Char → Bool) (c : Char) : Str :=
  if c = '"' then ['\\', '"']
  else if c = '\\' then ['\\', '\\']
  else if (0x20 ≤ c.toNat ∧ c.toNat < 0x7f) ∨ (0x80 ≤ c.toNat ∧ isPrint c = true) then [c]
  else if c.toNat = 7 then ['\\', 'a']
  else if c.toNat = 8 then ['\\', 'b']
  else if c.toNat = 12 then ['\\', 'f']
  else if c.toNat = 10 then ['\\', 'n']
  else if c.toNat = 13 then ['\\', 'r']
  else if c.toNat = 9 then ['\\', 't']
  else if c.toNat = 11 then ['\\', 'v']
  else if c.toNat < 0x20 ∨ c.toNat = 0x7f then '\\' :: 'x' :: hex2 c.toNat
  else if c.toNat < 0x10000 then Json.uEscape c.toNat
  else '\\' :: 'U' :: (hex2 (c.toNat / 0x1000000) ++ hex2 (c.toNat / 0x10000) ++ hex2 (c.toNat / 0x100) ++ hex2 c.toNat)

/-- `fmt.Sprintf("%q", s)` -/
def goQuote (isPrint : Char → Bool) (s : Str) : Str := '"' :: (s.flatMap (goEsc isPrint) ++ ['"'])

/-- The loop of the v3 `MarshalJSON` (additional_properties.tmpl:21-31): `needSeparator` and the rest of the
additional properties in iteration order. -/
def addLoop (isPrint : Char → Bool) : Bool → List (Str × Json) → Str
  | _, [] => []
  | needSep, (k, v) :: rest =>
    (if needSep then [','] else []) ++ goQuote isPrint k ++ ':' :: (Json.print v ++ addLoop isPrint true rest)

/-- v3 `MarshalJSON` (additional_properties.tmpl:4-35): `decl` are the members `json.Marshal` writes for the
declared properties, `adds` the additional ones in iteration order. -/
def marshalV3 (isPrint : Char → Bool) (decl adds : List (Str × Json)) : Str :=
  let b := (Json.print (.obj decl)).dropLast
  b ++ addLoop isPrint (decide (b.length > 1)) adds ++ ['}']

/-- v2 `MarshalJSON` (v2 additional_properties.tmpl:4-23, `,%q:%q`), for additional properties that are
strings. -/
def marshalV2 (isPrint : Char → Bool) (decl : List (Str × Json)) (adds : List (Str × Str)) : Str :=
  let b := (Json.print (.obj decl)).dropLast
  b ++ adds.flatMap (fun e => ',' :: (goQuote isPrint e.1 ++ ':' :: goQuote isPrint e.2)) ++ ['}']

/-- A Go type: which JSON values other than null it decodes, and its zero value. -/
structure GoTy where
  accepts : Json → Bool
  zero : Json

/-- Is it `null`? -/
def isNull : Json → Bool
  | .null => true
  | _ => false

/-- A declared property: its JSON key, type, and whether it is a pointer (absent when nil if it has
`omitempty`). -/
structure Field where
  key : Str
  ty : GoTy
  pointer : Bool
  omitEmpty : Bool

/-- Values of the declared fields; `none` is a nil pointer. -/
abbrev Vals := Str → Option Json

/-- Members `json.Marshal(alias(t))` writes for the declared fields. -/
def declMembers (fs : List Field) (vals : Vals) : List (Str × Json) :=
  fs.flatMap (fun f => match vals f.key with
    | none => if f.omitEmpty then [] else [(f.key, .null)]
    | some v => [(f.key, v)])

/-- The field a key is decoded into by `encoding/json`: the exact one, otherwise one equal under `fold`
(case folding). -/
def findField (fold : Str → Str) (fs : List Field) (k : Str) : Option Field :=
  match fs.find? (fun f => f.key == k) with
  | some f => some f
  | none => fs.find? (fun f => fold f.key == fold k)

/-- Decoding a JSON value into a field that holds `old`: null resets a pointer and leaves a value alone. -/
def decodeField (f : Field) (old : Option Json) (j : Json) : Option (Option Json) :=
  if isNull j then some (if f.pointer then none else old)
  else if f.ty.accepts j then some (some j) else none

/-- `json.Unmarshal(data, &a)` into the alias (additional_properties.tmpl:49-52); `none` is an error. -/
def decodeAlias (fold : Str → Str) (fs : List Field) : List (Str × Json) → Vals → Option Vals
  | [], vals => some vals
  | (k, j) :: ms, vals =>
    match findField fold fs k with
    | none => decodeAlias fold fs ms vals
    | some f =>
      match decodeField f (vals f.key) j with
      | none => none
      | some v => decodeAlias fold fs ms (fun k' => if k' = f.key then v else vals k')

/-- `json.Unmarshal(data, &m)` into `map[string]T` (additional_properties.tmpl:42-45). -/
def decodeMap (ty : GoTy) : List (Str × Json) → GoMap Str Json → Option (GoMap Str Json)
  | [], m => some m
  | (k, j) :: ms, m =>
    if isNull j then decodeMap ty ms (m.put k ty.zero)
    else if ty.accepts j then decodeMap ty ms (m.put k j) else none

/-- The zero value of the declared fields. -/
def zeroVals (fs : List Field) : Vals := fun k =>
  match fs.find? (fun f => f.key == k) with
  | none => none
  | some f => if f.pointer then none else some f.ty.zero

/-- `UnmarshalJSON` (additional_properties.tmpl:38-69): the declared fields and the additional properties.
The final loop over `m` keeps the keys not declared; decoding null into the map and the alias does nothing. -/
def unmarshal (fold : Str → Str) (fs : List Field) (ty : GoTy) (text : Str) : Option (Vals × GoMap Str Json) :=
  match Json.parse text with
  | some (.obj ms) =>
    match decodeMap ty ms [], decodeAlias fold fs ms (zeroVals fs) with
    | some m, some vals => some (vals, m.filter (fun e => !decide (e.1 ∈ fs.map (·.key))))
    | _, _ => none
  | some .null => some (zeroVals fs, [])
  | _ => none

end Verif.AddProps
