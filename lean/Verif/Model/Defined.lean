import Verif.Model.AddProps

/-!
# Named schemas that refer to others

A component that is a `$ref` is declared with `type B A` (pkg/codegen/generators/v3/templates/schema_definition.tmpl:34 with
schema_name.tmpl:71-72; the v2 templates have the same lines). In Go such a type has the underlying type of `A` and none of
its methods (https://go.dev/ref/spec#Type_definitions), so `encoding/json` does not find the methods written for `A`
(marshaling/additional_properties.tmpl, marshaling/time.tmpl).
-/

namespace Verif.Defined

open AddProps (Field GoTy Vals)

/-- `time.Time` and the decoding of other plain types, which are not in the repository. -/
structure Lib (T : Type) where
  /-- `t.Format(time.RFC3339Nano)`, as `time.Time.MarshalJSON` writes it -/
  format : T → Str
  /-- `time.Time.UnmarshalJSON` on the contents of a JSON string -/
  parse : Str → Option T
  zero : T
  isPrint : Char → Bool
  fold : Str → Str

/-- What a declaration that is no reference says: a struct with its fields and the type of its additional properties,
a `time.Time` with methods (format date-time), a type that JSON values are decoded into without methods. -/
inductive Def
  | struct (fs : List Field) (extra : Option GoTy)
  | time
  | plain (ty : GoTy)

/-- A named schema: a declaration of its own, or a reference to another one (`ReferenceTo`). -/
inductive Decl
  | own (d : Def)
  | ref (d : Decl)

/-- Where the references lead. -/
def Decl.base : Decl → Def
  | .own d => d
  | .ref d => d.base

/-- A Go value of one of these types. -/
inductive Val (T : Type)
  | obj (vals : Vals) (adds : GoMap Str Json)
  | time (t : T)
  | plain (j : Json)

/-- `json.Unmarshal` on a struct without methods: the field `AdditionalProperties` is tagged `json:"-"`
(schema_definition.tmpl:22-25). -/
def structDecode {T : Type} (lib : Lib T) (fs : List Field) (text : Str) : Option (Val T) :=
  match Json.parse text with
  | some (.obj ms) => (AddProps.decodeAlias lib.fold fs ms (AddProps.zeroVals fs)).map (fun v => .obj v [])
  | some .null => some (.obj (AddProps.zeroVals fs) [])
  | _ => none

/-- `json.Unmarshal` on a plain type. -/
def plainDecode {T : Type} (ty : GoTy) (text : Str) : Option (Val T) :=
  match Json.parse text with
  | none => none
  | some .null => some (.plain ty.zero)
  | some j => if ty.accepts j then some (.plain j) else none

/-- `json.Unmarshal` into a type declared with its own methods (additional_properties.tmpl:38-69, time.tmpl:8-16). -/
def Def.ownDecode {T : Type} (lib : Lib T) (text : Str) : Def → Option (Val T)
  | .struct fs none => structDecode lib fs text
  | .struct fs (some ty) => (AddProps.unmarshal lib.fold fs ty text).map (fun p => .obj p.1 p.2)
  | .time => match Json.parse text with
    | some (.str s) => (lib.parse s).map .time
    | some .null => some (.time lib.zero)
    | _ => none
  | .plain ty => plainDecode ty text

/-- `json.Unmarshal` into a type with that underlying type and no methods. All fields of `time.Time` are private. -/
def Def.bareDecode {T : Type} (lib : Lib T) (text : Str) : Def → Option (Val T)
  | .struct fs _ => structDecode lib fs text
  | .time => match Json.parse text with
    | some (.obj _) => some (.time lib.zero)
    | some .null => some (.time lib.zero)
    | _ => none
  | .plain ty => plainDecode ty text

/-- `json.Unmarshal` into the declared type. -/
def Decl.decode {T : Type} (lib : Lib T) (d : Decl) (text : Str) : Option (Val T) :=
  match d with
  | .own d => d.ownDecode lib text
  | .ref d => d.base.bareDecode lib text

/-- `json.Marshal` on a struct without methods. -/
def structEncode (fs : List Field) (vals : Vals) : Str := Json.print (.obj (AddProps.declMembers fs vals))

/-- `json.Marshal` of a type with its own methods (additional_properties.tmpl:4-35, time.tmpl:3-5). `none`: the value is of
another type. -/
def Def.ownEncode {T : Type} (lib : Lib T) : Def → Val T → Option Str
  | .struct fs none, .obj vals _ => some (structEncode fs vals)
  | .struct fs (some _), .obj vals adds => some (AddProps.marshalV3 lib.isPrint (AddProps.declMembers fs vals) adds)
  | .time, .time t => some (Json.quote (lib.format t))
  | .plain _, .plain j => some (Json.print j)
  | _, _ => none

/-- `json.Marshal` of a type with that underlying type and no methods. -/
def Def.bareEncode {T : Type} : Def → Val T → Option Str
  | .struct fs _, .obj vals _ => some (structEncode fs vals)
  | .time, .time _ => some ['{', '}']
  | .plain _, .plain j => some (Json.print j)
  | _, _ => none

/-- `json.Marshal` of the declared type. -/
def Decl.encode {T : Type} (lib : Lib T) (d : Decl) (v : Val T) : Option Str :=
  match d with
  | .own d => d.ownEncode lib v
  | .ref d => d.base.bareEncode v

/-- Does the template write methods for the declaration? (schema_definition.tmpl:28-30, 37-40) -/
def Def.methods : Def → Bool
  | .struct _ extra => extra.isSome
  | .time => true
  | .plain _ => false

/-- A chain of that many references. -/
def Decl.refs : Nat → Decl → Decl
  | 0, d => d
  | n + 1, d => .ref (Decl.refs n d)

end Verif.Defined
