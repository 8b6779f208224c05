import Verif.Model.Types

/-! # What is used, what is declared -/

namespace Verif.Types

/-- The declared type names an expression refers to. -/
def Ty.names : Ty → List Str
  | .named n => [n]
  | .slice t => t.names
  | _ => []

/-- The type names a declaration refers to. -/
def Body.uses : Body → List Str
  | .struct fs x => fs.flatMap (fun f => f.2.names) ++ (match x with
    | some t => t.names
    | none => [])
  | .alias t => t.names

/-- The names that are declared. -/
def declared (ds : List Decl) : List Str := ds.map (·.name)

/-- `t` occurs in `s` (itself, or below properties, items, additional properties). -/
inductive Sub : Sch → Sch → Prop
  | refl (s : Sch) : Sub s s
  | prop {u t s : Sch} (k : Str) (h : (k, t) ∈ s.props) (hu : Sub u t) : Sub u s
  | items {u t s : Sch} (h : s.items = some t) (hu : Sub u t) : Sub u s
  | extra {u t s : Sch} (h : s.extra = some t) (hu : Sub u t) : Sub u s

/-- Nowhere an array of arrays. -/
def NoNested (s : Sch) : Prop :=
  ∀ t, Sub t s → t.info.type = tArray → ∀ u, t.items = some u → u.info.type ≠ tArray

/-- A name coming from a reference in `s`. -/
def FromRef (c : Cfg) (s : Sch) (n : Str) : Prop := ∃ t r, Sub t s ∧ t.info.ref = some r ∧ n = c.nm r

/-- A message written in place. -/
def Written (d : Doc) (m : Msg) : Prop :=
  m.ref = none ∧ ((∃ k, (k, m) ∈ d.messages) ∨ ∃ c ms k, (c, ms) ∈ d.channels ∧ (k, m) ∈ ms)

/-- The schemas of a document: headers and payloads of its messages, component schemas. -/
def Root (d : Doc) (s : Sch) : Prop :=
  (∃ m, Written d m ∧ (m.headers = some s ∨ m.payload = some s)) ∨ ∃ k, (k, s) ∈ d.schemas

/-- All object schemas of a list get their declaration. -/
def objectNames (c : Cfg) (l : List Sch) : List Str := (l.filter (fun s => s.info.type = tObject)).map (fun s => c.nm s.info.name)

mutual
/-- All schemas in a schema. -/
def Sch.all : Sch → List Sch
  | .node i props items extra => .node i props items extra :: (allProps props ++ (allOpt items ++ allOpt extra))
def allProps : List (Str × Sch) → List Sch
  | [] => []
  | (_, s) :: rest => s.all ++ allProps rest
def allOpt : Option Sch → List Sch
  | none => []
  | some s => s.all
end

/-- The names given by a schema: its own and those of the objects below. -/
def Sch.given (c : Cfg) (s : Sch) : List Str :=
  (if s.info.type = tObject then c.nm s.info.name else s.info.name) :: objectNames c s.all.tail

/-- The names given by a message. -/
def Msg.given (c : Cfg) (m : Msg) : List Str :=
  (match m.headers with
    | some h => h.given c
    | none => []) ++ ((match m.payload with
    | some p => p.given c
    | none => []) ++ [c.nm m.name])

/-- The names given by a document. -/
def Doc.given (c : Cfg) (d : Doc) : List Str :=
  (((d.channels.flatMap (fun e => e.2)).map (·.2)).filter (fun m => m.ref.isNone)).flatMap (Msg.given c) ++
    (((d.messages.map (·.2)).filter (fun m => m.ref.isNone)).flatMap (Msg.given c) ++
      (d.schemas.map (·.2)).flatMap (Sch.given c))

/-- The same schema, listed in another order. -/
inductive Reorder : Sch → Sch → Prop
  | refl (s : Sch) : Reorder s s
  | trans {a b c : Sch} : Reorder a b → Reorder b c → Reorder a c
  | here (i : Info) {p q : List (Str × Sch)} (items extra : Option Sch) (h : p.Perm q) :
      Reorder (.node i p items extra) (.node i q items extra)
  | prop (i : Info) (a b : List (Str × Sch)) (k : Str) {s s' : Sch} (items extra : Option Sch) (h : Reorder s s') :
      Reorder (.node i (a ++ (k, s) :: b) items extra) (.node i (a ++ (k, s') :: b) items extra)
  | items (i : Info) (p : List (Str × Sch)) {s s' : Sch} (extra : Option Sch) (h : Reorder s s') :
      Reorder (.node i p (some s) extra) (.node i p (some s') extra)
  | extra (i : Info) (p : List (Str × Sch)) (items : Option Sch) {s s' : Sch} (h : Reorder s s') :
      Reorder (.node i p items (some s)) (.node i p items (some s'))

/-- A declaration up to the order of its fields (which are printed in key order). -/
def Decl.shape (d : Decl) : Str × ((Str × Ty → Nat) × Option Ty ⊕ Ty) :=
  (d.name, match d.body with
    | .struct fs x => .inl (fun f => fs.count f, x)
    | .alias t => .inr t)

/-- The same declarations, in any order; or a failure on both sides. -/
def Agree : Except Err (List Decl) → Except Err (List Decl) → Prop
  | .ok x, .ok y => (x.map Decl.shape).Perm (y.map Decl.shape)
  | .error _, .error _ => True
  | _, _ => False

/-! How Go reads the line of a field: the text between backquotes, unless a comment or the end of the line comes first. -/

/-- The struct tag of a field. -/
def tagOf : Str → Option Str
  | [] => none
  | '\n' :: _ => none
  | '/' :: '/' :: _ => none
  | '`' :: r => some (r.takeWhile (· != '`'))
  | _ :: r => tagOf r

/-- The name `encoding/json` gives to a field. -/
inductive JsonName
  | named (n : Str)
  | goName           -- the name of the Go field
  | ignored          -- the field is skipped
  | other            -- not a `json` tag, or one with escapes
  deriving DecidableEq, Repr

/-- Characters `encoding/json` accepts in the name of a tag (`isValidTag`); `letter`: letters and digits of Unicode. -/
def tagChar (letter : Char → Bool) (ch : Char) : Bool :=
  letter ch || "!#$%&()*+-./:;<=>?@[]^_{|}~ ".toList.contains ch

/-- `letter` is false on the characters with a meaning in tags. -/
def Letters (letter : Char → Bool) : Prop := ∀ ch ∈ ['"', '\\', '`', ',', '\'', '\n'], letter ch = false

/-- `encoding/json` on the value of a `json` tag. -/
def jsonName (letter : Char → Bool) (value : Str) : JsonName :=
  if value = ['-'] then .ignored
  else
    let n := value.takeWhile (· != ',')
    if n ≠ [] ∧ n.all (tagChar letter) then .named n else .goName

/-- `reflect.StructTag` on a tag that begins with `json:"…"`. -/
def readJson (letter : Char → Bool) (tag : Str) : JsonName :=
  if tag.take 6 = "json:\"".toList then
    let v := (tag.drop 6).takeWhile (· != '"')
    if '\\' ∈ v then .other else jsonName letter v
  else .other

/-- `reflect.StructTag` for `validate`, on a tag that begins with `json:"…"`. -/
def readValidate (tag : Str) : Option Str :=
  let rest := ((tag.drop 6).dropWhile (· != '"')).drop 1
  if rest.take 11 = " validate:\"".toList then some ((rest.drop 11).takeWhile (· != '"')) else none

/-- The JSON name of the field on a line; without a tag, the name of the Go field. -/
def readField (letter : Char → Bool) (line : Str) : JsonName :=
  match tagOf line with
  | some tag => readJson letter tag
  | none => .goName

/-- Text without line breaks, slashes and backquotes. -/
def Clean (s : Str) : Prop := ∀ ch ∈ s, ch ≠ '\n' ∧ ch ≠ '/' ∧ ch ≠ '`'

/-- A type expression that is no placeholder for an unknown schema. -/
def Ty.Typed : Ty → Prop
  | .any => False
  | .unknown _ => False
  | .named n => Clean n
  | .custom t => Clean t
  | .slice t => t.Typed
  | _ => True

/-- The innermost element of a type expression is a placeholder. -/
def Ty.Untyped : Ty → Prop
  | .any => True
  | .unknown _ => True
  | .slice t => t.Untyped
  | _ => False

end Verif.Types
