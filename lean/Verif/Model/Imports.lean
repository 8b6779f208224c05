import Verif.Base.Str
import Verif.Base.GoMap

/-!
# Custom imports

Models `goTypeImports`, `CustomImports` and `importsMapToList` of pkg/asyncapi/v2/extensions.go:40-118 and
pkg/asyncapi/v3/extensions.go:40-112. Maps are lists in the order of iteration of the run considered: the
theorems hold for every order.
-/

namespace Verif.Imports

/-- `GoTypeImportExtension` (pkg/asyncapi/v3/extensions.go:25-31) -/
structure Import where
  name : Str
  path : Str
  deriving DecidableEq, Repr

/-- A schema: its own import, its properties, its items, and the schemas it holds elsewhere
(additionalProperties, allOf, anyOf, oneOf, not, definitions, …). -/
inductive Sch
  | mk (own : Option Import) (props : List (Str × Sch)) (items : Option Sch) (others : List Sch)

/-- `map[GoTypeImportPath]GoTypeImportName` -/
abbrev Set := GoMap Str Str

/-- The part of `goTypeImports` for the schema's own import; `none` is the conflict error.
(pkg/asyncapi/v3/extensions.go:55-67) -/
def addOwn (own : Option Import) (m : Set) : Option Set :=
  match own with
  | none => some m
  | some i =>
    match m.get i.path with
    | some n => if n ≠ i.name then none else some m
    | none => some (m.put i.path i.name)

mutual
/-- `goTypeImports` (pkg/asyncapi/v3/extensions.go:40-69) -/
def visit : Sch → Set → Option Set
  | .mk own props items _, m =>
    ((visitProps props m).bind (visitItems items)).bind (addOwn own)
/-- The loop over the properties. (pkg/asyncapi/v3/extensions.go:42-46) -/
def visitProps : List (Str × Sch) → Set → Option Set
  | [], m => some m
  | (_, s) :: ps, m =>
    (visit s m).bind (visitProps ps)
/-- The items. (pkg/asyncapi/v3/extensions.go:49-53) -/
def visitItems : Option Sch → Set → Option Set
  | none, m => some m
  | some s, m => visit s m
end

/-- A message of the components. -/
structure Msg where
  payload : Option Sch
  headers : Option Sch

/-- A document: its components, and the messages declared inside channels. -/
structure Doc where
  v2 : Bool
  schemas : List (Str × Sch)
  messages : List (Str × Msg)
  params : List (Str × Option Sch)
  inline : List Msg

/-- The loop over the messages. (pkg/asyncapi/v3/extensions.go:84-96) -/
def visitMsgs : List (Str × Msg) → Set → Option Set
  | [], m => some m
  | (_, g) :: gs, m =>
    ((visitItems g.payload m).bind (visitItems g.headers)).bind (visitMsgs gs)

/-- The loop over the parameters, in v2 only. (pkg/asyncapi/v2/extensions.go:98-104) -/
def visitParams : List (Str × Option Sch) → Set → Option Set
  | [], m => some m
  | (_, p) :: ps, m =>
    (visitItems p m).bind (visitParams ps)

/-- `importsMapToList` (pkg/asyncapi/v3/extensions.go:103-112), before formatting. -/
def toList (m : Set) : List Import :=
  (m.filter (fun e => !decide (e.1 = []))).map (fun e => ⟨e.2, e.1⟩)

/-- The parameters of the components: searched in v2, not in v3. (pkg/asyncapi/v2/extensions.go:98-104,
pkg/asyncapi/v3/extensions.go:98) -/
def params (d : Doc) (m : Set) : Option Set := if d.v2 then visitParams d.params m else some m

/-- `CustomImports` (pkg/asyncapi/v3/extensions.go:75-101), before formatting; `none` is the error. -/
def customImports (d : Doc) : Option (List Import) :=
  (((visitProps d.schemas []).bind (visitMsgs d.messages)).bind (params d)).map toList

end Verif.Imports
