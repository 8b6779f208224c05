import Verif.Model.Dedup

/-!
# Merging schemas (pkg/asyncapi/v3/schema.go:319-470; the same code is in pkg/asyncapi/v2/schema.go:316-467)

Schemas live on a heap and are shared through pointers. The only schemas the merge allocates are
`&Schema{ReferenceTo: v}` (for alternatives) and `&Schema{IsRequired: v.IsRequired, ReferenceTo: v}` (for object
properties); they are never modified afterwards, so they are represented by a reference of their own
(`Ref.wrap`) instead of an allocation.

Simplifications: nil and empty maps and slices are not distinguished (the merge treats them alike); fields the
merge does not touch are left out.
-/

namespace Verif.SchemaMerge

/-- A pointer to a schema. -/
inductive Ref
  | ptr (p : Nat)                         -- a schema of the document
  | wrap (r : Ref) (isRequired : Bool)    -- &Schema{IsRequired: isRequired, ReferenceTo: r}
  deriving DecidableEq, Repr

/-- The fields of a schema the merge reads or writes (v3/schema.go:30-66). -/
structure Sch where
  type : Str := []
  props : GoMap Str Ref := []
  required : List Str := []
  allOf : List Ref := []
  anyOf : List Ref := []
  oneOf : List Ref := []
  refTo : Option Ref := none
  isRequired : Bool := false
  deriving DecidableEq, Repr

/-- `"object"` -/
def object : Str := ['o', 'b', 'j', 'e', 'c', 't']

/-- `mergeWithSchemaAllOf`, `…AnyOf`, `…OneOf` (v3/schema.go:343-412): the list of `s`, that of `s2`, that of the
schema `s2` references. -/
def mergeAlternatives (s s2 : List Ref) (target : Option (List Ref)) : List Ref :=
  s ++ s2 ++ (match target with
    | some l => l.map (fun v => Ref.wrap v false)
    | none => [])

/-- The first loop of `mergeWithSchemaProperties` (v3/schema.go:426-433), in iteration order. -/
def addProps (props : GoMap Str Ref) : List (Str × Ref) → GoMap Str Ref
  | [] => props
  | (k, v) :: rest =>
    match props.get k with
    | some _ => addProps props rest
    | none => addProps (props.put k v) rest

/-- What is added for a property `v` of a referenced schema (v3/schema.go:454-463); `look` dereferences. -/
def adopt (look : Ref → Sch) (v : Ref) : Ref :=
  if (look v).type = object then .wrap v (look v).isRequired else v

/-- The loop of `mergeWithSchemaReferenceProperties` (v3/schema.go:446-469), in iteration order. -/
def addRefProps (look : Ref → Sch) (props : GoMap Str Ref) (required : List Str) :
    List (Str × Ref) → GoMap Str Ref × List Str
  | [] => (props, required)
  | (k, v) :: rest =>
    match props.get k with
    | some _ => addRefProps look props required rest
    | none =>
      addRefProps look (props.put k (adopt look v))
        (if (look v).isRequired then required ++ [k] else required) rest

/-- `MergeWith` (v3/schema.go:321-341) -/
def mergeWith (look : Ref → Sch) (s s2 : Sch) : Sch :=
  let target := s2.refTo.map look
  let props1 := addProps s.props s2.props
  let pr := match target with
    | some t => addRefProps look props1 s.required t.props
    | none => (props1, s.required)
  { s with
    type := object
    allOf := mergeAlternatives s.allOf s2.allOf (target.map (·.allOf))
    anyOf := mergeAlternatives s.anyOf s2.anyOf (target.map (·.anyOf))
    oneOf := mergeAlternatives s.oneOf s2.oneOf (target.map (·.oneOf))
    props := pr.1
    required := Dedup.removeDuplicate (pr.2 ++ s2.required) }

/-- The heap of schemas. -/
abbrev Heap := Nat → Sch

/-- Dereferencing. -/
def Heap.look (h : Heap) : Ref → Sch
  | .ptr p => h p
  | .wrap r req => { refTo := some r, isRequired := req }

/-- Writing. -/
def Heap.set (h : Heap) (p : Nat) (s : Sch) : Heap := fun q => if q = p then s else h q

end Verif.SchemaMerge
