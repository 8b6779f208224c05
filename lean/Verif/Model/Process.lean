import Verif.Model.SchemaMerge

/-!
# Processing the schemas of a document (pkg/asyncapi/v3/schema.go:171-304, pkg/asyncapi/v2/schema.go:117-156, 170-300)

`setDependencies` of a schema visits the schemas below it. In version 2 a reference copies the lists `allOf`, `anyOf` and
`oneOf` of its target (pkg/asyncapi/schema.go:84-92), so those are visited as well; in version 3 the schema has lists of its
own that hide the embedded ones (v3/schema.go:45-47), and the copied ones stay empty. Nothing remembers what is being
visited. The model counts the depth of the calls.

Simplifications: every reference leads to a schema (an error ends the processing, it visits nothing more); the copied slices
are not shared; only the fields that decide what is visited are kept, with the required names.
-/

namespace Verif.Process

open SchemaMerge (Ref Sch Heap mergeWith)

/-- What processing does not change: the target of the `$ref` of a schema, the schemas visited before the compositions
besides the properties (v3: pattern and additional properties, additional items, items, contains; v2: items) and those
visited after (v3: not; v2: additional properties). (v3/schema.go:193-221, 238-240; v2/schema.go:133-136, 151-153)
`copies` is the version: in version 2 the lists of alternatives are those of `Validations`, which a reference merges
(v2/schema.go:31-52); in version 3 they are fields of the schema (v3/schema.go:45-47). -/
structure Doc where
  copies : Bool
  refs : Nat → Option Nat
  before : Nat → List Nat
  after : Nat → List Nat

/-- `if len(newV.X) > 0 { v.X = newV.X }` (pkg/asyncapi/schema.go:36-38, 84-92) -/
def pick {α : Type} (new old : List α) : List α := if new.length > 0 then new else old

/-- The alternatives after `Validations.Merge` (pkg/asyncapi/schema.go:84-92): in version 3 the merged lists are not those
of the schema. -/
def alternatives (d : Doc) (new old : List Ref) : List Ref := if d.copies then pick new old else old

/-- `setReference` (v3/schema.go:290-304, v2/schema.go:110-126) with the part of `Validations.Merge` that matters
(pkg/asyncapi/schema.go:36-38, 84-95). -/
def setReference (d : Doc) (h : Heap) (s : Nat) : Heap :=
  match d.refs s with
  | none => h
  | some t => h.set s { h s with
      refTo := some (.ptr t)
      required := pick (h t).required (h s).required
      allOf := alternatives d (h t).allOf (h s).allOf
      anyOf := alternatives d (h t).anyOf (h s).anyOf
      oneOf := alternatives d (h t).oneOf (h s).oneOf
      isRequired := (h t).isRequired || (h s).isRequired }

/-- `for _, p := range … { p.setDependencies(spec) }` (v3/schema.go:183-187) -/
def visitAll (visit : Heap → Ref → Option Heap) : Heap → List Ref → Option Heap
  | h, [] => some h
  | h, v :: vs => match visit h v with
    | none => none
    | some h1 => visitAll visit h1 vs

/-- `setAllOfDependenciesAndMerge` and its like (v3/schema.go:245-288, v2/schema.go:206-284): each branch is visited, then
merged. Go ranges over the list as it is when the loop starts. -/
def visitMerge (visit : Heap → Ref → Option Heap) (s : Nat) : Heap → List Ref → Option Heap
  | h, [] => some h
  | h, v :: vs => match visit h v with
    | none => none
    | some h1 => visitMerge visit s (h1.set s (mergeWith h1.look (h1 s) (h1.look v))) vs

/-- The steps of `setDependencies` after the reference and the properties (v3/schema.go:190-240, v2/schema.go:133-153). -/
def visitRest (d : Doc) (visit : Heap → Ref → Option Heap) (s : Nat) (h : Heap) : Option Heap :=
  (visitAll visit h ((d.before s).map Ref.ptr)).bind fun h =>
  (visitMerge visit s h (h s).anyOf).bind fun h =>
  (visitMerge visit s h (h s).oneOf).bind fun h =>
  (visitMerge visit s h (h s).allOf).bind fun h =>
  visitAll visit h ((d.after s).map Ref.ptr)

/-- `setDependencies` (v3/schema.go:171-243, v2/schema.go:117-156) with calls nested at most so deep; `none` when that is not
enough. `ord` is the order in which Go ranges over the properties. A schema allocated by a merge has neither `$ref` nor
children. -/
def setDependencies (d : Doc) (ord : Heap → Nat → List Ref) : Nat → Heap → Ref → Option Heap
  | 0, _, _ => none
  | _ + 1, h, .wrap _ _ => some h
  | n + 1, h, .ptr s =>
    (visitAll (setDependencies d ord n) (setReference d h s) (ord (setReference d h s) s)).bind
      (visitRest d (setDependencies d ord n) s)

/-- The schemas of the document that are processed for themselves, in the order Go ranges over the maps that hold them:
those of the components, then payloads and headers of messages (pkg/asyncapi/v3/components.go, message.go:115-165). -/
def processAll (d : Doc) (ord : Heap → Nat → List Ref) (n : Nat) (h : Heap) (roots : List Nat) : Option Heap :=
  visitAll (setDependencies d ord n) h (roots.map Ref.ptr)

end Verif.Process
