import Verif.Model.SchemaMerge

/-!
# Composing the schemas of a document (pkg/asyncapi/v3/schema.go:171-304)

`setDependencies` of every component, in the order in which the components map is ranged over (any order).
Simplification: the branches of a composition are references or flat objects (their own dependencies, besides
the reference, are not modelled), and so are the properties.
-/

namespace Verif.SchemaMerge

/-- The document: where the `$ref` of each schema leads, if it has one. -/
abbrev Refs := Nat → Option Nat

/-- `setReference` (v3/schema.go:290-304): the reference, and of `Validations.Merge` the part that matters here
(pkg/asyncapi/schema.go:36-38, 93-95). -/
def setReference (refs : Refs) (h : Heap) (b : Nat) : Heap :=
  match refs b with
  | none => h
  | some t => h.set b { h b with
      refTo := some (.ptr t)
      required := if (h t).required.length > 0 then (h t).required else (h b).required
      isRequired := (h t).isRequired || (h b).isRequired }

/-- One round of the loops of `setAllOfDependenciesAndMerge`, … (v3/schema.go:245-288): the dependencies of the
branch, then the merge. -/
def branchStep (refs : Refs) (s : Nat) (h : Heap) (r : Ref) : Heap :=
  let h1 := match r with
    | .ptr b => setReference refs h b
    | .wrap _ _ => h
  h1.set s (mergeWith h1.look (h1 s) (h1.look r))

/-- `setDependencies` (v3/schema.go:171-243): Go ranges over the list as it is when the loop starts. -/
def setDependencies (refs : Refs) (h : Heap) (s : Nat) : Heap :=
  let h0 := setReference refs h s
  let h1 := (h0 s).anyOf.foldl (branchStep refs s) h0
  let h2 := (h1 s).oneOf.foldl (branchStep refs s) h1
  (h2 s).allOf.foldl (branchStep refs s) h2

/-- `setDependencies` of the components, in iteration order (pkg/asyncapi/v3/components.go). -/
def processAll (refs : Refs) (order : List Nat) (h : Heap) : Heap := order.foldl (setDependencies refs) h

end Verif.SchemaMerge
