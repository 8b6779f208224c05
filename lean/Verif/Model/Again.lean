import Verif.Model.Required

/-!
# Generating several times from one document (pkg/codegen/codegen.go:84-103)

Each call of `Generate` processes the document again (codegen.go:101, pkg/asyncapi/v3/specification.go:54-60): metadata first,
then dependencies, on the schemas as the previous call left them.

Simplification: the schemas only; trees of schemas are those of the document, which is so as long as nothing is composed.
-/

namespace Verif.Again

open SchemaMerge (Ref Sch Heap)
open Required (Node markRoots)
open Process (Doc processAll)

/-- `Specification.Process` (v3/specification.go:54-60, v2/specification.go:67-73) on the schemas; `none` when the calls nest
deeper than `n`. -/
def process (d : Doc) (ord : Heap → Nat → List Ref) (n : Nat) (ns : List Node) (roots : List Nat) (h : Heap) : Option Heap :=
  processAll d ord n (markRoots h ns) roots

/-- One call of `Generate`: the orders in which Go happens to walk the maps. -/
structure Call where
  ord : Heap → Nat → List Ref
  roots : List Nat
  depth : Nat

/-- Several calls, one after the other (codegen.go:84-103). -/
def calls (d : Doc) (ns : List Node) : List Call → Heap → Option Heap
  | [], h => some h
  | c :: cs, h => match process d c.ord c.depth ns c.roots h with
    | none => none
    | some h' => calls d ns cs h'

end Verif.Again
