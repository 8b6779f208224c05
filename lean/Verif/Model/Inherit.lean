import Verif.Model.Validations

/-!
# Constraints inherited through references (pkg/asyncapi/v3/schema.go:290-304, pkg/asyncapi/v2/schema.go:110-126)

A reference takes the constraints its target has when the reference is processed. Simplification: compositions, which also
add required names, are left out (see `Verif.SchemaMerge`).
-/

namespace Verif.Inherit

open Validations (V)

/-- The constraints of every schema. -/
abbrev Heap := Nat → V

/-- `setReference` (v3/schema.go:290-304, v2/schema.go:119-126): `s.Validations.Merge(refTo.Validations)`. -/
def setReference (refs : Nat → Option Nat) (h : Heap) (s : Nat) : Heap :=
  match refs s with
  | none => h
  | some t => fun q => if q = s then Validations.merge (h s) (h t) else h q

/-- The schemas in the order they are visited; some are visited several times (v3/schema.go:171-243). -/
def process (refs : Nat → Option Nat) (h : Heap) (order : List Nat) : Heap := order.foldl (setReference refs) h

end Verif.Inherit
