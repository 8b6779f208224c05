import Verif.Model.Variants

/-!
# Fields that are pointers, with and without the option to force pointers

Otherwise as in `Values` and `Variants`.
-/

namespace Verif.Values

/-- `isFieldPointer` as it is after `ForcePointerOnFields` (pkg/codegen/generators/v3/templates/helpers.go:130-139,
v2/templates/helpers.go:144-153; called when the option is given, pkg/codegen/codegen.go:88-97). -/
def pointer (force : Bool) (f : F) : Bool := if force then !f.type.isSlice else f.ptr

end Verif.Values
