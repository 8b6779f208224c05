import Verif.Model.Naming

/-! # Names that are stable under camel-casing, and what `encoding/json` writes of a struct -/

namespace Verif.Strcase

open Naming

/-- Every two neighbours are related. -/
def Pairs (R : Nat → Nat → Prop) : Bytes → Prop
  | [] => True
  | [_] => True
  | a :: b :: s => R a b ∧ Pairs R (b :: s)

/-- An exported Go name: ASCII letters and digits, a capital first. -/
def Exported (s : Bytes) : Prop := (∀ b ∈ s, isAlnum b = true) ∧ ∃ b t, s = b :: t ∧ isUpper b = true

/-- Written in camel case: no capital after a capital, no small letter after a digit, no small letter first. -/
def Camel (s : Bytes) : Prop :=
  Pairs (fun a b => ¬ (isUpper a = true ∧ isUpper b = true) ∧ ¬ (isDigit a = true ∧ isLower b = true)) s ∧
  ∀ b t, s = b :: t → isLower b = false

/-- The JSON names that `encoding/json` uses for the fields of a struct, given their tags: a name that two
fields have is dropped, and the fields with it (encoding/json, `dominantField`). -/
def jsonNames {A : Type} [DecidableEq A] (tags : List A) : List A := tags.filter (fun t => tags.count t == 1)

end Verif.Strcase
