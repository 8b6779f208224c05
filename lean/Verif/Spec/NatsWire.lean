import Verif.Model.Transport

/-! # What survives the wire of NATS -/

namespace Verif.Transport

/-- A blank, a tabulator or the end of a line. -/
def Blank (b : UInt8) : Prop := b = 32 ∨ b = 9 ∨ b = 10 ∨ b = 13

/-- The end of a line. -/
def Eol (b : UInt8) : Prop := b = 10 ∨ b = 13

/-- A name of ASCII letters, digits and the punctuation marks below. -/
def Token (k : String) : Prop :=
  k ≠ "" ∧ ∀ c ∈ k.toList, c.isAlphanum = true ∨ c ∈ "!#$%&'*+-.^_`|~".toList

/-- Neither the first nor the last byte is blank. -/
def Tight (v : Bytes) : Prop := (∀ b, v.head? = some b → ¬ Blank b) ∧ ∀ b, v.getLast? = some b → ¬ Blank b

/-- `w` is `v` without the blanks around it, in one line. -/
def Cleaned (v w : Bytes) : Prop :=
  ∃ before mid after, v = before ++ mid ++ after ∧ (∀ b ∈ before, Blank b) ∧ (∀ b ∈ after, Blank b) ∧ Tight mid ∧
    w.length = mid.length ∧ ∀ (i : Nat) (b : UInt8), mid[i]? = some b → (Eol b → w[i]? = some 32) ∧ (¬ Eol b → w[i]? = some b)

/-- A value of one line without blanks around it. -/
def OneLine (v : Bytes) : Prop := Tight v ∧ ∀ b ∈ v, ¬ Eol b

end Verif.Transport
