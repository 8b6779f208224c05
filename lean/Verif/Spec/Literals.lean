import Verif.Base.GoLit

/-! # What a line of Go says: its first string literal, and which part of it is a comment -/

namespace Verif.Literals

/-- The first string literal of a line: what precedes it, its value, and what follows it. -/
def firstLit : Str → Option (Str × Str × Str)
  | [] => none
  | c :: s =>
    if c = '"' then (GoLit.readStr s).map (fun r => ([], r.1, r.2))
    else (firstLit s).map (fun r => (c :: r.1, r.2.1, r.2.2))

/-- A text that a Go string literal may hold as it is. -/
def Plain (s : Str) : Prop := ∀ c ∈ s, c ≠ '"' ∧ c ≠ '\\' ∧ c ≠ '\n'

instance (s : Str) : Decidable (Plain s) := inferInstanceAs (Decidable (∀ c ∈ s, c ≠ '"' ∧ c ≠ '\\' ∧ c ≠ '\n'))

/-- The text of a comment that starts at the beginning of a text, and what follows it: a comment ends with
its line. -/
def comment : Str → Option (Str × Str)
  | '/' :: '/' :: s => some (s.takeWhile (· ≠ '\n'), s.dropWhile (· ≠ '\n'))
  | _ => none

end Verif.Literals
