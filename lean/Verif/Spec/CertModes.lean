import Verif.Model.CertModes

namespace Verif.CertModes

/-- Users of a class can read the file at a path below some directories: they may pass all directories and read it. -/
def Readable (dirs : List Str) (t : Tree) (w : Who) (p : Str) : Prop :=
  (∀ d ∈ dirs, ∃ b, t.dirs d = some b ∧ b w .exec = true) ∧ ∃ g b, t.files p = some (g, b) ∧ b w .read = true

/-- There is nothing yet. -/
def Empty (dirs paths : List Str) (t : Tree) : Prop := (∀ d ∈ dirs, t.dirs d = none) ∧ ∀ p ∈ paths, t.files p = none

/-- The umask takes the right to read from a class of users. -/
def Masks (w : Who) : Ev → Prop
  | .run umask _ => umask w .read = true
  | .delete _ => True

end Verif.CertModes
