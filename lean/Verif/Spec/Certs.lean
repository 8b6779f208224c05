import Verif.Model.Certs

namespace Verif.Certs

/-- All files are there, written completely, and belong together. -/
def Usable (paths : List Str) (d : Disk) : Prop := ∃ gen, ∀ p ∈ paths, d p = some ⟨gen, true⟩

/-- The files that are there are complete and belong together. -/
def Sound (paths : List Str) (d : Disk) : Prop := ∃ gen, ∀ p ∈ paths, d p = none ∨ d p = some ⟨gen, true⟩

/-- A history in which every crash happens in a run that found the last file missing, and before it gets to write that
file. -/
def Harmless (paths : List Str) : Disk → List Ev → Prop
  | _, [] => True
  | d, .crash gen k :: evs =>
    (∃ l, paths.getLast? = some l ∧ d l = none) ∧ k < 2 * paths.length - 1 ∧ Harmless paths (step paths d (.crash gen k)) evs
  | d, ev :: evs => Harmless paths (step paths d ev) evs

end Verif.Certs
