import Verif.Base.Str

/-!
# Which file a relative reference names

Relative references are resolved against the location of the file they stand in (AsyncAPI 3.0.0, "Reference Object"; RFC 3986,
section 5). A location is the list of the folders from the root, with the name of the file last.
-/

namespace Verif.RefFiles

/-- One element of a path. -/
def walk (loc : List Str) (seg : Str) : List Str :=
  if seg = [] ∨ seg = ['.'] then loc else if seg = ['.', '.'] then loc.dropLast else loc ++ [seg]

/-- The location of a path, seen from a folder. -/
def locate (folder : List Str) (path : Str) : List Str :=
  (Str.split '/' path).foldl walk (if path.head? = some '/' then [] else folder)

/-- The command runs in the folder `cwd`. In the file given as `here`, the file part `file` of a reference names the file
given as `there`. -/
def Names (cwd : List Str) (here file there : Str) : Prop :=
  (if file = [] then locate cwd here else locate (locate cwd here).dropLast file) = locate cwd there

/-- A relative path without empty elements, `.` and `..`, maybe with `./` in front. -/
def Tidy (path : Str) : Prop :=
  ∃ segs, segs ≠ [] ∧ (∀ s ∈ segs, s ≠ [] ∧ s ≠ ['.'] ∧ s ≠ ['.', '.'] ∧ '/' ∉ s) ∧
    (path = Str.join '/' segs ∨ path = '.' :: '/' :: Str.join '/' segs)

/-- The same, of one element: a file of the folder the command runs in. -/
def Local (path : Str) : Prop :=
  ∃ s, s ≠ [] ∧ s ≠ ['.'] ∧ s ≠ ['.', '.'] ∧ '/' ∉ s ∧ (path = s ∨ path = '.' :: '/' :: s)

end Verif.RefFiles
