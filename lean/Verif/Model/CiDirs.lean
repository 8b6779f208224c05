import Verif.Base.Str

/-!
# The directories that the continuous integration runs

Models build/ci/dagger/utils.go: `directoriesAtSublevel` (:19-57) and `isDir` (:59-74), and their use for the examples
(build/ci/dagger/module.go:87-132).
-/

namespace Verif.CiDirs

/-- What is below a name: a file, a directory, or something that can be opened as neither (`Sync` returns an error both
times, utils.go:60-73). -/
inductive Entry
  | file
  | dir (es : List (Str × Entry))
  | broken

mutual

/-- `directoriesAtSublevel` (utils.go:19-57), by the number of levels that are left; `none` is an error. Simplification: listing
a directory that could be opened succeeds. -/
def dirsAt (es : List (Str × Entry)) (n : Nat) (base : Str) : Option (List Str) := loop es n base
termination_by (n, es.length + 1)

/-- The two loops of `directoriesAtSublevel` (utils.go:27-38, 40-54) over the entries that are left. -/
def loop (es : List (Str × Entry)) (n : Nat) (base : Str) : Option (List Str) :=
  match es with
  | [] => some []
  | (_, .broken) :: _ => none
  | (_, .file) :: es => loop es n base
  | (e, .dir sub) :: es =>
    match n with
    | 0 => (loop es 0 base).map (fun ps => (base ++ '/' :: e) :: ps)
    | n + 1 =>
      match dirsAt sub n (base ++ '/' :: e) with
      | none => none
      | some qs => (loop es (n + 1) base).map (fun ps => qs ++ ps)
termination_by (n, es.length)

end

/-- The two programs that are run for each directory at the third level of the examples (module.go:91-128): `go run <dir>/app`
and `go run <dir>/user`. -/
def examples (es : List (Str × Entry)) : Option (List (Str × Str)) :=
  (dirsAt es 2 "./examples".toList).map (fun ps => ps.map (fun p => (p ++ "/app".toList, p ++ "/user".toList)))

end Verif.CiDirs
