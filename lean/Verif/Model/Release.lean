import Verif.Model.Values

/-!
# Releases (build/ci/dagger/git.go:41-219, build/ci/dagger/docker_image.go:20-75, build/ci/dagger/module.go:150-169)

What `Publish` does to the git repository and to the image registry. Simplification: the commands succeed, and git answers
with the given commit, branch and tag; the caches of the `Git` struct only repeat these answers.
-/

namespace Verif.Release

open Verif.Values (readDigits showInt fits)

/-- Errors of reading a tag. -/
inductive Err
  | format      -- "invalid tag format" (git.go:142)
  | number      -- the error of strconv.Atoi
  deriving DecidableEq, Repr

/-- An optional sign and at least one digit. -/
def signed : Str → Option Int
  | [] => none
  | c :: s =>
    if c = '-' then (if s = [] then none else (readDigits 0 s).map (fun (n : Nat) => - (n : Int)))
    else if c = '+' then (if s = [] then none else (readDigits 0 s).map (fun (n : Nat) => (n : Int)))
    else (readDigits 0 (c :: s)).map (fun (n : Nat) => (n : Int))

/-- `strconv.Atoi` for an `int` of 64 bits. -/
def atoi (s : Str) : Except Err Int :=
  match signed s with
  | some n => if fits 64 n then .ok n else .error .number
  | none => .error .number

/-- A version. -/
structure Version where
  major : Int
  minor : Int
  patch : Int
  deriving DecidableEq, Repr

/-- `strings.TrimPrefix(tag, "v")` -/
def trimV : Str → Str
  | 'v' :: s => s
  | s => s

/-- `GetLastSemanticVersionedTag` (git.go:129-160) -/
def parseTag (tag : Str) : Except Err Version :=
  match Str.split '.' (trimV tag) with
  | [a, b, c] =>
    match atoi a with
    | .error e => .error e
    | .ok major => match atoi b with
      | .error e => .error e
      | .ok minor => match atoi c with
        | .error e => .error e
        | .ok patch => .ok ⟨major, minor, patch⟩
  | _ => .error .format

/-- Adding 1 to an `int` of 64 bits wraps around. -/
def succ64 (n : Int) : Int := if n = 2 ^ 63 - 1 then - 2 ^ 63 else n + 1

/-- The switch of `GetNewSemVerIfNeeded` (git.go:181-193); `none`: no new version. -/
def bump (title : Str) (v : Version) : Option Version :=
  if "BREAKING CHANGE".toList.isPrefixOf title then some ⟨succ64 v.major, 0, 0⟩
  else if "feat".toList.isPrefixOf title then some ⟨v.major, succ64 v.minor, 0⟩
  else if "fix".toList.isPrefixOf title then some ⟨v.major, v.minor, succ64 v.patch⟩
  else none

/-- `fmt.Sprintf("v%d.%d.%d", …)` (git.go:196) -/
def showVersion (v : Version) : Str :=
  'v' :: (showInt v.major ++ '.' :: (showInt v.minor ++ '.' :: showInt v.patch))

/-- The branch that releases (docker_image.go:53). -/
def mainBranch : Str := "main".toList

/-- What git answers: the last commit's message and short hash, the branch, the last tag. -/
structure Repo where
  title : Str
  sha : Str
  branch : Str
  lastTag : Str
  deriving DecidableEq, Repr

/-- `GetNewSemVerIfNeeded` (git.go:162-199): the empty string is "no new version". -/
def newSemVer (r : Repo) : Except Err Str :=
  match parseTag r.lastTag with
  | .error e => .error e
  | .ok v => match bump r.title v with
    | some v' => .ok (showVersion v')
    | none => .ok []

/-- Effects of a publication. -/
inductive Eff
  | pushTag (tag : Str)     -- git tag, git push --tags (git.go:214-217)
  | image (tag : Str)       -- push of the image under a tag
  deriving DecidableEq, Repr

/-- `PushNewSemVerIfNeeded` (git.go:201-219) -/
def pushNewSemVer (r : Repo) : Except Err (List Eff) :=
  match newSemVer r with
  | .error e => .error e
  | .ok [] => .ok []
  | .ok tag => .ok [.pushTag tag]

/-- `publishDocker` (docker_image.go:20-75) -/
def publishDocker (r : Repo) : List Eff × Option Err :=
  if r.branch ≠ mainBranch then ([.image r.sha], none)
  else match newSemVer r with
    | .error e => ([.image r.sha], some e)
    | .ok [] => ([.image r.sha], none)
    | .ok tag => ([.image r.sha, .image tag, .image "latest".toList], none)

/-- `Publish` (module.go:150-169) -/
def publish (r : Repo) : List Eff × Option Err :=
  match pushNewSemVer r with
  | .error e => ([], some e)
  | .ok effs => (effs ++ (publishDocker r).1, (publishDocker r).2)

/-- The tag git reports after a publication: the one it pushed, if any. -/
def lastTagAfter (r : Repo) : Str :=
  match pushNewSemVer r with
  | .ok [.pushTag t] => t
  | _ => r.lastTag

/-- Successive publications of commits of the main branch; the versions that were released. -/
def history (sha : Str) : Str → List Str → List Str
  | _, [] => []
  | last, title :: rest =>
    let r : Repo := ⟨title, sha, mainBranch, last⟩
    (match pushNewSemVer r with
      | .ok [.pushTag t] => [t]
      | _ => []) ++ history sha (lastTagAfter r) rest

end Verif.Release
