import Verif.Model.Certs

/-!
# Who can read the files of the tool that generates certificates (tools/generate-certs/main.go)

The permissions of the directories and files a run creates. Simplification: as in `Model/Certs.lean` each set of files
is given by the list of its paths; of the contents only the generation is kept; runs are not stopped; no operation fails
(the user that runs the tool may always write). `os.WriteFile` and `os.MkdirAll` follow their documentation: the
permissions given, without those of the umask, are those of what is created; what is there keeps its own.
-/

namespace Verif.CertModes

/-- The class of users a permission is for. -/
inductive Who
  | owner
  | group
  | other
  deriving DecidableEq, Repr

/-- What is permitted. -/
inductive Right
  | read
  | write
  | exec
  deriving DecidableEq, Repr

/-- Nine permission bits; also a umask. -/
abbrev Bits := Who → Right → Bool

/-- `os.ModePerm`: 0777 (main.go:29, 39, 43, 61, 71, 75, 79) -/
def modePerm : Bits := fun _ _ => true

/-- What the system makes of the permissions asked for. -/
def created (umask perm : Bits) : Bits := fun w r => perm w r && !umask w r

/-- The directories and files: permissions, and the generation the contents of a file are from. -/
structure Tree where
  dirs : Str → Option Bits
  files : Str → Option (Nat × Bits)

/-- `os.MkdirAll` (main.go:29, 61): creates the directories of the path that are missing, from the outermost. -/
def mkdirAll (umask perm : Bits) : List Str → Tree → Tree
  | [], t => t
  | d :: ds, t =>
    mkdirAll umask perm ds
      (match t.dirs d with
      | some _ => t
      | none => { t with dirs := fun q => if q = d then some (created umask perm) else t.dirs q })

/-- The permissions of a file after `os.WriteFile`: a file that is there keeps its own. -/
def permsAfter (umask perm : Bits) : Option (Nat × Bits) → Bits
  | some f => f.2
  | none => created umask perm

/-- `os.WriteFile` (main.go:39, 43, 71, 75, 79) -/
def writeFile (umask perm : Bits) (gen : Nat) (p : Str) (t : Tree) : Tree :=
  { t with files := fun q => if q = p then some (gen, permsAfter umask perm (t.files p)) else t.files q }

/-- The files are written one after the other (main.go:38-45, 69-81). -/
def writeAll (umask : Bits) (gen : Nat) : List Str → Tree → Tree
  | [], t => t
  | p :: ps, t => writeAll umask gen ps (writeFile umask modePerm gen p t)

/-- `checkIfOneOfFilesIsMissing` (main.go:84-92) -/
def oneMissing (t : Tree) : List Str → Bool
  | [] => false
  | p :: ps => match t.files p with
    | none => true
    | some _ => oneMissing t ps

/-- `createNATSCerts`, `createKafkaCerts` (main.go:16-82), with the umask of the process. -/
def run (dirs paths : List Str) (umask : Bits) (gen : Nat) (t : Tree) : Tree :=
  if oneMissing t paths then writeAll umask gen paths (mkdirAll umask modePerm dirs t) else t

/-- `filepath.Join(".", "tmp", "certs", "nats")` and its parents (main.go:18) -/
def natsDirs : List Str := ["tmp".toList, "tmp/certs".toList, "tmp/certs/nats".toList]

/-- `filepath.Join(".", "tmp", "certs", "kafka")` and its parents (main.go:49) -/
def kafkaDirs : List Str := ["tmp".toList, "tmp/certs".toList, "tmp/certs/kafka".toList]

/-- What happens: runs of the tool, and files that somebody deletes. -/
inductive Ev
  | run (umask : Bits) (gen : Nat)
  | delete (path : Str)

/-- One event. -/
def step (dirs paths : List Str) (t : Tree) : Ev → Tree
  | .run umask gen => run dirs paths umask gen t
  | .delete p => { t with files := fun q => if q = p then none else t.files q }

/-- A history. -/
def exec (dirs paths : List Str) (t : Tree) (evs : List Ev) : Tree := evs.foldl (step dirs paths) t

end Verif.CertModes
