import Verif.Base.Str

/-!
# The tool that generates certificates (tools/generate-certs/main.go)

A run, its crashes, and the files it leaves. Keys and certificates of one generation belong together. Simplification: of
the contents of a file, only which generation it is from and whether it is written completely; the two sets of files
(NATS, Kafka) are independent and each is given by the list of its paths; creating the directories succeeds; asking
whether a file is there never fails in another way. A write that fails panics, which is a run that is stopped.
-/

namespace Verif.Certs

/-- The contents of a file: the generation they are from, and whether all of it has been written. -/
structure Content where
  gen : Nat
  whole : Bool
  deriving DecidableEq, Repr

/-- The files on disk; `none`: there is no such file. -/
abbrev Disk := Str → Option Content

/-- Changing one file. -/
def Disk.set (d : Disk) (p : Str) (c : Option Content) : Disk := fun q => if q = p then c else d q

/-- `checkIfOneOfFilesIsMissing` (main.go:84-92) -/
def oneMissing (d : Disk) : List Str → Bool
  | [] => false
  | p :: ps => match d p with
    | none => true
    | some _ => oneMissing d ps

/-- The effects of `os.WriteFile` on each file, one after the other (main.go:38-45, 69-81): it creates or empties the
file, then writes it. -/
def writes (gen : Nat) : List Str → List (Str × Content)
  | [] => []
  | p :: ps => (p, ⟨gen, false⟩) :: (p, ⟨gen, true⟩) :: writes gen ps

/-- Some effects. -/
def apply (d : Disk) : List (Str × Content) → Disk
  | [] => d
  | (p, c) :: ws => apply (d.set p (some c)) ws

/-- `createNATSCerts`, `createKafkaCerts` (main.go:16-82): the run that generates `gen`, stopped after `k` effects;
`none`: it is not stopped. -/
def run (paths : List Str) (gen : Nat) (k : Option Nat) (d : Disk) : Disk :=
  if oneMissing d paths then
    match k with
    | none => apply d (writes gen paths)
    | some k => apply d ((writes gen paths).take k)
  else d

/-- `createNATSCerts` (main.go:18-20) -/
def natsPaths : List Str := ["tmp/certs/nats/server-key.pem".toList, "tmp/certs/nats/server-cert.pem".toList]

/-- `createKafkaCerts` (main.go:49-52) -/
def kafkaPaths : List Str :=
  ["tmp/certs/kafka/kafka.keystore.key".toList, "tmp/certs/kafka/kafka.keystore.pem".toList,
   "tmp/certs/kafka/kafka.truststore.pem".toList]

/-- What happens to the files: runs of the tool, complete or stopped, and files that somebody deletes. -/
inductive Ev
  | run (gen : Nat)
  | crash (gen k : Nat)
  | delete (path : Str)
  deriving DecidableEq, Repr

/-- One event. -/
def step (paths : List Str) (d : Disk) : Ev → Disk
  | .run gen => run paths gen none d
  | .crash gen k => run paths gen (some k) d
  | .delete p => d.set p none

/-- A history. -/
def exec (paths : List Str) (d : Disk) (evs : List Ev) : Disk := evs.foldl (step paths) d

end Verif.Certs
