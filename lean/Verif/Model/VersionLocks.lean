/-!
# Locks of the versioning wrapper

The two mutexes of the wrapper for one channel: `channelsMutex` (pkg/extensions/versioning/wrapper.go:31-32)
and `versionsMutex` (broker_subscription.go:17), and the order in which each call takes them. Everything
else the calls do is left out; a message of an unregistered version, which never unlocks, is the subject
of `Verif.Model.Versioning`.
-/

namespace Verif.VersionLocks

/-- The two mutexes. -/
inductive Lock
  | channels
  | versions
  deriving DecidableEq, Repr

/-- A mutex operation. -/
inductive Instr
  | lock (l : Lock)
  | unlock (l : Lock)
  deriving DecidableEq, Repr

/-- `Wrapper.Subscribe` (wrapper.go:103-104) calling `createVersionListener`
(broker_subscription.go:35-36); deferred unlocks run in reverse order. -/
def subscribe : List Instr := [.lock .channels, .lock .versions, .unlock .versions, .unlock .channels]

/-- `removeVersionListener` (broker_subscription.go:54-55, 61-62). -/
def remove : List Instr := [.lock .versions, .lock .channels, .unlock .channels, .unlock .versions]

/-- One message in `launchListener` (broker_subscription.go:102-117). -/
def deliver : List Instr := [.lock .versions, .unlock .versions]

/-- What is left of each goroutine's call, and who holds each mutex. -/
structure St where
  threads : Nat → List Instr
  holder : Lock → Option Nat

/-- Start of the given calls. -/
def start (threads : Nat → List Instr) : St := ⟨threads, fun _ => none⟩

/-- Goroutine `i` executes its next operation; `none` if it cannot. -/
def step (s : St) (i : Nat) : Option St :=
  match s.threads i with
  | [] => none
  | .lock l :: rest =>
    match s.holder l with
    | some _ => none
    | none => some ⟨fun j => if j = i then rest else s.threads j,
        fun l' => if l' = l then some i else s.holder l'⟩
  | .unlock l :: rest =>
    some ⟨fun j => if j = i then rest else s.threads j,
      fun l' => if l' = l then none else s.holder l'⟩

/-- A schedule: which goroutine moves next. -/
def run (s : St) : List Nat → Option St
  | [] => some s
  | i :: is => match step s i with
    | none => none
    | some s1 => run s1 is

end Verif.VersionLocks
