import Verif.Base.Str
import Verif.Model.Kafka

/-!
# Calls that wait for a Kafka broker

`Subscribe` of the versioning wrapper over a Kafka controller, called by any number of goroutines
(pkg/extensions/versioning/wrapper.go:90-135, pkg/extensions/brokers/kafka/kafka.go:197-201, 236-274), and `Publish` of the Kafka
controller (kafka.go:143-194), with the contexts they are called with.

Simplifications: the goroutines subscribe with different versions, so that `createVersionListener` returns no error; no version
is removed meanwhile.
-/

namespace Verif.Waiting

/-- Where a call of `Subscribe` is: it waits for the lock of the wrapper (wrapper.go:103), for the connection (kafka.go:238),
for the answer of `CreateTopics` (kafka.go:252) or of `ReadPartitions` (kafka.go:258), or has returned, with an error or not. -/
inductive Phase
  | lock
  | dial
  | create
  | read
  | returned (err : Option Nat)
  deriving DecidableEq, Repr

/-- What the broker says to a call. -/
inductive Answer
  | ok
  | fail (e : Nat)
  | topics (ts : List Str)
  deriving DecidableEq, Repr

/-- A call of `Subscribe`. -/
structure Call where
  ctx : Nat
  ch : Str
  phase : Phase := .lock
  deriving DecidableEq, Repr

/-- The calls, who holds the lock of the wrapper, the channels that it has subscribed to, and the contexts that have ended. -/
structure St where
  calls : List Call
  holder : Option Nat := none
  channels : List Str := []
  ended : List Nat := []
  deriving DecidableEq, Repr

/-- The state after goroutine `i` has moved on to a phase. -/
def St.at (s : St) (i : Nat) (c : Call) (p : Phase) : St := { s with calls := s.calls.set i { c with phase := p } }

/-- The state after goroutine `i` has returned, with its deferred unlock (wrapper.go:104). -/
def St.ret (s : St) (i : Nat) (c : Call) (err : Option Nat) : St := { s.at i c (.returned err) with holder := none }

/-- The next step of goroutine `i`, with the answer of the broker if it waits for one. No step looks at the context. -/
def move (s : St) (i : Nat) (a : Answer) : St :=
  match s.calls[i]? with
  | none => s
  | some c =>
    match c.phase with
    | .lock =>
      if s.holder.isSome then s
      else if c.ch ∈ s.channels then s.ret i c none
      else { s.at i c .dial with holder := some i }
    | .dial => match a with
      | .fail e => s.ret i c (some e)
      | _ => s.at i c .create
    | .create => match a with
      | .fail e => s.ret i c (some e)
      | _ => s.at i c .read
    | .read => match a with
      | .fail e => s.ret i c (some e)
      | .ok => s.at i c .create
      | .topics ts =>
        if c.ch ∈ ts then { s.ret i c none with channels := c.ch :: s.channels }
        else s.at i c .create
    | .returned _ => s

/-- What happens: a goroutine moves on, or a context ends. -/
inductive Op
  | move (i : Nat) (a : Answer)
  | ends (ctx : Nat)
  deriving DecidableEq, Repr

/-- One event. -/
def step (s : St) : Op → St
  | .move i a => move s i a
  | .ends c => { s with ended := c :: s.ended }

/-- A history. -/
def run (s : St) (os : List Op) : St := os.foldl step s

/-- Goroutines that call `Subscribe` with a context and a channel. -/
def start (cs : List (Nat × Str)) : St := { calls := cs.map (fun c => ⟨c.1, c.2, .lock⟩) }

/-- `Publish` (kafka.go:172-193) with a context: `ended n` says whether it has ended when the `n`th write is made; the library
then makes the write fail with the error of the context, `e`. Otherwise the script gives the outcomes, as in `Kafka.publish`. -/
def publish (ended : Nat → Bool) (e : Nat) (script : List (Kafka.Write × Option Nat)) : Kafka.PubOut :=
  Kafka.publish (script.mapIdx (fun n x => (if ended n then .other e else x.1, x.2)))

end Verif.Waiting
