import Verif.Model.JetStream
import Verif.Model.Ack

/-!
# JetStream subscriptions across crashes

A stream, its durable consumer, and one process after the other that subscribes to channels of it. Builds on the controller
of `JetStream` (pkg/extensions/brokers/natsjetstream/natsjetstream.go:226-258, 298-351) and on the acknowledgement of messages
(`HandleMessage` natsjetstream.go:260-288, pkg/extensions/broker.go:120-134).

The server is taken to do what NATS documents for a durable consumer with explicit acknowledgements (the default policy) and
no limit of deliveries: it keeps a message until it is acknowledged, and may deliver it at any time before, again if it was
delivered already (after a negative acknowledgement, or when nothing was heard for a while).

Simplification: handing a message over is one step (the interleavings are in `JetRace`).
-/

namespace Verif.JetCrash

/-- A message that a process was given: its number in the stream, the subscription, and what was decided. -/
structure Given where
  seq : Nat
  sub : Nat
  ack : Ack.St
  deriving DecidableEq, Repr

/-- The controller of the running process, the messages it was given, whether its consumer waits for ever, and the messages
the server takes to be acknowledged. -/
structure St where
  proc : JetStream.St := {}
  given : List Given := []
  blocked : Bool := false
  done : List Nat := []
  deriving DecidableEq, Repr

/-- Before the first process. -/
def init : St := {}

/-- What happens: the process subscribes or cancels; the server delivers a message (`order`: how Go ranges over the
channels, `r`: which of the goroutines that read the queue gets it, `ok`: an acknowledgement made by the controller itself
succeeds); a consumer decides on a message (`ok`: the server hears of it); the process stops and another one starts. -/
inductive Op
  | call (o : JetStream.Op)
  | deliver (n : Nat) (order : List Str) (r : Nat) (ok : Bool)
  | decide (i : Nat) (k : Ack.Kind) (ok : Bool)
  | crash
  deriving DecidableEq, Repr

/-- `c.channels[responsibleSubscription] <- msg` (natsjetstream.go:349) and the goroutine reading it
(natsjetstream.go:241-249). A queue that nobody reads blocks the consumer. -/
def hand (s : St) (n : Nat) (p : Str) (r : Nat) : St :=
  match s.proc.chans.get p with
  | none => { s with blocked := true }
  | some q =>
    let rs := s.proc.readers.filter (fun e => decide (e.2 = q))
    match rs[r % rs.length]? with
    | none => { s with blocked := true }
    | some e => { s with given := s.given ++ [⟨n, e.1, Ack.init⟩] }

/-- The server delivers message `n`, with its subject, to the handler made by `ConsumeMessage`
(natsjetstream.go:324-351). -/
def deliver (s : St) (n : Nat) (subject : Str) (order : List Str) (r : Nat) (ok : Bool) : St :=
  match JetStream.consume subject order with
  | .panicked => { s with proc := { s.proc with crashed := true } }
  | .ackedAndDropped => if ok then { s with done := n :: s.done } else s
  | .handed p => hand s n p r

/-- One event; `subject` says where each message of the stream was published. -/
def step (subject : Nat → Str) (s : St) : Op → St
  | .call o => { s with proc := JetStream.step s.proc o }
  | .deliver n order r ok =>
    if s.proc.crashed || s.blocked || !s.proc.consuming || decide (n ∈ s.done) ||
      !order.isPerm (s.proc.chans.map (·.1)) then s
    else deliver s n (subject n) order r ok
  | .decide i k ok =>
    if s.proc.crashed then s
    else match s.given[i]? with
      | none => s
      | some g =>
        { s with
          given := s.given.set i { g with ack := Ack.step g.ack k }
          done := if !g.ack.acked && decide (k = .ack) && ok then g.seq :: s.done else s.done }
  | .crash => { done := s.done }

/-- A history. -/
def run (subject : Nat → Str) (s : St) (os : List Op) : St := os.foldl (step subject) s

end Verif.JetCrash
