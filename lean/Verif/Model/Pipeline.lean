import Verif.Model.Broker

/-!
# From the broker to the listener

Models the message channel of a subscription (pkg/extensions/broker.go:29-37, 50), the broker
goroutine that sends on it (`TransmitReceivedMessage`, called by the message handlers
pkg/extensions/brokers/nats/nats.go:127-146, pkg/extensions/brokers/kafka/kafka.go:282-351,
pkg/extensions/brokers/natsjetstream/natsjetstream.go:240-248), the listener goroutine of the
generated code (pkg/codegen/generators/v3/templates/controller.tmpl:174-187, 207-213, 248;
v2: pkg/codegen/generators/v2/templates/controller.tmpl:168-181, 201-207) and the goroutine that
closes the channel (pkg/extensions/broker.go:50).

Simplification: handling one message is two actions, `recv` (take it) and `finish` (handling done);
what happens in between is the subject of `Verif.Model.Listen`. Handling does not panic.
-/

namespace Verif.Pipeline

/-- State. `cap` is the channel capacity (64 in brokers/common.go, but arbitrary here); `queue` the
channel contents; `pending` the message a blocked `TransmitReceivedMessage` wants to send; `cur` the
message being handled. `sent` and `handled` are history: messages accepted by the channel, messages
completely handled, oldest first. -/
structure St where
  cap : Nat
  queue : List BrokerMessage := []
  closed : Bool := false
  pending : Option BrokerMessage := none
  cur : Option BrokerMessage := none
  stopped : Bool := false
  sent : List BrokerMessage := []
  handled : List BrokerMessage := []
  panicked : Bool := false
  deriving DecidableEq, Repr

/-- A fresh subscription. -/
def init (cap : Nat) : St := { cap := cap }

/-- Atomic actions. -/
inductive Act
  | transmit (m : BrokerMessage)  -- the broker calls TransmitReceivedMessage(m)
  | push                          -- the pending send succeeds into the buffer (or panics)
  | handoff                       -- the pending send meets the waiting listener
  | recv                          -- the listener's receive returns
  | finish                        -- the listener has finished with the current message
  | close                         -- close(bcs.messages)
  deriving DecidableEq, Repr

/-- What the listener does with a received value: controller.tmpl:207-213 (v3) and 201-207 (v2). -/
def received (s : St) (m : BrokerMessage) (isOpen : Bool) : St :=
  if !isOpen && m.isUninitialized then { s with stopped := true } else { s with cur := some m }

/-- One atomic action; `none` when not enabled. -/
def step (s : St) : Act → Option St
  -- broker.go:29-31, called by the broker's handler goroutine
  | .transmit m =>
    if s.panicked = false ∧ s.pending = none then some { s with pending := some m } else none
  -- broker.go:30: send on a channel (panics when closed, blocks when full)
  | .push =>
    if s.panicked then none
    else match s.pending with
      | none => none
      | some m =>
        if s.closed then some { s with panicked := true }
        else if s.queue.length < s.cap then
          some { s with queue := s.queue ++ [m], sent := s.sent ++ [m], pending := none }
        else none
  | .handoff =>
    if s.panicked then none
    else match s.pending with
      | none => none
      | some m =>
        if s.closed = false ∧ s.queue = [] ∧ s.cur = none ∧ s.stopped = false then
          some (received { s with sent := s.sent ++ [m], pending := none } m true)
        else none
  -- controller.tmpl:207
  | .recv =>
    if s.panicked = false ∧ s.cur = none ∧ s.stopped = false then
      match s.queue with
      | m :: q => some (received { s with queue := q } m true)
      | [] => if s.closed then some (received s .zero false) else none
    else none
  -- controller.tmpl:248
  | .finish =>
    if s.panicked then none
    else match s.cur with
      | none => none
      | some m => some { s with cur := none, handled := s.handled ++ [m] }
  -- broker.go:50
  | .close =>
    if s.panicked then none
    else if s.closed then some { s with panicked := true }
    else some { s with closed := true }

/-- Execute a schedule. -/
def run (s : St) : List Act → Option St
  | [] => some s
  | a :: as => match step s a with
    | some s' => run s' as
    | none => none

end Verif.Pipeline
