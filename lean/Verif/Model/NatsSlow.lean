/-!
# Messages of NATS that wait for a slow handler

The client library keeps the messages it has received for a subscription until the function given to `QueueSubscribe` has returned
for them (pkg/extensions/brokers/nats/nats.go:111, 126-146), at most a given number; others it drops (`nats.ErrSlowConsumer`). The
controller leaves that limit as it is. The function sends each message on the channel of the subscription
(pkg/extensions/broker.go:29-31), which waits while that is full (pkg/extensions/brokers/common.go:10), and the listener takes them
from there, one when its handler has returned (v3/templates/controller.tmpl:195-251).

Simplifications: the limit counts messages, not bytes; nothing is cancelled (`Feed` is about that).
-/

namespace Verif.NatsSlow

/-- Messages kept by the library, the one that the function is sending, those in the channel of the subscription, those the handler
was called with, and those the library has dropped. -/
structure St (M : Type) where
  pending : List M := []
  hand : Option M := none
  queue : List M := []
  handled : List M := []
  dropped : List M := []
  deriving DecidableEq, Repr

/-- What happens: a message arrives from the server, the library calls the function, the function sends the message and returns, the
listener takes one. -/
inductive Ev (M : Type)
  | arrive (m : M)
  | call
  | put
  | handle
  deriving DecidableEq, Repr

/-- The number of messages the library counts: the one in the function is counted until the function has returned. -/
def St.waiting {M : Type} (s : St M) : Nat := s.pending.length + s.hand.toList.length

/-- One event; what is not possible does nothing. `limit` is that of the library, `cap` the size of the channel. -/
def step {M : Type} (limit cap : Nat) (s : St M) : Ev M → St M
  | .arrive m =>
    if s.waiting < limit then { s with pending := s.pending ++ [m] } else { s with dropped := s.dropped ++ [m] }
  | .call => match s.hand, s.pending with
    | none, m :: rest => { s with hand := some m, pending := rest }
    | _, _ => s
  | .put => match s.hand with
    | some m => if s.queue.length < cap then { s with hand := none, queue := s.queue ++ [m] } else s
    | none => s
  | .handle => match s.queue with
    | m :: rest => { s with queue := rest, handled := s.handled ++ [m] }
    | [] => s

/-- A history. -/
def run {M : Type} (limit cap : Nat) (s : St M) (es : List (Ev M)) : St M := es.foldl (step limit cap) s

end Verif.NatsSlow
