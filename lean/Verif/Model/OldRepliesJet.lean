import Verif.Model.OldReplies

/-!
# Requests one after the other on one reply channel, over JetStream

The subscriptions of the JetStream controller share one consumer of the server
(pkg/extensions/brokers/natsjetstream/natsjetstream.go:224-257, 297-311). What was not acknowledged stays there, whether or not a
request waits; the server delivers it to a later subscription, in any order. Messages have numbers.

Simplifications: the server is assumed to do what NATS documents for durable consumers with explicit acknowledgements; an
acknowledgement is heard by it; the requests of one process are made one after the other, on one subject.
-/

namespace Verif.OldReplies

open Verif.Send

/-- The messages of the reply channel that the server has not given up, and the number of the next one. -/
structure Jet where
  pending : List (Nat × BrokerMessage) := []
  next : Nat := 0
  deriving DecidableEq, Repr

/-- Messages get their numbers. -/
def number : Nat → List BrokerMessage → List (Nat × BrokerMessage)
  | _, [] => []
  | n, m :: ms => (n, m) :: number (n + 1) ms

/-- One request: what is published on the reply channel while it waits, and the numbers of the messages the server delivers to
it, in order. -/
structure JetCall (T : Type) where
  uuid : String
  msg : T
  fresh : List BrokerMessage
  order : List Nat

variable {C T R : Type}

/-- What the server can deliver during the request. -/
def JetCall.there (j : Jet) (k : JetCall T) : List (Nat × BrokerMessage) := j.pending ++ number j.next k.fresh

/-- What the request receives (natsjetstream.go:224-257): the server delivers nothing that it has given up. -/
def JetCall.received (j : Jet) (k : JetCall T) : List (Nat × BrokerMessage) :=
  k.order.filterMap (fun n => (k.there j).find? (fun e => e.1 = n))

/-- `Request…` (controller.tmpl:386-456) over JetStream. The server gives up what was acknowledged (natsjetstream.go:278-282);
messages are acknowledged in the order in which they are received. -/
def jetCall (c : Client C T R) (j : Jet) (k : JetCall T) : ReqRes R × Jet :=
  let r := request c.env c.ty c.rty c.op c.ra k.uuid c.reqAddr none k.msg ((k.received j).map (fun e => .recv e.2 true))
  let acked := ((k.received j).take (ackCount r.2)).map (·.1)
  (r.1, ⟨(k.there j).filter (fun e => e.1 ∉ acked), j.next + k.fresh.length⟩)

/-- What happens on the reply channel: a request, or messages while none waits. Those in `dropped` are delivered to the
controller while it has subscriptions of other channels, and it acknowledges them itself (natsjetstream.go:322-348). -/
inductive JetOp (T : Type)
  | call (k : JetCall T)
  | idle (published : List BrokerMessage) (dropped : List Nat)

/-- One event. -/
def jetStep (c : Client C T R) (j : Jet) : JetOp T → Jet
  | .call k => (jetCall c j k).2
  | .idle ms dropped => ⟨(j.pending ++ number j.next ms).filter (fun e => e.1 ∉ dropped), j.next + ms.length⟩

/-- A history. -/
def jetRun (c : Client C T R) (j : Jet) : List (JetOp T) → Jet
  | [] => j
  | o :: os => jetRun c (jetStep c j o) os

/-- The results of requests one after the other. -/
def jetCalls (c : Client C T R) (j : Jet) : List (JetCall T) → List (ReqRes R)
  | [] => []
  | k :: ks => (jetCall c j k).1 :: jetCalls c (jetCall c j k).2 ks

end Verif.OldReplies
