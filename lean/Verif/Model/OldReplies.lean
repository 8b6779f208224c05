import Verif.Model.Send

/-!
# Requests one after the other on one reply channel

What a request finds on the reply channel (controller.tmpl:386-456), depending on where the broker lets a new subscription
begin: NATS with what is published from then on (pkg/extensions/brokers/nats/nats.go:97-118); Kafka with the first message of
the topic, or with a group where the group stands (pkg/extensions/brokers/kafka/kafka.go:204-211; `StartOffset` is not given,
which for kafka-go means the first).

Simplifications: the reply channel is one partition; messages are received in the order in which they were published; the
requests of one process are made one after the other. JetStream is in `Verif.Model.OldRepliesJet`.
-/

namespace Verif.OldReplies

open Verif.Send

/-- The broker of the controller. -/
inductive Via
  | nats
  | kafka (auto group : Bool)
  deriving DecidableEq, Repr

/-- The messages of the reply channel, the first published first, and where the Kafka group stands. -/
structure Topic where
  msgs : List BrokerMessage := []
  committed : Nat := 0
  deriving DecidableEq, Repr

/-- How many messages a new subscription leaves out (nats.go:97-118, kafka.go:204-211). -/
def begin : Via → Topic → Nat
  | .nats, t => t.msgs.length
  | .kafka _ group, t => if group then t.committed else 0

/-- What the generator and the user give for the requests of one operation. -/
structure Client (C T R : Type) where
  env : Env C
  ty : MsgType T
  rty : MsgType R
  op : OpCfg
  ra : ReplyAddr T
  reqAddr : String

/-- One request: the fresh correlation ID, the message, what is published on the reply channel while it waits, and how many
messages the reading loop of Kafka has taken when the request ends. -/
structure Call (T : Type) where
  uuid : String
  msg : T
  fresh : List BrokerMessage
  ahead : Nat := 0

/-- The number of acknowledgements. -/
def ackCount : List ReqEv → Nat
  | [] => 0
  | .ack _ :: r => ackCount r + 1
  | _ :: r => ackCount r

/-- Where the group stands afterwards: with automatic commits behind what the loop took (kafka.go:287-312), with manual ones
behind what was acknowledged (kafka.go:339-343; messages are acknowledged in order). -/
def commit : Via → Topic → Nat → Nat → Nat
  | .kafka auto true, t, ahead, acks => t.committed + (if auto then ahead else acks)
  | _, t, _, _ => t.committed

variable {C T R : Type}

/-- `Request…` (controller.tmpl:386-456) on a subscription that succeeds, and the reply channel afterwards. -/
def call (via : Via) (c : Client C T R) (t : Topic) (k : Call T) : ReqRes R × Topic :=
  let received := (t.msgs ++ k.fresh).drop (begin via t)
  let r := request c.env c.ty c.rty c.op c.ra k.uuid c.reqAddr none k.msg (received.map (.recv · true))
  (r.1, ⟨t.msgs ++ k.fresh, commit via t k.ahead (ackCount r.2)⟩)

/-- Requests one after the other. -/
def calls (via : Via) (c : Client C T R) (t : Topic) : List (Call T) → List (ReqRes R)
  | [] => []
  | k :: ks => (call via c t k).1 :: calls via c (call via c t k).2 ks

end Verif.OldReplies
