import Verif.Model.KafkaCrash

/-!
# Kafka subscriptions that are cancelled and made again

One partition, read by one subscription after the other in a process that keeps running. Cancelling closes the reader
(pkg/extensions/brokers/kafka/kafka.go:227-231) before the queue of messages (pkg/extensions/broker.go:42-56): the listener
goes on with what is queued (controller.tmpl:206-213), while commits on the closed reader are refused (kafka.go:339-343: the
error is only logged).

Simplifications: reading a message and queueing it is one step, without bound on the queue (a full one is property C98); a new
subscription is made when the reader of the one before is closed (otherwise Kafka gives the partition to one of the two);
commits on an open reader succeed (failures are property C83). Kafka is assumed as for `KafkaCrash`.
-/

namespace Verif.KafkaLeave

open Verif.KafkaCrash (Cfg)

/-- A subscription: the offset it started from, how many messages were read and queued, how many the listener has
handled and decided on, whether the reader is closed. -/
structure Sess where
  base : Nat
  read : Nat := 0
  handled : Nat := 0
  closed : Bool := false
  deriving DecidableEq, Repr

/-- All subscriptions so far, the offset stored by Kafka, the offsets of the messages handled, in order. -/
structure St where
  sess : List Sess := []
  committed : Nat := 0
  log : List Nat := []
  deriving DecidableEq, Repr

def init : St := {}

/-- What happens, to the subscription of that number: it is made; its loop reads a message and queues it; its listener
handles the next one and acknowledges it; it is cancelled. -/
inductive Op
  | subscribe
  | read (i : Nat)
  | handle (i : Nat)
  | cancel (i : Nat)
  deriving DecidableEq, Repr

/-- The first offset a new reader reads (kafka.go:204-211). -/
def start (cfg : Cfg) (s : St) : Nat := if cfg.group then s.committed else 0

/-- `Subscribe` (kafka.go:197-234). -/
def doSubscribe (cfg : Cfg) (s : St) : St :=
  if s.sess.all (·.closed) then { s with sess := s.sess ++ [{ base := start cfg s }] } else s

/-- A round of the reading loop (kafka.go:287-312, 322-350); `ReadMessage` commits what it returns. -/
def doRead (cfg : Cfg) (s : St) (i : Nat) : St :=
  match s.sess[i]? with
  | none => s
  | some t =>
    if t.closed then s
    else { s with
      sess := s.sess.set i { t with read := t.read + 1 }
      committed := if cfg.auto && cfg.group then t.base + t.read + 1 else s.committed }

/-- The listener handles the next message of the queue and acknowledges it (controller.tmpl:195-247, kafka.go:339-343,
362-370). -/
def doHandle (cfg : Cfg) (s : St) (i : Nat) : St :=
  match s.sess[i]? with
  | none => s
  | some t =>
    if t.handled < t.read then
      { s with
        sess := s.sess.set i { t with handled := t.handled + 1 }
        committed := if !cfg.auto && cfg.group && !t.closed then t.base + t.handled + 1 else s.committed
        log := s.log ++ [t.base + t.handled] }
    else s

/-- `Cancel`, then the clean-up (kafka.go:227-231, broker.go:42-56). -/
def doCancel (s : St) (i : Nat) : St :=
  match s.sess[i]? with
  | none => s
  | some t => { s with sess := s.sess.set i { t with closed := true } }

def step (cfg : Cfg) (s : St) : Op → St
  | .subscribe => doSubscribe cfg s
  | .read i => doRead cfg s i
  | .handle i => doHandle cfg s i
  | .cancel i => doCancel s i

/-- A history. -/
def run (cfg : Cfg) (s : St) (os : List Op) : St := os.foldl (step cfg) s

end Verif.KafkaLeave
