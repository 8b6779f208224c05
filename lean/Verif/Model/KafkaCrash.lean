import Verif.Model.Kafka

/-!
# Kafka subscriptions across crashes

One partition read by one subscription after the other: the process may stop at any point, and a new one subscribes
again. Builds on the reading loops of `Kafka` (pkg/extensions/brokers/kafka/kafka.go:282-370); the reader is made with the
group of the controller (kafka.go:204-211), which is `""` unless it is set (kafka.go:53, brokers/common.go:6).

The Kafka client and server are taken to do what segmentio/kafka-go documents: with a group, a new reader starts at the
offset committed last, `ReadMessage` commits what it returns, and committing a message stores the offset after it; without
a group, a new reader starts at the first message and commits are refused.
-/

namespace Verif.KafkaCrash

open Verif.Transport (KafkaMsg kafkaDecode)

/-- How the controller was made: automatic commits (kafka.go:50-63, `WithAutoCommit`), a group (`WithGroupID`). -/
structure Cfg where
  auto : Bool
  group : Bool
  deriving DecidableEq, Repr

/-- The offset at which this process started to read, its subscription, the offset stored by Kafka, and the offsets of all
messages decided on (acked or naked) since the beginning. -/
structure St where
  base : Nat := 0
  sess : Kafka.St := {}
  committed : Nat := 0
  decided : List Nat := []
  deriving DecidableEq, Repr

/-- Before the first process. -/
def init : St := {}

/-- What happens: a read returns the next message or an error; the consumer decides on a message of this process (`ok`:
the commit, if one is asked for, succeeds); the process stops and another one subscribes. -/
inductive Op
  | read (ok : Bool)
  | decide (i : Nat) (k : Ack.Kind) (ok : Bool)
  | crash
  deriving DecidableEq, Repr

/-- The offset stored after the commits asked for. -/
def stored (old base : Nat) : List Nat → Nat
  | [] => old
  | j :: js => stored (base + j + 1) base js

/-- One event; `log` is the content of the partition. -/
def step (cfg : Cfg) (log : Nat → KafkaMsg) (s : St) : Op → St
  | .read ok =>
    let n := s.base + s.sess.delivered.length
    { s with
      sess := Kafka.step cfg.auto s.sess (.read (if ok then .msg (log n) else .error))
      committed := if cfg.auto && cfg.group && ok && !s.sess.stopped then n + 1 else s.committed }
  | .decide i k ok =>
    let sess := Kafka.step cfg.auto s.sess (.decide i k)
    { s with
      sess := sess
      committed := if cfg.group && ok then stored s.committed s.base (sess.commits.drop s.sess.commits.length) else s.committed
      decided := if i < s.sess.delivered.length then s.decided ++ [s.base + i] else s.decided }
  | .crash => { base := if cfg.group then s.committed else 0, committed := s.committed, decided := s.decided }

/-- A history. -/
def run (cfg : Cfg) (log : Nat → KafkaMsg) (s : St) (os : List Op) : St := os.foldl (step cfg log) s

end Verif.KafkaCrash
