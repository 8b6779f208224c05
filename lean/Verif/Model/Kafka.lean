import Verif.Model.Ack
import Verif.Model.Transport

/-!
# Kafka controller

Models pkg/extensions/brokers/kafka/kafka.go: the reading loops with their commits (:282-370), `Publish`
(:144-194) and `checkTopicExistOrCreateIt` (:236-274). The Kafka client is an environment that answers each
call with an arbitrary outcome.
-/

namespace Verif.Kafka

open Verif.Transport (KafkaMsg kafkaDecode)

/-- Outcome of `ReadMessage`/`FetchMessage`: a message, `io.EOF` (the reader was closed) or another
error. -/
inductive Read
  | msg (m : KafkaMsg)
  | eof
  | error
  deriving DecidableEq, Repr

/-- A message handed to the subscription, with the state of its acknowledgement. -/
structure Delivered where
  message : BrokerMessage
  ack : Ack.St
  deriving DecidableEq, Repr

/-- State of one subscription: messages handed over, commits asked to the client (`CommitMessages`) by
number of message, whether the loop returned. -/
structure St where
  delivered : List Delivered := []
  commits : List Nat := []
  stopped : Bool := false
  deriving DecidableEq, Repr

/-- A new subscription. -/
def init : St := {}

/-- What happens: a read returns, or the consumer acks/naks the message of that number. -/
inductive Op
  | read (r : Read)
  | decide (i : Nat) (k : Ack.Kind)
  deriving DecidableEq, Repr

/-- Commits made by one hook call: `doCommit` for `AckMessage` and `NakMessage` alike (kafka.go:362-370);
`NoopCommit` with automatic commit (kafka.go:309, :373), `CommitMessages` otherwise (kafka.go:339-343, a
failure is only logged). -/
def hook (autoCommit : Bool) (i : Nat) : Ack.Kind → List Nat
  | .ack => if autoCommit then [] else [i]
  | .nak => if autoCommit then [] else [i]

/-- One iteration of `autoCommitMessagesHandler` (kafka.go:282-312) or `manualCommitMessagesHandler`
(kafka.go:316-351), or one call of the consumer on a delivered message. -/
def step (autoCommit : Bool) (s : St) : Op → St
  | .read r =>
    if s.stopped then s
    else match r with
      | .msg m => { s with delivered := s.delivered ++ [⟨kafkaDecode m, Ack.init⟩] }
      | .eof => { s with stopped := true }
      | .error => { s with stopped := true }
  | .decide i k =>
    match s.delivered[i]? with
    | none => s
    | some d =>
      let a := Ack.step d.ack k
      let calls := a.hooks.drop d.ack.hooks.length
      { s with
        delivered := s.delivered.set i { d with ack := a }
        commits := s.commits ++ (calls.map (hook autoCommit i)).flatten }

/-- A history. -/
def run (autoCommit : Bool) (s : St) (os : List Op) : St := os.foldl (step autoCommit) s

/-- Outcome of `WriteMessages`. -/
inductive Write
  | ok
  | unknownTopic
  | other (e : Nat)
  deriving DecidableEq, Repr

/-- What a call of `Publish` did: what it returned (`none`: still looping when the script ends), the
writes it made, the number of topic checks. -/
structure PubOut where
  ret : Option (Option Nat)
  writes : List Write
  checks : Nat
  deriving DecidableEq, Repr

/-- The loop of `Publish` (kafka.go:172-193). The script gives the outcome of each write and, for when it
is needed, of the topic check that follows it (`some e`: error). -/
def publish : List (Write × Option Nat) → PubOut
  | [] => ⟨none, [], 0⟩
  | (.ok, _) :: _ => ⟨some none, [.ok], 0⟩
  | (.unknownTopic, some e) :: _ => ⟨some (some e), [.unknownTopic], 1⟩
  | (.unknownTopic, none) :: rest =>
    let o := publish rest
    ⟨o.ret, .unknownTopic :: o.writes, o.checks + 1⟩
  | (.other e, _) :: _ => ⟨some (some e), [.other e], 0⟩

/-- The loop of `checkTopicExistOrCreateIt` (kafka.go:244-273): the script gives the outcome of each
`CreateTopics` (`some e`: error) and `ReadPartitions` (error or topics of the partitions). `none`: still
looping when the script ends. -/
def checkLoop (topic : String) : List (Option Nat × Except Nat (List String)) → Option (Option Nat)
  | [] => none
  | (some e, _) :: _ => some (some e)
  | (none, .error e) :: _ => some (some e)
  | (none, .ok ts) :: rest => if topic ∈ ts then some none else checkLoop topic rest

/-- `checkTopicExistOrCreateIt` (kafka.go:236-274); `dial` is the outcome of `Dial`. -/
def checkTopic (topic : String) (dial : Option Nat) (script : List (Option Nat × Except Nat (List String))) :
    Option (Option Nat) :=
  match dial with
  | some e => some (some e)
  | none => checkLoop topic script

end Verif.Kafka
