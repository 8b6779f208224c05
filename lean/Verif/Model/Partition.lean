/-!
# The partition a message is published to

`Publish` of the Kafka controller makes a writer with a new `kafka.LeastBytes` for each message
(pkg/extensions/brokers/kafka/kafka.go:143-194); a subscription reads the partition of the options, or with a group the
partitions the group gives to the member (kafka.go:197-236).

Simplifications: `kafka.LeastBytes` is not in /repo; it is modelled after its documentation (the partition which this balancer
has given the fewest bytes, the lowest one among equals). The number of partitions does not change during the history, and
messages have no key, as in kafka.go:160-169.
-/

namespace Verif.Partition

/-- A message: its payload decides on the bytes that are counted (kafka.go:160-165). -/
abbrev Msg := List UInt8

/-- The partitions of the topic, each with its messages, the first published first. -/
abbrev Topic := List (List Msg)

/-- `LeastBytes.Balance`: the first partition with the fewest bytes, looked for from partition `i` on with the best so far
(kafka.go:148). -/
def least : (best bytes i : Nat) → List Nat → Nat
  | best, _, _, [] => best
  | best, bytes, i, c :: cs => if c < bytes then least i c (i + 1) cs else least best bytes (i + 1) cs

/-- The partition for the next message; none without partitions. -/
def balance : List Nat → Option Nat
  | [] => none
  | c :: cs => some (least 0 c 1 cs)

/-- The bytes of a message are counted for its partition. -/
def count (cs : List Nat) (p : Nat) (m : Msg) : List Nat := cs.modify p (· + m.length)

/-- What `WriteMessages` answers: the topic is not known, so that no partition is chosen; the chosen partition is not known to
the server; another error; written (kafka.go:171-193). -/
inductive Answer
  | noTopic
  | refused
  | failed
  | written
  deriving DecidableEq, Repr

/-- The loop of `Publish` with one balancer for all its attempts (kafka.go:171-193): the partition written to. An unknown topic
or partition is tried again, the creation of the topic succeeding; any other error ends it. -/
def attempts (m : Msg) : List Nat → List Answer → Option Nat
  | _, [] => none
  | cs, .noTopic :: as => attempts m cs as
  | cs, .refused :: as =>
    match balance cs with
    | none => none
    | some p => attempts m (count cs p m) as
  | _, .failed :: _ => none
  | cs, .written :: _ => balance cs

/-- `Publish` (kafka.go:143-194): the balancer is new, so that nothing is counted yet. -/
def publish (t : Topic) (m : Msg) (as : List Answer) : Topic :=
  match attempts m (List.replicate t.length 0) as with
  | none => t
  | some p => t.modify p (· ++ [m])

/-- Messages published one after the other. -/
def publishAll (t : Topic) : List (Msg × List Answer) → Topic
  | [] => t
  | (m, as) :: ps => publishAll (publish t m as) ps

/-- How a subscription reads (kafka.go:204-211): one partition, or as a member of a group, `owner` giving the member of each
partition. -/
inductive Reader
  | single (partition : Nat)
  | member (owner : Nat → Nat) (self : Nat)

/-- The messages of the partitions from `i` on that belong to the member. -/
def owned (owner : Nat → Nat) (self : Nat) : Nat → Topic → Topic
  | _, [] => []
  | i, p :: ps => if owner i = self then p :: owned owner self (i + 1) ps else owned owner self (i + 1) ps

/-- The streams of messages the subscription reads, one for each of its partitions. -/
def reads : Reader → Topic → Topic
  | .single p, t => t[p]?.toList
  | .member owner self, t => owned owner self 0 t

end Verif.Partition
