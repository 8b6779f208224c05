/-!
# Messages that arrive while their subscription is cancelled

One goroutine takes the messages of a source and sends them on the channel of a subscription; the user's goroutine receives
them; a third one cancels the subscription: it stops the source and then closes the channel
(pkg/extensions/broker.go:29-31, 41-54). This is what happens

* with NATS (pkg/extensions/brokers/nats/nats.go:105-146): `Drain` returns at once, and the client goes on calling the
  handler with the messages it has already received (`late`);
* with Kafka (pkg/extensions/brokers/kafka/kafka.go:216-231, 282-351): after `Close` the reader gives no more messages;
* with a version of a channel behind the versioning wrapper (pkg/extensions/versioning/broker_subscription.go:52-123,
  version_subscription.go:17-38): after the version is removed the listener finds it no more.

For JetStream see `Verif.JetRace`. Simplification: the client gives up no messages by itself.
-/

namespace Verif.Feed

/-- How far the cancellation is (broker.go:41-54). -/
inductive Phase
  | live
  | cleaned   -- `cleanup()` ran (L47)
  | closed    -- `close(bcs.messages)` ran (L50)
  deriving DecidableEq, Repr

/-- Messages still at the source, the one being sent, those in the channel, those received by the user; a panic ends the
process. -/
structure St (M : Type) where
  source : List M
  hand : Option M := none
  buf : List M := []
  got : List M := []
  phase : Phase := .live
  panicked : Bool := false
  deriving DecidableEq, Repr

/-- A new subscription to a source with these messages. -/
def init {M : Type} (msgs : List M) : St M := { source := msgs }

/-- Actions: the sender gets a message, it sends it, the user receives one, the two steps of a cancellation. -/
inductive Act
  | fetch | put | take | cleanup | close
  deriving DecidableEq, Repr

/-- One action; `cap` is the size of the channel, `late` whether the source gives messages after the cleanup. `none` when
the action is not possible. Sending on a closed channel panics, also when the sender was already waiting for room. A closed
channel still gives the messages in it. (nats.go:126-146, kafka.go:282-351, broker_subscription.go:76-123; broker.go:29-31,
41-54; v3/templates/controller.tmpl:207) -/
def step {M : Type} (cap : Nat) (late : Bool) (s : St M) (a : Act) : Option (St M) :=
  if s.panicked then none
  else match a with
    | .fetch => match s.hand, s.source with
      | none, m :: rest => if s.phase = .live ∨ late = true then some { s with hand := some m, source := rest } else none
      | _, _ => none
    | .put => match s.hand with
      | none => none
      | some m =>
        if s.phase = .closed then some { s with panicked := true }
        else if s.buf.length < cap then some { s with hand := none, buf := s.buf ++ [m] }
        else none
    | .take => match s.buf with
      | [] => none
      | m :: rest => some { s with buf := rest, got := s.got ++ [m] }
    | .cleanup => if s.phase = .live then some { s with phase := .cleaned } else none
    | .close => if s.phase = .cleaned then some { s with phase := .closed } else none

/-- A schedule. -/
def run {M : Type} (cap : Nat) (late : Bool) (s : St M) : List Act → Option (St M)
  | [] => some s
  | a :: as => match step cap late s a with
    | none => none
    | some s1 => run cap late s1 as

end Verif.Feed
