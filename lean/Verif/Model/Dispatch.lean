/-!
# Messages on their way to several handlers

One goroutine takes the messages of a source in order and hands each to the subscription responsible for it; each
subscription has a bounded buffer and a listening goroutine that runs the user's handler. This is what happens

* to the messages of a JetStream consumer (pkg/extensions/brokers/natsjetstream/natsjetstream.go:241-249, 324-351): the
  consumer's handler sends on the unbuffered channel of the subscription, whose goroutine sends on a channel of
  `BrokerMessagesQueueSize` = 64 (:229, brokers/common.go:10): 65 messages fit between dispatcher and listener;
* to the messages of a channel behind the versioning wrapper (pkg/extensions/versioning/broker_subscription.go:76-123):
  the listener sends on the channel of the version, of size 64 (version_subscription.go).

Which subscription is responsible is modelled elsewhere (`JetStream`, `Versioning`); here each message comes with its
number. Subscriptions are not cancelled.
-/

namespace Verif.Dispatch

/-- What belongs to one subscription: the messages waiting, whether its handler is running, and the messages the handler
was called with. -/
structure Lane (M : Type) where
  queue : List M := []
  busy : Bool := false
  started : List M := []
  deriving DecidableEq, Repr

/-- The source, the message the dispatcher holds, and the subscriptions. -/
structure St (M : Type) where
  pending : List (Nat × M)
  hand : Option (Nat × M) := none
  lanes : Nat → Lane M := fun _ => {}

/-- Before anything happens. -/
def init {M : Type} (msgs : List (Nat × M)) : St M := { pending := msgs }

/-- Atomic actions: the dispatcher gets the next message; it hands it over; the listener of a subscription takes a
message and calls the handler; the handler returns. -/
inductive Act
  | fetch
  | put
  | take (i : Nat)
  | done (i : Nat)
  deriving DecidableEq, Repr

/-- Update of one subscription. -/
def upd {M : Type} (f : Nat → Lane M) (i : Nat) (l : Lane M) : Nat → Lane M := fun j => if j = i then l else f j

/-- One action (natsjetstream.go:241-249, 324-351; broker_subscription.go:76-123; broker.go:29-31;
v3/templates/controller.tmpl:174-187, 207); `cap` is the size of the buffers; `none` when the action is not possible. -/
def step {M : Type} (cap : Nat) (s : St M) : Act → Option (St M)
  | .fetch => match s.hand, s.pending with
    | none, m :: rest => some { s with hand := some m, pending := rest }
    | _, _ => none
  | .put => match s.hand with
    | some (i, m) =>
      if (s.lanes i).queue.length < cap then
        some { s with hand := none, lanes := upd s.lanes i { s.lanes i with queue := (s.lanes i).queue ++ [m] } }
      else none
    | none => none
  | .take i => match (s.lanes i).busy, (s.lanes i).queue with
    | false, m :: rest => some { s with lanes := upd s.lanes i ⟨rest, true, (s.lanes i).started ++ [m]⟩ }
    | _, _ => none
  | .done i =>
    if (s.lanes i).busy then some { s with lanes := upd s.lanes i { s.lanes i with busy := false } } else none

/-- A schedule, from a state to another. -/
inductive Run {M : Type} (cap : Nat) : St M → List Act → St M → Prop
  | nil (s : St M) : Run cap s [] s
  | cons {s s' s'' : St M} {a : Act} {as : List Act} (h : step cap s a = some s') (r : Run cap s' as s'') :
      Run cap s (a :: as) s''

end Verif.Dispatch
