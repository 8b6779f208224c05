import Verif.Base.GoMap

/-!
# JetStream messages that arrive while subscriptions are opened and cancelled

The goroutines of a JetStream controller (pkg/extensions/brokers/natsjetstream/natsjetstream.go:226-351): the consumer,
which runs `ConsumeMessage`, a reader for each subscription, and cancellations
(pkg/extensions/broker.go:41-54). Atomic actions are the accesses to the map `channels`, to the unbuffered channels in it
and to the channel of a subscription. Simplifications: every message has the one channel it belongs to (which channel a
subject matches is modelled in `Verif.JetStream`), starting to consume succeeds, and the accesses to the map are atomic
(in Go, overlapping ones are a data race on top). `K` are channel names, `M` contents of messages; a message is a pair of
them. The channel of a subscription has room (a full one only delays `transmit`).
-/

namespace Verif.JetRace

/-- The consumer (natsjetstream.go:324-351). -/
inductive Con (K M : Type)
  | idle
  | picked (m : K × M)            -- found the subscription (:330-335), about to look up its channel (:349)
  | sending (q : Nat) (m : K × M) -- blocked on `c.channels[…] <- msg` (:349)
  | stuck (m : K × M)             -- sends to a nil channel
  deriving DecidableEq, Repr

/-- The goroutine of a subscription (natsjetstream.go:241-249). -/
inductive Phase (K M : Type)
  | absent
  | starting                      -- has not evaluated `c.channels[channel]` yet (:242)
  | waiting (q : Nat)
  | handling (q : Nat) (m : K × M) -- in `HandleMessage` (:261-287)
  | ended
  | stuck                         -- ranges over a nil channel
  deriving DecidableEq, Repr

/-- A subscription. -/
inductive Sub
  | absent
  | live
  | cleaned                       -- the cleanup ran (natsjetstream.go:251-255)
  | closed                        -- the channel of the subscription is closed (broker.go:48)
  deriving DecidableEq, Repr

/-- The controller. `arrived`, `dropped`, `handed` and `mail` record what happened. -/
structure St (K M : Type) where
  chans : GoMap K Nat := []
  closed : Nat → Bool := fun _ => false
  con : Con K M := .idle
  phase : Nat → Phase K M := fun _ => .absent
  sub : Nat → Sub := fun _ => .absent
  key : Nat → Option K := fun _ => none
  next : Nat := 0
  panicked : Bool := false
  arrived : List (K × M) := []
  dropped : List (K × M) := []
  handed : List (Nat × K × M) := []
  mail : List (Nat × K × M) := []

/-- Actions: subscribing to a channel, a reader starting, a message arriving, the consumer looking up the channel,
handing a message to a reader, sending on a closed channel, a reader transmitting, a reader noticing that its channel is
closed, the cleanup of a cancellation, closing the subscription's channel. -/
inductive Act (K M : Type)
  | subscribe (k : K)
  | start (i : Nat)
  | arrive (m : K × M)
  | lookup
  | hand (i : Nat)
  | sendClosed
  | transmit (i : Nat)
  | finish (i : Nat)
  | cleanup (i : Nat)
  | closeMsgs (i : Nat)
  deriving DecidableEq, Repr

/-- Changing a function at one place. -/
def upd {α : Type} (f : Nat → α) (i : Nat) (x : α) : Nat → α := fun j => if j = i then x else f j

variable {K M : Type} [DecidableEq K]

/-- `Subscribe` (natsjetstream.go:226-258): the channel is made if missing. -/
def subscribe (s : St K M) (k : K) : St K M :=
  { s with
    chans := if (s.chans.get k).isNone then s.chans.put k s.next else s.chans
    phase := upd s.phase s.next .starting
    sub := upd s.sub s.next .live
    key := upd s.key s.next (some k)
    next := s.next + 1 }

/-- The channel of a subscription, if it is still in the map. -/
def queueOf (s : St K M) (i : Nat) : Option Nat :=
  match s.key i with
  | none => none
  | some k => s.chans.get k

/-- The cleanup of a cancellation (natsjetstream.go:251-255): `close` of a nil or closed channel panics. -/
def cleanup (s : St K M) (i : Nat) : St K M :=
  match s.key i, queueOf s i with
  | some k, some q =>
    if s.closed q then { s with panicked := true }
    else { s with chans := s.chans.del k, closed := upd s.closed q true, sub := upd s.sub i .cleaned }
  | _, _ => { s with panicked := true }

/-- A reader starts (natsjetstream.go:242). -/
def start (s : St K M) (i : Nat) : St K M :=
  match queueOf s i with
  | some q => { s with phase := upd s.phase i (.waiting q) }
  | none => { s with phase := upd s.phase i .stuck }

/-- The consumer gets a message (natsjetstream.go:327-348). -/
def arrive (s : St K M) (m : K × M) : St K M :=
  if (s.chans.get m.1).isSome then { s with con := .picked m, arrived := s.arrived ++ [m] }
  else { s with dropped := s.dropped ++ [m], arrived := s.arrived ++ [m] }

/-- One atomic action; `none` when it is not enabled. A panic stops the process. -/
def step (s : St K M) (a : Act K M) : Option (St K M) :=
  if s.panicked then none
  else match a with
  | .subscribe k => some (subscribe s k)
  | .start i => match s.phase i with
    | .starting => some (start s i)
    | _ => none
  | .arrive m => match s.con with
    | .idle => some (arrive s m)
    | _ => none
  | .lookup => match s.con with
    | .picked m => match s.chans.get m.1 with
      | some q => some { s with con := .sending q m }
      | none => some { s with con := .stuck m }
    | _ => none
  | .hand i => match s.con, s.phase i with
    | .sending q m, .waiting q' =>
      if q = q' ∧ s.closed q = false then
        some { s with con := .idle, phase := upd s.phase i (.handling q m), handed := s.handed ++ [(i, m)] }
      else none
    | _, _ => none
  | .sendClosed => match s.con with
    | .sending q _ => if s.closed q then some { s with panicked := true } else none
    | _ => none
  | .transmit i => match s.phase i with
    | .handling q m =>
      if s.sub i = .closed then some { s with panicked := true }
      else some { s with phase := upd s.phase i (.waiting q), mail := s.mail ++ [(i, m)] }
    | _ => none
  | .finish i => match s.phase i with
    | .waiting q => if s.closed q then some { s with phase := upd s.phase i .ended } else none
    | _ => none
  | .cleanup i => match s.sub i with
    | .live => some (cleanup s i)
    | _ => none
  | .closeMsgs i => match s.sub i with
    | .cleaned => some { s with sub := upd s.sub i .closed }
    | _ => none

/-- A schedule; `none` when an action of it is not enabled. -/
def run (s : St K M) : List (Act K M) → Option (St K M)
  | [] => some s
  | a :: as => match step s a with
    | none => none
    | some s' => run s' as

/-- A new controller. -/
def init : St K M := {}

end Verif.JetRace
