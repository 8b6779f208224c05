import Verif.Base.Str

/-!
# What a NATS server knows when `Subscribe` returns

Models `Subscribe` and `Publish` of the NATS controller (pkg/extensions/brokers/nats/nats.go:85-123) on any number of connections
to one server. The client library writes commands to a buffer of the connection; the server takes the commands of a connection in
their order, and those of different connections in any order. `Flush` writes a PING and waits for its PONG.

Simplifications: channels match when they are equal (C30 is about wildcards); connections do not fail; nothing is cancelled; the
server delivers at once (C04 is about the way from there to the listener). Messages are numbered.
-/

namespace Verif.NatsOrder

/-- A subscription as the server knows it. -/
structure Sub where
  id : Nat
  group : Str
  ch : Str
  deriving DecidableEq, Repr

/-- A command on a connection: SUB, PUB, and the PING of the `Flush` that follows the publication of a message. -/
inductive Cmd
  | sub (x : Sub)
  | pub (m : Nat) (ch : Str)
  | ping (m : Nat)
  deriving DecidableEq, Repr

/-- A delivery: a subscription gets a message. -/
structure Got where
  to : Sub
  msg : Nat
  deriving DecidableEq, Repr

/-- What the connections have written and the server has not taken, the subscriptions of the server, the deliveries, and the
publications whose `Flush` has returned. -/
structure St where
  out : Nat → List Cmd
  subs : List Sub
  got : List Got
  returned : List Nat

/-- What happens: a controller is told to subscribe or to publish, the server takes a command of a connection; `pick` is its choice
in each queue group. -/
inductive Ev
  | subscribe (c : Nat) (x : Sub)
  | publish (c m : Nat) (ch : Str)
  | take (c : Nat) (pick : Str → Nat)

/-- Before anything happens. -/
def init : St := ⟨fun _ => [], [], [], []⟩

/-- Commands are added to those of a connection. -/
def write (s : St) (c : Nat) (l : List Cmd) : St := { s with out := fun d => if d = c then s.out d ++ l else s.out d }

/-- The member of a queue group that gets a message, of the subscriptions that match. -/
def member (pick : Str → Nat) (ms : List Sub) (g : Str) : Option Sub :=
  (ms.filter (fun x => x.group = g))[pick g % (ms.filter (fun x => x.group = g)).length]?

/-- The server gives a message to the subscriptions without a queue group, which is the default (brokers/common.go:6), and to one member of
each queue group (`QueueSubscribe`, nats.go:111). -/
def receivers (pick : Str → Nat) (ms : List Sub) : List Sub :=
  ms.filter (fun x => x.group = []) ++ ((ms.map Sub.group).eraseDups.filter (fun g => g ≠ [])).filterMap (member pick ms)

/-- The server takes a command. -/
def serve (s : St) (pick : Str → Nat) : Cmd → St
  | .sub x => { s with subs := s.subs ++ [x] }
  | .pub m ch => { s with got := s.got ++ (receivers pick (s.subs.filter (fun x => x.ch = ch))).map (⟨·, m⟩) }
  | .ping m => { s with returned := s.returned ++ [m] }

/-- One event: `Subscribe` (nats.go:103-123) writes a SUB and returns; `Publish` (nats.go:85-100) writes a PUB, and a PING for its
`Flush`. -/
def step (s : St) : Ev → St
  | .subscribe c x => write s c [.sub x]
  | .publish c m ch => write s c [.pub m ch, .ping m]
  | .take c pick =>
    match s.out c with
    | [] => s
    | cmd :: rest => serve { s with out := fun d => if d = c then rest else s.out d } pick cmd

/-- A history. -/
def run (s : St) (es : List Ev) : St := es.foldl step s

end Verif.NatsOrder
