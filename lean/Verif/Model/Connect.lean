import Verif.Base.GoMap

/-!
# Making broker controllers

Models the constructors and options of pkg/extensions/brokers/natsjetstream/natsjetstream.go:36-210, 290-295,
pkg/extensions/brokers/nats/nats.go:30-82, 146-149 and pkg/extensions/brokers/kafka/kafka.go:46-139.
-/

namespace Verif.Connect

/-- A NATS connection: opened by the controller, or given to it. -/
inductive Conn
  | own (n : Nat)
  | given (n : Nat)
  deriving DecidableEq, Repr

/-- What happened outside: the connections opened by the library for the controller and the calls of `Close`, in order. -/
structure World where
  opened : List Conn := []
  closed : List Conn := []
  deriving DecidableEq, Repr

/-- `nats.Connect`: a new connection. -/
def World.connect (w : World) : World × Conn := ({ w with opened := w.opened ++ [.own w.opened.length] }, .own w.opened.length)

/-- `conn.Close()`. -/
def World.close (w : World) (c : Conn) : World := { w with closed := w.closed ++ [c] }

/-! ## JetStream -/

namespace JS

/-- The options (natsjetstream.go:91-157). `connOpts ok`: whether `nats.Connect` succeeds; `conn none` is a nil
connection. Configurations are represented by their names. -/
inductive Opt
  | logger
  | nakDelay
  | streamConfig (name : String)
  | stream (name : String)
  | consumerConfig (name : String)
  | consumer (name : String)
  | connOpts (ok : Bool)
  | conn (c : Option Nat)
  deriving DecidableEq, Repr

/-- The controller (natsjetstream.go:20-33), without logger, delay and subscriptions. -/
structure Ctl where
  conn : Option Conn := none
  owns : Bool := false
  streamName : String := ""
  consumerName : String := ""
  streamConfig : Option String := none
  consumerConfig : Option String := none
  deriving DecidableEq, Repr

/-- `setNatsConnection` (natsjetstream.go:163-169). -/
def setConn (s : World × Ctl) (nc : Option Conn) (owning : Bool) : World × Ctl :=
  let w := match s.2.conn with
    | some c => if s.2.owns then s.1.close c else s.1
    | none => s.1
  (w, { s.2 with conn := nc, owns := owning })

/-- One option (natsjetstream.go:91-157); `none` is the error of `nats.Connect`. -/
def apply (s : World × Ctl) : Opt → Option (World × Ctl)
  | .logger => some s
  | .nakDelay => some s
  | .streamConfig n => some (s.1, { s.2 with streamConfig := some n })
  | .stream n => some (s.1, { s.2 with streamName := n })
  | .consumerConfig n => some (s.1, { s.2 with consumerConfig := some n })
  | .consumer n => some (s.1, { s.2 with consumerName := n })
  | .connOpts ok =>
    if ok then some (setConn (s.1.connect.1, s.2) (some s.1.connect.2) true) else none
  | .conn c => some (setConn s (c.map .given) false)

/-- The options in order, up to the first error (natsjetstream.go:47-51): the state reached and whether there was none. -/
def applyAll (s : World × Ctl) : List Opt → (World × Ctl) × Bool
  | [] => (s, true)
  | o :: rest => match apply s o with
    | none => (s, false)
    | some s' => applyAll s' rest

/-- Calls to the JetStream server. -/
inductive Api
  | createStream (name : String)
  | updateStream (name : String)
  | createOrUpdateConsumer (stream name : String)
  deriving DecidableEq, Repr

/-- Answer to the creation of a stream. -/
inductive Created
  | ok
  | inUse
  | error
  deriving DecidableEq, Repr

/-- What the libraries answer: the default connection, the management interface, and the server. -/
structure Answers where
  dial : Bool := true
  jetStream : Bool := true
  create : String → Created := fun _ => .ok
  update : String → Bool := fun _ => true
  consumer : String → String → Bool := fun _ _ => true

/-- `registerStream` (natsjetstream.go:188-203): controller, calls, success. -/
def registerStream (a : Answers) (c : Ctl) : Ctl × List Api × Bool :=
  match c.streamConfig with
  | none => (c, [], true)
  | some n =>
    if n = "" then (c, [], false)
    else
      let c := { c with streamName := n }
      match a.create n with
      | .ok => (c, [.createStream n], true)
      | .error => (c, [.createStream n], false)
      | .inUse => (c, [.createStream n, .updateStream n], a.update n)

/-- `registerConsumer` (natsjetstream.go:173-185): controller, calls, success. -/
def registerConsumer (a : Answers) (c : Ctl) : Ctl × List Api × Bool :=
  match c.consumerConfig with
  | none => (c, [], true)
  | some n =>
    if n = "" then (c, [], false)
    else
      let c := { c with consumerName := n }
      (c, [.createOrUpdateConsumer c.streamName n], a.consumer c.streamName n)

/-- What `NewController` did. -/
structure Made where
  world : World
  calls : List Api
  result : Option Ctl
  deriving DecidableEq, Repr

/-- The part of `NewController` after the connection (natsjetstream.go:63-85). -/
def setup (a : Answers) (w : World) (c : Ctl) : Made :=
  if !a.jetStream then ⟨w, [], none⟩
  else
    let r := registerStream a c
    if !r.2.2 then ⟨w, r.2.1, none⟩
    else
      let r' := registerConsumer a r.1
      if !r'.2.2 then ⟨w, r.2.1 ++ r'.2.1, none⟩
      else ⟨w, r.2.1 ++ r'.2.1, some r'.1⟩

/-- `NewController` (natsjetstream.go:36-88). -/
def new (a : Answers) (opts : List Opt) : Made :=
  let r := applyAll ({}, {}) opts
  if !r.2 then ⟨r.1.1, [], none⟩
  else match r.1.2.conn with
    | some _ => setup a r.1.1 r.1.2
    | none =>
      if a.dial then
        let s := setConn (r.1.1.connect.1, r.1.2) (some r.1.1.connect.2) true
        setup a s.1 s.2
      else ⟨r.1.1, [], none⟩

/-- `Close` (natsjetstream.go:291-295). -/
def close (w : World) (c : Ctl) : World :=
  match c.conn with
  | some n => if c.owns then w.close n else w
  | none => w

end JS

/-! ## NATS -/

namespace Nats

/-- The options (nats.go:58-82). -/
inductive Opt
  | queueGroup (name : String)
  | logger
  | connOpts (ok : Bool)
  deriving DecidableEq, Repr

/-- The controller (nats.go:16-21), without logger. -/
structure Ctl where
  conn : Option Conn := none
  queueGroup : String := ""
  deriving DecidableEq, Repr

/-- The options in order, up to the first error (nats.go:38-42): the state reached and whether there was none. -/
def applyAll (s : World × Ctl) : List Opt → (World × Ctl) × Bool
  | [] => (s, true)
  | .queueGroup n :: rest => applyAll (s.1, { s.2 with queueGroup := n }) rest
  | .logger :: rest => applyAll s rest
  | .connOpts ok :: rest =>
    if ok then applyAll (s.1.connect.1, { s.2 with conn := some s.1.connect.2 }) rest else (s, false)

/-- `NewController` (nats.go:28-55). -/
def new (dial : Bool) (opts : List Opt) : World × Option Ctl :=
  let r := applyAll ({}, {}) opts
  if !r.2 then (r.1.1, none)
  else match r.1.2.conn with
    | some _ => (r.1.1, some r.1.2)
    | none =>
      if dial then (r.1.1.connect.1, some { r.1.2 with conn := some r.1.1.connect.2 }) else (r.1.1, none)

/-- `Close` (nats.go:145-148). -/
def close (w : World) (c : Ctl) : World :=
  match c.conn with
  | some n => w.close n
  | none => w

end Nats

/-! ## Kafka -/

namespace Kafka

/-- `kafka.Dialer`, of which only two fields are set here; configurations are represented by numbers. -/
structure Dialer where
  tls : Option Nat := none
  sasl : Option Nat := none
  deriving DecidableEq, Repr

/-- The options (kafka.go:85-139). `tls none` is a nil configuration. -/
inductive Opt
  | groupID (g : String)
  | partition (p : Int)
  | maxBytes (n : Int)
  | logger (l : Nat)
  | autoCommit (b : Bool)
  | tls (c : Option Nat)
  | sasl (m : Option Nat)
  | connectionTest (b : Bool)
  deriving DecidableEq, Repr

/-- The fields of a controller (kafka.go:20-34) other than the dialer; logger 0 is the dummy one. -/
structure Fields where
  groupID : String := ""
  partition : Int := 0
  maxBytes : Int := 10000000
  logger : Nat := 0
  autoCommit : Bool := true
  connectionTest : Bool := true
  deriving DecidableEq, Repr

/-- A controller: its fields and its dialer, a reference into the heap of dialers. -/
structure Ctl where
  fields : Fields
  dialer : Nat
  deriving DecidableEq, Repr

/-- The heap: dialers (number 0 is `kafka.DefaultDialer`) and the controllers handed out. -/
structure World where
  dialers : Nat → Dialer := fun _ => {}
  ctls : List Ctl := []

/-- One option (kafka.go:85-139). -/
def apply (s : (Nat → Dialer) × Ctl) : Opt → (Nat → Dialer) × Ctl
  | .groupID g => (s.1, { s.2 with fields := { s.2.fields with groupID := g } })
  | .partition p => (s.1, { s.2 with fields := { s.2.fields with partition := p } })
  | .maxBytes n => (s.1, { s.2 with fields := { s.2.fields with maxBytes := n } })
  | .logger l => (s.1, { s.2 with fields := { s.2.fields with logger := l } })
  | .autoCommit b => (s.1, { s.2 with fields := { s.2.fields with autoCommit := b } })
  | .connectionTest b => (s.1, { s.2 with fields := { s.2.fields with connectionTest := b } })
  | .tls c => (fun i => if i = s.2.dialer then { s.1 i with tls := c } else s.1 i, s.2)
  | .sasl m => (fun i => if i = s.2.dialer then { s.1 i with sasl := m } else s.1 i, s.2)

/-- `NewController` (kafka.go:46-83), with `dialer: kafka.DefaultDialer` (:52). `test` is the outcome of the connection
test (:65-79) if it is made. No host at all (a panic, :67) is not modelled. -/
def new (w : World) (opts : List Opt) (test : Bool) : World :=
  let s := opts.foldl apply (w.dialers, ⟨{}, 0⟩)
  { dialers := s.1, ctls := if s.2.fields.connectionTest && !test then w.ctls else w.ctls ++ [s.2] }

/-- A history of constructions: options and outcome of the test. -/
def run (w : World) (h : List (List Opt × Bool)) : World := h.foldl (fun w e => new w e.1 e.2) w

/-- The settings a controller connects, reads and writes with (kafka.go:66, 143-154, 196-203, 229-231). -/
def settings (w : World) (c : Ctl) : Fields × Dialer := (c.fields, w.dialers c.dialer)

end Kafka

end Verif.Connect
