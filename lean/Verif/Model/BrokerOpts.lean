import Verif.Base.Str

/-!
# Options of the broker controllers

Models `NewController`, the options and the start of `Subscribe` of pkg/extensions/brokers/kafka/kafka.go, nats/nats.go and
natsjetstream/natsjetstream.go. What the servers answer is a parameter. The connections that NATS options open and close are
C76, the credentials that Kafka options store in a shared dialer are C77.
-/

namespace Verif.BrokerOpts

/-- What a call does: it returns a value or an error, or the process crashes. -/
inductive Out (α : Type)
  | ok (a : α)
  | error
  | panic
  deriving DecidableEq, Repr

namespace Kafka

/-- `ControllerOption` (kafka.go:84-144). `logger` says whether a logger is given or nil; `credentials` are `WithTLS` and
`WithSasl`. -/
inductive Opt
  | group (id : Str)
  | partition (p : Int)
  | maxBytes (n : Int)
  | logger (given : Bool)
  | autoCommit (b : Bool)
  | credentials
  | connectionTest (b : Bool)
  deriving DecidableEq, Repr

/-- `Controller` (kafka.go:19-34). -/
structure Cfg where
  hosts : List Str
  group : Str
  partition : Int
  maxBytes : Int
  logger : Bool
  autoCommit : Bool
  connectionTest : Bool
  deriving DecidableEq, Repr

/-- The default controller (kafka.go:50-59, brokers/common.go:6). -/
def defaults (hosts : List Str) : Cfg where
  hosts := hosts
  group := []
  partition := 0
  maxBytes := 10000000
  logger := true
  autoCommit := true
  connectionTest := true

/-- One option (kafka.go:84-144). -/
def Opt.apply (c : Cfg) : Opt → Cfg
  | .group id => { c with group := id }
  | .partition p => { c with partition := p }
  | .maxBytes n => { c with maxBytes := n }
  | .logger g => { c with logger := g }
  | .autoCommit b => { c with autoCommit := b }
  | .credentials => c
  | .connectionTest b => { c with connectionTest := b }

/-- The controller after its options (kafka.go:61-64). -/
def configure (hosts : List Str) (os : List Opt) : Cfg := os.foldl Opt.apply (defaults hosts)

/-- What the servers do: whether the first host can be dialled, lists its brokers, and has the topic in the end (C121 is
about when this returns). -/
structure Server where
  dials : Str → Bool
  lists : Str → Bool
  topic : Str → Str → Bool

/-- `NewController` (kafka.go:48-81): the first host is taken without a look at the list. -/
def newController (srv : Server) (hosts : List Str) (os : List Opt) : Out Cfg :=
  let c := configure hosts os
  if c.connectionTest then
    match c.hosts with
    | [] => .panic
    | h :: _ => if !srv.dials h then .error else if !srv.lists h then .error else .ok c
  else .ok c

/-- `kafka.ReaderConfig`, as far as it is set (kafka.go:204-211). -/
structure ReaderConfig where
  brokers : List Str
  topic : Str
  partition : Int
  maxBytes : Int
  group : Str
  deriving DecidableEq, Repr

/-- `ReaderConfig.Validate` of segmentio/kafka-go v0.4.42 (go.mod:17), a dependency whose source is not in /repo, modelled
after its published source for the fields that are set. -/
def ReaderConfig.valid (r : ReaderConfig) : Bool :=
  if r.brokers = [] then false
  else if r.partition < 0 ∨ 2147483647 ≤ r.partition then false
  else if r.maxBytes < 0 then false
  else if r.group ≠ [] then (if r.partition ≠ 0 then false else r.topic ≠ [])
  else r.topic ≠ []

/-- `kafka.NewReader`: a panic if the configuration is not valid. -/
def newReader (r : ReaderConfig) : Out ReaderConfig := if r.valid then .ok r else .panic

/-- `checkTopicExistOrCreateIt` (kafka.go:238-244). -/
def checkTopic (srv : Server) (c : Cfg) (topic : Str) : Out Unit :=
  match c.hosts with
  | [] => .panic
  | h :: _ => if !srv.dials h then .error else if !srv.topic h topic then .error else .ok ()

/-- `Subscribe`, up to the reader (kafka.go:197-211). -/
def subscribe (srv : Server) (c : Cfg) (topic : Str) : Out ReaderConfig :=
  match checkTopic srv c topic with
  | .ok () => newReader ⟨c.hosts, topic, c.partition, c.maxBytes, c.group⟩
  | .error => .error
  | .panic => .panic

end Kafka

namespace JetStream

/-- `ControllerOption` (natsjetstream.go:83-155), without those about connections (C76). Of the configurations of streams
and consumers only the names are looked at here; the rest goes to the server. -/
inductive Opt
  | logger
  | streamConfig (name : Str) (rest : Nat)
  | stream (name : Str)
  | consumerConfig (name : Str) (rest : Nat)
  | consumer (name : Str)
  | nakDelay (ns : Int)
  deriving DecidableEq, Repr

/-- `Controller` (natsjetstream.go:20-34). -/
structure Cfg where
  streamName : Str := []
  consumerName : Str := []
  streamConfig : Option (Str × Nat) := none
  consumerConfig : Option (Str × Nat) := none
  nakDelay : Int := 5000000000
  deriving DecidableEq, Repr

/-- One option (natsjetstream.go:86-133). -/
def Opt.apply (c : Cfg) : Opt → Cfg
  | .logger => c
  | .streamConfig n r => { c with streamConfig := some (n, r) }
  | .stream n => { c with streamName := n }
  | .consumerConfig n r => { c with consumerConfig := some (n, r) }
  | .consumer n => { c with consumerName := n }
  | .nakDelay d => { c with nakDelay := d }

/-- The controller after its options (natsjetstream.go:38-51). -/
def configure (os : List Opt) : Cfg := os.foldl Opt.apply {}

/-- What the server answers when a stream is created. -/
inductive Created
  | ok | inUse | error
  deriving DecidableEq, Repr

/-- What the server does with streams and consumers. -/
structure Server where
  createStream : Str × Nat → Created
  updateStream : Str × Nat → Bool
  consumer : Str → Str × Nat → Bool

/-- What is asked of the server. -/
inductive Call
  | createStream (c : Str × Nat)
  | updateStream (c : Str × Nat)
  | consumer (stream : Str) (c : Str × Nat)
  deriving DecidableEq, Repr

/-- `registerStream` (natsjetstream.go:186-203): the requests, and the name if it succeeds. -/
def registerStream (srv : Server) (c : Str × Nat) : List Call × Option Str :=
  if c.1 = [] then ([], none)
  else match srv.createStream c with
    | .ok => ([.createStream c], some c.1)
    | .inUse => ([.createStream c, .updateStream c], if srv.updateStream c then some c.1 else none)
    | .error => ([.createStream c], none)

/-- `registerConsumer` (natsjetstream.go:169-183). -/
def registerConsumer (srv : Server) (stream : Str) (c : Str × Nat) : List Call × Option Str :=
  if c.1 = [] then ([], none)
  else ([.consumer stream c], if srv.consumer stream c then some c.1 else none)

/-- `NewController` after the connection (natsjetstream.go:62-85): the requests, and the controller if it succeeds. -/
def newController (srv : Server) (os : List Opt) : List Call × Out Cfg :=
  let c := configure os
  let s := match c.streamConfig with
    | none => ([], some c.streamName)
    | some k => registerStream srv k
  match s.2 with
  | none => (s.1, .error)
  | some stream =>
    let c := { c with streamName := stream }
    match c.consumerConfig with
    | none => (s.1, .ok c)
    | some k =>
      let r := registerConsumer srv c.streamName k
      match r.2 with
      | none => (s.1 ++ r.1, .error)
      | some consumer => (s.1 ++ r.1, .ok { c with consumerName := consumer })

end JetStream

end Verif.BrokerOpts
