/-!
# Connections a Kafka controller dials

`NewController` tests the connection (pkg/extensions/brokers/kafka/kafka.go:48-84), `checkTopicExistOrCreateIt` dials once for each
`Subscribe` and for each time `Publish` finds no topic (kafka.go:143-201, 238-280). Connections have numbers, in the order in
which they are dialled.

Simplifications: the calls are made one after the other; the connections inside readers and writers of kafka-go are not looked
at; the list of hosts is not empty (C123); closing succeeds.
-/

namespace Verif.KafkaConns

/-- The connections that are open, and the number of the next one. -/
structure Net where
  opened : List Nat := []
  next : Nat := 0
  deriving DecidableEq, Repr

/-- `Dial` succeeds (kafka.go:70, 240). -/
def Net.dial (n : Net) : Nat × Net := (n.next, ⟨n.next :: n.opened, n.next + 1⟩)

/-- `conn.Close` (kafka.go:79, 244). -/
def Net.close (n : Net) (c : Nat) : Net := ⟨n.opened.filter (· ≠ c), n.next⟩

/-- What the server does in `NewController`: dialling fails, listing the brokers fails, both succeed (kafka.go:70-79). -/
inductive Test
  | noDial
  | noBrokers
  | fine
  deriving DecidableEq, Repr

/-- `NewController` (kafka.go:48-84); whether it returns a controller. -/
def newController (connectionTest : Bool) (t : Test) (n : Net) : Bool × Net :=
  if connectionTest then
    match t with
    | .noDial => (false, n)
    | .noBrokers => (false, n.dial.2)
    | .fine => (true, n.dial.2.close n.dial.1)
  else (true, n)

/-- One round of the loop of `checkTopicExistOrCreateIt` (kafka.go:246-279): an error, the topic is there, not yet. -/
inductive Round
  | createError
  | readError
  | there
  | notYet
  deriving DecidableEq, Repr

/-- How the loop ends; `none`: it has not ended (kafka.go:246-279). -/
def rounds : List Round → Option Bool
  | [] => none
  | .createError :: _ => some false
  | .readError :: _ => some false
  | .there :: _ => some true
  | .notYet :: rs => rounds rs

/-- `checkTopicExistOrCreateIt` (kafka.go:238-280): `none` while it has not returned, with its connection open. `dials` says
whether dialling succeeds. -/
def checkTopic (dials : Bool) (rs : List Round) (n : Net) : Option Bool × Net :=
  if dials then
    match rounds rs with
    | none => (none, n.dial.2)
    | some ok => (some ok, n.dial.2.close n.dial.1)
  else (some false, n)

/-- What a write answers in `Publish` (kafka.go:171-193): written, another error, or no topic, which is then looked for. -/
inductive Write
  | written
  | error
  | noTopic (dials : Bool) (rs : List Round)
  deriving DecidableEq, Repr

/-- The loop of `Publish` (kafka.go:171-193); `none` while it has not returned. -/
def publish (n : Net) : List Write → Option Bool × Net
  | [] => (none, n)
  | .written :: _ => (some true, n)
  | .error :: _ => (some false, n)
  | .noTopic dials rs :: ws =>
    match checkTopic dials rs n with
    | (some true, n') => publish n' ws
    | (r, n') => (r, n')

/-- A call of the user. -/
inductive Call
  | new (connectionTest : Bool) (t : Test)
  | subscribe (dials : Bool) (rs : List Round)
  | publish (ws : List Write)
  deriving DecidableEq, Repr

/-- A call: what it returns, and the connections afterwards. -/
def call (n : Net) : Call → Option Bool × Net
  | .new test t => (some (newController test t n).1, (newController test t n).2)
  | .subscribe dials rs => checkTopic dials rs n
  | .publish ws => publish n ws

/-- Calls one after the other; one that has not returned is the last. -/
def calls (n : Net) : List Call → Net
  | [] => n
  | c :: cs => match call n c with
    | (none, n') => n'
    | (some _, n') => calls n' cs

end Verif.KafkaConns
