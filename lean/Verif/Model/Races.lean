/-!
# Accesses to what goroutines share

Which variables and mutexes each call touches, in order, for the objects that several goroutines use: the generated
controllers (pkg/codegen/generators/v3/templates/controller.tmpl, v2 alike), the versioning wrapper
(pkg/extensions/versioning), and the broker controllers (pkg/extensions/brokers). Everything else the calls do is left
out. A map counts as one variable. Channels and the client libraries synchronise themselves and are left out, so that a
waiting goroutine is one that has not started yet; the accesses of one call are a list, with one list for each way the call
may go. Execution is sequentially consistent up to the first race, as the Go memory model says.
-/

namespace Verif.Races

/-- Shared variables. The fields of an object that are set when it is made are one variable each. -/
inductive Var
  | genFields                 -- v3/templates/types.tmpl:6-18: broker, logger, middlewares, error handler, map pointer
  | genSubs                   -- the map `subscriptions` (v3/templates/types.tmpl:9-10)
  | wrapFields                -- wrapper.go:25-28
  | wrapChannels              -- the map `channels` (wrapper.go:30)
  | wrapVersions (bs : Nat)   -- the map `versionsChannels` of a broker subscription (broker_subscription.go:16)
  | headers (msg : Nat)       -- the map of headers of a message to publish
  | jetFields                 -- natsjetstream.go:21-27, 30-33
  | jetChannels               -- the map `channels` (natsjetstream.go:29)
  | jetConsume                -- `consumeContext` (natsjetstream.go:28)
  | kafkaFields (ctl : Nat)   -- kafka.go:20-34
  | dialer                    -- `kafka.DefaultDialer`, the dialer of every controller (kafka.go:54)
  | natsFields                -- nats.go:16-21
  deriving DecidableEq, Repr

/-- Mutexes. -/
inductive Mutex
  | channels                  -- wrapper.go:31
  | versions (bs : Nat)       -- broker_subscription.go:17
  deriving DecidableEq, Repr

/-- What a goroutine does next. -/
inductive Ev
  | lock (m : Mutex)
  | unlock (m : Mutex)
  | read (v : Var)
  | write (v : Var)
  | spawn (j : Nat)           -- `go` starts goroutine `j`
  deriving DecidableEq, Repr

/-- What is left of each goroutine, which ones have started, and who holds each mutex. -/
structure St where
  todo : Nat → List Ev
  started : Nat → Bool
  holder : Mutex → Option Nat

/-- Beginning of a program. -/
def start (prog : Nat → List Ev) (started : Nat → Bool) : St := ⟨prog, started, fun _ => none⟩

/-- Replaces what is left of a goroutine. -/
def St.advance (s : St) (i : Nat) (rest : List Ev) : St := { s with todo := fun j => if j = i then rest else s.todo j }

/-- One step of goroutine `i`; `none` if it cannot move. Mutexes are not reentrant. -/
def step (s : St) (i : Nat) : Option St :=
  if s.started i then
    match s.todo i with
    | [] => none
    | .lock m :: rest => match s.holder m with
      | some _ => none
      | none => some { s.advance i rest with holder := fun m' => if m' = m then some i else s.holder m' }
    | .unlock m :: rest => some { s.advance i rest with holder := fun m' => if m' = m then none else s.holder m' }
    | .read _ :: rest => some (s.advance i rest)
    | .write _ :: rest => some (s.advance i rest)
    | .spawn j :: rest => some { s.advance i rest with started := fun k => if k = j then true else s.started k }
  else none

/-- A schedule: which goroutine moves next. -/
def run (s : St) : List Nat → Option St
  | [] => some s
  | i :: is => match step s i with
    | none => none
    | some s' => run s' is

/-! ## The calls -/

/-- Calls of the generated controllers, each with the way it goes. -/
inductive Gen
  | subscribe (listener : Nat)  -- `SubscribeTo…` succeeds
  | subscribeTwice              -- it is subscribed already
  | subscribeFails              -- the broker refuses
  | unsubscribe                 -- `UnsubscribeFrom…`
  | unsubscribeNone             -- it is not subscribed
  | send                        -- `Send…`, `ReplyTo…`
  | request                     -- `Request…`, with its waiting
  | listen                      -- one round of the goroutine that `SubscribeTo…` starts
  deriving DecidableEq, Repr

/-- Accesses of these calls (v3/templates/controller.tmpl:143-193 subscribe, 286-311 unsubscribe, 323-373 send, 386-456
request, 195-249 listen; v2/templates/controller.tmpl:137-187, 248-271 alike). `Close` and the functions for all channels
are sequences of them (controller.tmpl:94-131). -/
def Gen.trace : Gen → List Ev
  | .subscribe l => [.read .genFields, .read .genSubs, .read .genFields, .spawn l, .read .genFields, .write .genSubs]
  | .subscribeTwice => [.read .genFields, .read .genSubs, .read .genFields]
  | .subscribeFails => [.read .genFields, .read .genSubs, .read .genFields]
  | .unsubscribe => [.read .genFields, .read .genSubs, .write .genSubs, .read .genFields]
  | .unsubscribeNone => [.read .genFields, .read .genSubs]
  | .send => [.read .genFields]
  | .request => [.read .genFields]
  | .listen => [.read .genFields]

/-- Calls and goroutines of the versioning wrapper. `bs` is a broker subscription, `waiter` the goroutine waiting for
the cancellation of a version, `listener` the one that listens to the broker. -/
inductive Wrap
  | publish (msg : Nat)
  | publishNoVersion (msg : Nat)
  | subscribeNew (bs waiter listener : Nat)
  | subscribe (bs waiter : Nat)
  | subscribeTwice (bs : Nat)
  | subscribeFails
  | subscribeNoVersion
  | remove (bs : Nat)
  | removeLast (bs : Nat)
  | deliver (bs : Nat)
  | deliverUnknown (bs : Nat)
  | deliverNoVersion (bs : Nat)
  deriving DecidableEq, Repr

/-- Accesses of these calls: `Publish` (wrapper.go:79-87), `Subscribe` with `createBrokerChannels` and
`createVersionListener` (wrapper.go:90-135, broker_subscription.go:33-50; deferred calls run in reverse order),
`removeVersionListener` (broker_subscription.go:52-74), and one message in `launchListener` (broker_subscription.go:76-123;
the mutex is not released when the version is unknown, :107-114). -/
def Wrap.trace : Wrap → List Ev
  | .publish n => [.read .wrapFields, .write (.headers n), .read .wrapFields, .read (.headers n)]
  | .publishNoVersion n => [.read .wrapFields, .read (.headers n)]
  | .subscribeNew bs w l => [.lock .channels, .read .wrapChannels, .read .wrapFields, .write .wrapChannels,
      .lock (.versions bs), .read (.wrapVersions bs), .write (.wrapVersions bs), .spawn w, .unlock (.versions bs),
      .spawn l, .unlock .channels]
  | .subscribe bs w => [.lock .channels, .read .wrapChannels, .lock (.versions bs), .read (.wrapVersions bs),
      .write (.wrapVersions bs), .spawn w, .unlock (.versions bs), .unlock .channels]
  | .subscribeTwice bs => [.lock .channels, .read .wrapChannels, .lock (.versions bs), .read (.wrapVersions bs),
      .unlock (.versions bs), .unlock .channels]
  | .subscribeFails => [.lock .channels, .read .wrapChannels, .read .wrapFields, .unlock .channels]
  | .subscribeNoVersion => []
  | .remove bs => [.lock (.versions bs), .write (.wrapVersions bs), .lock .channels, .read (.wrapVersions bs),
      .unlock .channels, .unlock (.versions bs)]
  | .removeLast bs => [.lock (.versions bs), .write (.wrapVersions bs), .lock .channels, .read (.wrapVersions bs),
      .write .wrapChannels, .unlock .channels, .unlock (.versions bs)]
  | .deliver bs => [.read .wrapFields, .lock (.versions bs), .read (.wrapVersions bs), .unlock (.versions bs)]
  | .deliverUnknown bs => [.read .wrapFields, .lock (.versions bs), .read (.wrapVersions bs), .read .wrapFields]
  | .deliverNoVersion _ => [.read .wrapFields]

/-- Calls and goroutines of the JetStream controller. -/
inductive Jet
  | publish (msg : Nat)
  | subscribeFirst (consumer reader canceller : Nat)  -- starts to consume
  | subscribe (reader canceller : Nat)                -- to another channel, while consuming
  | reader                                            -- goroutine of a subscription, up to its first message
  | consume                                           -- a message arrives
  | cleanup                                           -- a subscription is cancelled, others remain
  | cleanupLast
  deriving DecidableEq, Repr

/-- Accesses of these calls: `Publish` (natsjetstream.go:208-223), `Subscribe` with `ConsumeIfNeeded`
(natsjetstream.go:226-258, 298-312), its goroutine (:240-248), `ConsumeMessage` (:324-351), the cleanup with
`StopConsumeIfNeeded` (:251-255, 315-320). -/
def Jet.trace : Jet → List Ev
  | .publish n => [.read (.headers n), .read .jetFields]
  | .subscribeFirst c r k => [.read .jetChannels, .write .jetChannels, .read .jetConsume, .read .jetFields, .spawn c,
      .write .jetConsume, .spawn r, .spawn k]
  | .subscribe r k => [.read .jetChannels, .write .jetChannels, .read .jetConsume, .spawn r, .spawn k]
  | .reader => [.read .jetChannels, .read .jetFields]
  | .consume => [.read .jetChannels, .read .jetChannels]
  | .cleanup => [.read .jetChannels, .write .jetChannels, .read .jetChannels]
  | .cleanupLast => [.read .jetChannels, .write .jetChannels, .read .jetChannels, .read .jetConsume, .write .jetConsume]

/-- Calls of Kafka controllers; `ctl` is the controller. -/
inductive Kafka
  | new (ctl : Nat)             -- `NewController` without TLS and SASL
  | newSecured (ctl : Nat)      -- with one of them
  | publish (ctl msg : Nat)
  | subscribe (ctl reader canceller : Nat)
  | reader (ctl : Nat)
  deriving DecidableEq, Repr

/-- Accesses of these calls (kafka.go:48-83, 122-133, 144-194, 197-274, 282-351). The fields of a controller are not shared
while it is made. -/
def Kafka.trace : Kafka → List Ev
  | .new _ => [.read .dialer]
  | .newSecured _ => [.write .dialer, .read .dialer]
  | .publish c n => [.read (.kafkaFields c), .read .dialer, .read (.headers n)]
  | .subscribe c r k => [.read (.kafkaFields c), .read .dialer, .spawn r, .spawn k]
  | .reader c => [.read (.kafkaFields c)]

/-- Calls of the NATS controller. -/
inductive Nats
  | publish (msg : Nat)
  | subscribe (canceller : Nat)
  | close
  deriving DecidableEq, Repr

/-- Accesses of these calls (nats.go:85-101, 104-125, 149-151). -/
def Nats.trace : Nats → List Ev
  | .publish n => [.read (.headers n), .read .natsFields]
  | .subscribe k => [.read .natsFields, .spawn k]
  | .close => [.read .natsFields]

end Verif.Races
