import Verif.Model.Versioning

/-!
# Contexts of subscriptions

Every subscription is opened with a context. The Kafka controller hands it to its reading loop, which returns when the
context has ended (pkg/extensions/brokers/kafka/kafka.go:219-224, 285-295, 319-329); the NATS and JetStream controllers
use theirs for logs only (nats.go:104-131, natsjetstream.go:226-258, once consuming has begun). The versioning wrapper opens
the subscription of the broker with the context of the first version that subscribes to a channel (wrapper.go:103-112).

Simplification: what the reading loop does with its context is one event, which can happen once the context has ended;
until then messages can still come, as in the `select` of the Kafka client. Calls are run one after the other, as in
`Verif.Versioning`.
-/

namespace Verif.Lifetimes
open Versioning (Cfg Out)

/-- The wrapper, the context each channel was opened with at the broker, the contexts that have ended, and the channels
whose reading loop has returned. -/
structure St where
  w : Versioning.St := {}
  opener : GoMap String Nat := []
  ended : List Nat := []
  stopped : List String := []

/-- Calls and events. -/
inductive Op
  | subscribe (ch : String) (ver : Option Bytes) (ctx : Nat) (ok : Bool)
  | cancel (ch : String) (v : Bytes)
  | deliver (ch : String) (m : BrokerMessage)
  | endCtx (ctx : Nat)
  | observe (ch : String)   -- the reading loop of the channel looks at its context

/-- `Wrapper.Subscribe` (wrapper.go:90-121): a channel that was not there is opened at the broker with this context
(:104-108, :123-135), with a reading loop of its own (kafka.go:219-224). -/
def subscribe (s : St) (ch : String) (ver : Option Bytes) (ctx : Nat) (ok : Bool) : St × Out :=
  let r := Versioning.subscribe s.w ch ver ok
  if (s.w.channels.get ch).isNone && (r.1.channels.get ch).isSome then
    ({ s with w := r.1, opener := s.opener.put ch ctx, stopped := s.stopped.filter (· ≠ ch) }, r.2)
  else ({ s with w := r.1 }, r.2)

/-- One call or event. `bound`: the broker's reading loop ends with its context (Kafka; kafka.go:287-295, 321-329). A
channel whose loop has returned gets no message (broker_subscription.go:79-83 waits for ever). -/
def step (bound : Bool) (cfg : Cfg) (s : St) : Op → St × Out
  | .subscribe ch ver ctx ok => subscribe s ch ver ctx ok
  | .cancel ch v =>
    let r := Versioning.cancel s.w ch v
    ({ s with w := r.1 }, r.2)
  | .deliver ch m =>
    if ch ∈ s.stopped then (s, .done) else ({ s with w := Versioning.deliver cfg s.w ch m }, .done)
  | .endCtx c => ({ s with ended := c :: s.ended }, .done)
  | .observe ch =>
    match s.opener.get ch with
    | none => (s, .done)
    | some c => if bound && decide (c ∈ s.ended) then ({ s with stopped := ch :: s.stopped }, .done) else (s, .done)

/-- A history: final state and outcomes. -/
def run (bound : Bool) (cfg : Cfg) (s : St) : List Op → St × List Out
  | [] => (s, [])
  | o :: os =>
    let r := step bound cfg s o
    let rest := run bound cfg r.1 os
    (rest.1, r.2 :: rest.2)

end Verif.Lifetimes
