import Verif.Model.Broker

/-!
# Versioning wrapper

Models pkg/extensions/versioning: `Wrapper.Publish`, `Wrapper.Subscribe`, `createBrokerChannels`
(wrapper.go:79-135), `createVersionListener`, `removeVersionListener`, `launchListener`
(broker_subscription.go:33-123) and `versionSubcription.launchListener` (version_subscription.go:28-38).

Calls are run one after the other here (their interleavings are in `Verif.Model.VersionLocks`), but a
mutex that is never released stays locked, and a call that needs it reports `blocked` and keeps the
mutexes it already holds.
Simplifications: the broker and version subscriptions are numbers; the queue of a version subscription
accepts every message; `Cancel` on the broker subscription succeeds. Versions are Go strings, that is
byte sequences.
-/

namespace Verif.Versioning

/-- Options of the wrapper (wrapper.go:25-33, 56-76). -/
structure Cfg where
  headerKey : String
  defaultVersion : Option Bytes
  deriving DecidableEq, Repr

/-- Result of publishing through the wrapper. -/
inductive PubOut
  | sent (m : BrokerMessage)   -- handed to the broker
  | panicked
  deriving DecidableEq, Repr

/-- `Wrapper.Publish` (wrapper.go:79-87): assignment to a nil map panics. `ver` is the version in the
context, if there is one of type string. -/
def publish (cfg : Cfg) (ver : Option Bytes) (m : BrokerMessage) : PubOut :=
  match ver with
  | none => .sent m
  | some v => match m.headers with
    | none => .panicked
    | some h => .sent { m with headers := some (h.put cfg.headerKey v) }

/-- `brokerSubscription` (broker_subscription.go:11-18). `held`: `versionsMutex` is locked for ever;
`listening`: the listener goroutine is not blocked on it. -/
structure BS where
  sub : Nat
  versions : GoMap Bytes Nat
  held : Bool := false
  listening : Bool := true
  deriving DecidableEq, Repr

/-- `Wrapper` (wrapper.go:25-33) with the broker's live subscriptions and what each version subscription
received, in order. `held`: `channelsMutex` is locked for ever. -/
structure St where
  channels : GoMap String BS := []
  held : Bool := false
  nextSub : Nat := 0
  nextId : Nat := 0
  live : List (Nat × String) := []
  inbox : List (Nat × BrokerMessage) := []
  deriving DecidableEq, Repr

/-- Outcome of a call. -/
inductive Out
  | subscribed (id : Nat)
  | done
  | noVersion           -- ErrNoVersion
  | alreadySubscribed   -- extensions.ErrAlreadySubscribedChannel
  | broker              -- error of the broker
  | blocked             -- the call does not return
  deriving DecidableEq, Repr

/-- The version a received message is for (broker_subscription.go:85-100): its header, the default if
that is absent or empty. Reading a nil map finds nothing. -/
def versionOf (cfg : Cfg) (m : BrokerMessage) : Option Bytes :=
  match m.headers.bind (·.get cfg.headerKey) with
  | none => cfg.defaultVersion
  | some v => if v = [] then cfg.defaultVersion else some v

/-- `Wrapper.Subscribe` (wrapper.go:90-121), `createBrokerChannels` (:123-135),
`createVersionListener` (broker_subscription.go:33-50). `ok`: the broker accepts. -/
def subscribe (s : St) (ch : String) (ver : Option Bytes) (ok : Bool) : St × Out :=
  match ver with
  | none => (s, .noVersion)
  | some v =>
    if v = [] then (s, .noVersion)
    else if s.held then (s, .blocked)
    else match s.channels.get ch with
      | none =>
        if ok then
          ({ s with
              channels := s.channels.put ch { sub := s.nextSub, versions := GoMap.put [] v s.nextId }
              live := s.live ++ [(s.nextSub, ch)]
              nextSub := s.nextSub + 1
              nextId := s.nextId + 1 }, .subscribed s.nextId)
        else (s, .broker)
      | some bs =>
        if bs.held then ({ s with held := true }, .blocked)
        else match bs.versions.get v with
          | some _ => (s, .alreadySubscribed)
          | none =>
            ({ s with
                channels := s.channels.put ch { bs with versions := bs.versions.put v s.nextId }
                nextId := s.nextId + 1 }, .subscribed s.nextId)

/-- Cancellation of the subscription to a version: `removeVersionListener`
(broker_subscription.go:52-74) called from version_subscription.go:28-38. -/
def cancel (s : St) (ch : String) (v : Bytes) : St × Out :=
  match s.channels.get ch with
  | none => (s, .done)
  | some bs => match bs.versions.get v with
    | none => (s, .done)
    | some _ =>
      if bs.held then (s, .blocked)
      else
        let vs := bs.versions.del v
        if s.held then
          ({ s with channels := s.channels.put ch { bs with versions := vs, held := true } }, .blocked)
        else if vs.length > 0 then
          ({ s with channels := s.channels.put ch { bs with versions := vs } }, .done)
        else
          ({ s with
              channels := s.channels.del ch
              live := s.live.filter (fun e => !decide (e.1 = bs.sub)) }, .done)

/-- One turn of the listener for a message of the broker (broker_subscription.go:76-123). When the
version is not registered, the code continues without unlocking `versionsMutex` (:105-114). -/
def deliver (cfg : Cfg) (s : St) (ch : String) (m : BrokerMessage) : St :=
  match s.channels.get ch with
  | none => s
  | some bs =>
    if !bs.listening then s
    else match versionOf cfg m with
      | none => s
      | some v =>
        if bs.held then { s with channels := s.channels.put ch { bs with listening := false } }
        else match bs.versions.get v with
          | none => { s with channels := s.channels.put ch { bs with held := true } }
          | some id => { s with inbox := s.inbox ++ [(id, m)] }

/-- Calls and events of a history. -/
inductive Op
  | subscribe (ch : String) (ver : Option Bytes) (ok : Bool)
  | cancel (ch : String) (v : Bytes)
  | deliver (ch : String) (m : BrokerMessage)
  deriving DecidableEq, Repr

/-- Run one call or event. -/
def step (cfg : Cfg) (s : St) : Op → St × Out
  | .subscribe ch ver ok => subscribe s ch ver ok
  | .cancel ch v => cancel s ch v
  | .deliver ch m => (deliver cfg s ch m, .done)

/-- A new wrapper (wrapper.go:39-54). -/
def init : St := {}

/-- Run a history: final state and outcome of each call. -/
def run (cfg : Cfg) (s : St) : List Op → St × List Out
  | [] => (s, [])
  | o :: os =>
    let r := step cfg s o
    let rest := run cfg r.1 os
    (rest.1, r.2 :: rest.2)

end Verif.Versioning
