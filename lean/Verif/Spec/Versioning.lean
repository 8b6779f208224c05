import Verif.Model.Versioning

/-!
# What the versioning wrapper should be (C26–C28)

A directory of (channel, version) → subscription, and a mailbox per subscription. No locks, no broker
subscriptions, no per-channel structure.
-/

namespace Verif.Versioning.Spec

/-- The directory, the next subscription number, and all deliveries in order. -/
structure Dir where
  reg : GoMap (String × Bytes) Nat := []
  next : Nat := 0
  inbox : List (Nat × BrokerMessage) := []

/-- A channel with at least one version subscribed. -/
def Dir.used (d : Dir) (ch : String) : Bool := d.reg.any (fun e => e.1.1 == ch)

/-- Subscribing registers a new subscription unless there is no version, the version is taken, or the
broker had to be asked (first version of the channel) and refused. -/
def subscribe (d : Dir) (ch : String) (ver : Option Bytes) (ok : Bool) : Dir × Out :=
  match ver with
  | none => (d, .noVersion)
  | some v =>
    if v = [] then (d, .noVersion)
    else if (d.reg.get (ch, v)).isSome then (d, .alreadySubscribed)
    else if !d.used ch && !ok then (d, .broker)
    else ({ d with reg := d.reg.put (ch, v) d.next, next := d.next + 1 }, .subscribed d.next)

/-- The version a message is for: the one its version header names (an empty name names none), otherwise the
default version of the configuration, if there is one. -/
inductive IsVersion (cfg : Cfg) (m : BrokerMessage) : Bytes → Prop
  | named {h : GoMap String Bytes} {v : Bytes} (hh : m.headers = some h) (hg : h.get cfg.headerKey = some v)
      (hv : v ≠ []) : IsVersion cfg m v
  | default {v : Bytes} (hd : cfg.defaultVersion = some v)
      (hn : ∀ h w, m.headers = some h → h.get cfg.headerKey = some w → w = []) : IsVersion cfg m v

/-- The same as a function: the name in the header, if there is one, or the default. -/
def version (cfg : Cfg) (m : BrokerMessage) : Option Bytes :=
  ((m.headers.bind (fun h => h.get cfg.headerKey)).filter (fun v => !v.isEmpty)).or cfg.defaultVersion

/-- A message goes to the subscription of its version; to nobody if there is none. -/
def deliver (cfg : Cfg) (d : Dir) (ch : String) (m : BrokerMessage) : Dir :=
  match version cfg m with
  | none => d
  | some v => match d.reg.get (ch, v) with
    | none => d
    | some id => { d with inbox := d.inbox ++ [(id, m)] }

/-- One call or event. -/
def step (cfg : Cfg) (d : Dir) : Op → Dir × Out
  | .subscribe ch ver ok => subscribe d ch ver ok
  | .cancel ch v => ({ d with reg := d.reg.del (ch, v) }, .done)
  | .deliver ch m => (deliver cfg d ch m, .done)

/-- A history. -/
def run (cfg : Cfg) (d : Dir) : List Op → Dir × List Out
  | [] => (d, [])
  | o :: os =>
    let r := step cfg d o
    let rest := run cfg r.1 os
    (rest.1, r.2 :: rest.2)

/-- Every message met so far is without version (and default), or of a version registered when it came,
or came on a channel nobody listens to. -/
def Known (cfg : Cfg) (d : Dir) : List Op → Prop
  | [] => True
  | o :: os =>
    (match o with
      | .deliver ch m => d.used ch = true → ∀ v, IsVersion cfg m v → (d.reg.get (ch, v)).isSome
      | _ => True) ∧ Known cfg (step cfg d o).1 os

/-- The broker subscriptions held are exactly one per used channel. -/
def OnePerUsedChannel (d : Dir) (live : List (Nat × String)) : Prop :=
  (live.map (·.2)).Nodup ∧ ∀ ch, ch ∈ live.map (·.2) ↔ d.used ch = true

end Verif.Versioning.Spec
