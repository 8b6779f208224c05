import Verif.Base.GoMap

/-!
# Subscription management of the generated controllers

Models `SubscribeTo…`, `UnsubscribeFrom…`, `SubscribeToAllChannels`, `UnsubscribeFromAllChannels` and
`Close` (pkg/codegen/generators/v3/templates/controller.tmpl:94-131, 143-193, 286-311; v2:
pkg/codegen/generators/v2/templates/controller.tmpl:94-131, 137-187, 248-271), used from one goroutine.

The broker is the environment: each `Subscribe` succeeds or fails as the history says. A broker
subscription is a number; `live` are the broker subscriptions created and not cancelled.
Simplification: `Cancel` tears the subscription down before it returns (what C02 is about).
-/

namespace Verif.Controller

/-- Errors of the subscription API. -/
inductive Err
  | alreadySubscribed   -- extensions.ErrAlreadySubscribedChannel
  | broker              -- whatever error the broker returned
  | nilSubscriber       -- extensions.ErrNil…Subscriber
  deriving DecidableEq, Repr

/-- Controller state (`subscriptions`, pkg/codegen/generators/v3/templates/types.tmpl) and broker side:
live subscriptions with their address, next subscription number, and the numbers cancelled so far. -/
structure St where
  subs : GoMap String Nat := []
  live : List (Nat × String) := []
  nextId : Nat := 0
  cancelled : List Nat := []
  deriving DecidableEq, Repr

/-- A new controller. -/
def init : St := {}

/-- `c.broker.Subscribe(ctx, addr)` when it succeeds: a new live subscription. -/
def brokerSubscribe (s : St) (addr : String) : St × Nat :=
  ({ s with live := s.live ++ [(s.nextId, addr)], nextId := s.nextId + 1 }, s.nextId)

/-- `sub.Cancel(ctx)`: the broker subscription is gone. -/
def brokerCancel (s : St) (id : Nat) : St :=
  { s with live := s.live.filter (fun e => !decide (e.1 = id)), cancelled := s.cancelled ++ [id] }

/-- `SubscribeTo…` (controller.tmpl:143-193); `ok` is whether the broker accepts. Returns the error
(`none` is nil). -/
def subscribe (s : St) (addr : String) (ok : Bool) : St × Option Err :=
  match s.subs.get addr with
  | some _ => (s, some .alreadySubscribed)
  | none =>
    if ok then
      let (s1, id) := brokerSubscribe s addr
      ({ s1 with subs := s1.subs.put addr id }, none)
    else (s, some .broker)

/-- `UnsubscribeFrom…` (controller.tmpl:286-311). -/
def unsubscribe (s : St) (addr : String) : St :=
  match s.subs.get addr with
  | none => s
  | some id =>
    let s1 := brokerCancel s id
    { s1 with subs := s1.subs.del addr }

/-- `SubscribeToAllChannels` (controller.tmpl:108-122) over the addresses of the receive operations
without parameters, in template order; the broker's answers come with the addresses. -/
def subscribeAll (s : St) : List (String × Bool) → St × Option Err
  | [] => (s, none)
  | (a, ok) :: rest =>
    match subscribe s a ok with
    | (s1, none) => subscribeAll s1 rest
    | (s1, some e) => (s1, some e)

/-- `UnsubscribeFromAllChannels` (controller.tmpl:125-131). -/
def unsubscribeAll (s : St) (plain : List String) : St := plain.foldl unsubscribe s

/-- One call of the API. `plain` (the addresses of the receive operations without parameters) is fixed
by the document. For `subAll`, `answers i` is the broker's answer to the i-th subscription and
`nilSub` whether the given subscriber is nil. -/
inductive Op
  | sub (addr : String) (ok : Bool)
  | unsub (addr : String)
  | subAll (nilSub : Bool) (answers : Nat → Bool)
  | unsubAll
  | close

/-- One API call (controller.tmpl:95-102 for `close`). -/
def step (plain : List String) (s : St) : Op → St × Option Err
  | .sub a ok => subscribe s a ok
  | .unsub a => (unsubscribe s a, none)
  | .subAll nilSub answers =>
    if nilSub then (s, some .nilSubscriber)
    else subscribeAll s (plain.zip ((List.range plain.length).map answers))
  | .unsubAll => (unsubscribeAll s plain, none)
  | .close => (unsubscribeAll s plain, none)

/-- A history of calls: final state and the result of each call. -/
def run (plain : List String) (s : St) : List Op → St × List (Option Err)
  | [] => (s, [])
  | o :: os =>
    let (s1, r) := step plain s o
    let (s2, rs) := run plain s1 os
    (s2, r :: rs)

end Verif.Controller
