import Verif.Model.Cancel
import Verif.Model.Pipeline

/-!
# Unsubscribing while messages are handled

The whole subscription: the goroutines of `Verif.Model.Cancel` (pkg/extensions/broker.go:39-69; `Cancel` is called by
`UnsubscribeFrom…`, pkg/codegen/generators/v3/templates/controller.tmpl:286-311) and those of `Verif.Model.Pipeline` (the
broker's deliveries, pkg/extensions/broker.go:29-31, and the listener goroutine,
pkg/codegen/generators/v3/templates/controller.tmpl:173-187) over the same `messages` channel. They share one action:
`close(bcs.messages)` (pkg/extensions/broker.go:50).

Simplification: as in the two models.
-/

namespace Verif.Unsub

/-- State: the cancellation protocol and the flow of messages. -/
structure St where
  c : Cancel.St
  p : Pipeline.St

/-- A subscription with a cancel channel of capacity `cc` and a message channel of capacity `mc`
(pkg/extensions/brokers/common.go, pkg/extensions/brokers/nats/nats.go:109-112). -/
def init (cc mc : Nat) : St := ⟨Cancel.init cc, Pipeline.init mc⟩

/-- Atomic actions: one of either side, or the common one. -/
inductive Act
  | cancel (a : Cancel.Act)
  | pipe (a : Pipeline.Act)
  | closeMsgs
  deriving DecidableEq, Repr

/-- One atomic action; `none` when not enabled. A panic of any goroutine stops all of them. The closing of the message
channel (pkg/extensions/broker.go:50) is an action of both sides. -/
def step (s : St) : Act → Option St
  | .cancel a =>
    if a = .doCloseMsgs ∨ s.p.panicked = true then none
    else match Cancel.step s.c a with
      | some c => some { s with c := c }
      | none => none
  | .pipe a =>
    if a = .close ∨ s.c.panicked = true then none
    else match Pipeline.step s.p a with
      | some p => some { s with p := p }
      | none => none
  | .closeMsgs =>
    match Cancel.step s.c .doCloseMsgs, Pipeline.step s.p .close with
    | some c, some p => some ⟨c, p⟩
    | _, _ => none

/-- Execute a schedule. -/
def run (s : St) : List Act → Option St
  | [] => some s
  | a :: as => match step s a with
    | some s' => run s' as
    | none => none

/-- Two successive subscriptions of a controller to the same address with the same handler. The second is made after
`UnsubscribeFrom…` returned and so removed the first from the controller's map
(pkg/codegen/generators/v3/templates/controller.tmpl:151-159, 305-308). -/
structure Two where
  old : St
  new : Option St := none

/-- Actions of two successive subscriptions. -/
inductive TwoAct
  | old (a : Act)
  | subscribe
  | new (a : Act)
  deriving DecidableEq, Repr

/-- `Cancel`, called once by `UnsubscribeFrom…`, has returned. -/
def unsubscribed (s : St) : Bool :=
  s.c.c 0 = .retToken || s.c.c 0 = .retClosed || s.c.c 0 = .retCtx

/-- One atomic action of either subscription; each has its own channels and goroutines. `cc` and `mc` are the capacities
of the channels. -/
def twoStep (cc mc : Nat) (t : Two) : TwoAct → Option Two
  | .old a => match step t.old a with
    | some s => some { t with old := s }
    | none => none
  | .subscribe => if unsubscribed t.old && t.new.isNone then some { t with new := some (init cc mc) } else none
  | .new a => match t.new with
    | none => none
    | some s => match step s a with
      | some s' => some { t with new := some s' }
      | none => none

/-- Execute a schedule of both subscriptions. -/
def twoRun (cc mc : Nat) (t : Two) : List TwoAct → Option Two
  | [] => some t
  | a :: as => match twoStep cc mc t a with
    | some t' => twoRun cc mc t' as
    | none => none

end Verif.Unsub
