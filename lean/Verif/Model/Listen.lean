import Verif.Model.Ack
import Verif.Model.Broker
import Verif.Model.Middleware

/-!
# Handling of received messages by the generated controllers

Models `listenTo…NextMessage` and the loop around it
(pkg/codegen/generators/v3/templates/controller.tmpl:174-187, 195-249;
v2: pkg/codegen/generators/v2/templates/controller.tmpl:168-181, 189-243).
-/

namespace Verif.Listen

open Verif.Middleware

variable {C D E : Type}

/-- What happened while handling one message, in order. -/
inductive LEv (C D E : Type)
  | fnCall (c : C) (d : D) (r : Res E)   -- the user's function was called and came back with r
  | ackCall (k : Ack.Kind)               -- Ack()/Nak() was called on the message
  | errHandler (e : E)                   -- the user's error handler was called with e

/-- The outside world of one message: its acknowledgement state and the history. -/
structure W (C D E : Type) where
  ack : Ack.St
  log : List (LEv C D E)

/-- World of a message just received. -/
def W.start : W C D E := ⟨Ack.init, []⟩

/-- `acknowledgeableBrokerMessage.Ack()` / `.Nak()` (pkg/extensions/broker.go:120-134). -/
def W.doAck (w : W C D E) (k : Ack.Kind) : W C D E :=
  ⟨Ack.step w.ack k, w.log ++ [.ackCall k]⟩

/-- Everything user-provided or generated per message type that the listener depends on.
* `decode` is `brokerMessageTo…` (generated);
* `withCorr` adds the correlation ID to the context (controller.tmpl:226-231);
* `fn` is the user's function; it may return an error or panic;
* `eh` is the user's error handler: the acknowledgement calls it makes (it receives the message). It
  is assumed to return;
* `mws` are the controller's middlewares, `ctx` the context made at controller.tmpl:201-216. -/
structure Env (C D E : Type) where
  decode : BrokerMessage → Except E D
  withCorr : C → D → C
  fn : C → D → Res E
  eh : BrokerMessage → E → List Ack.Kind
  mws : List (Mw C BrokerMessage E)
  ctx : BrokerMessage → C

/-- The callback given to `executeMiddlewares` (controller.tmpl:219-241). -/
def callback (env : Env C D E) : Callback C BrokerMessage (W C D E) E := fun ctx m w =>
  match env.decode m with
  | .error e => (.ret (some e), w)
  | .ok d =>
    let c := env.withCorr ctx d
    let w1 : W C D E := { w with log := w.log ++ [.fnCall c d (env.fn c d)] }
    match env.fn c d with
    | .ret none => (.ret none, w1.doAck .ack)
    | .ret (some e) => (.ret (some e), w1)
    | .panicked => (.panicked, w1)

/-- Outcome of handling one message. -/
structure Out (C D E : Type) where
  crashed : Bool
  w : W C D E
  trace : List (Ev C BrokerMessage E)

/-- The body of `listenTo…NextMessage` for a received message (controller.tmpl:215-248). A panic in
this goroutine takes the process down (`crashed`). -/
def handle (env : Env C D E) (m : BrokerMessage) : Out C D E :=
  match executeMiddlewares env.mws (env.ctx m) m W.start (some (callback env)) with
  | (.ret none, s) => ⟨false, s.x, s.trace⟩
  | (.ret (some e), s) =>
    -- controller.tmpl:242
    let w1 : W C D E := { s.x with log := s.x.log ++ [.errHandler e] }
    let w2 := (env.eh s.msg e).foldl W.doAck w1
    -- controller.tmpl:245
    ⟨false, w2.doAck .nak, s.trace⟩
  | (.panicked, s) => ⟨true, s.x, s.trace⟩

/-- How a listener ended (or not) after a number of receives. -/
inductive Status
  | waiting    -- still waiting for the next receive
  | stopped    -- returned
  | crashed    -- the process panicked
  deriving DecidableEq, Repr

/-- The listening goroutine (controller.tmpl:174-187 with 207-213) over the successive results of
`<-sub.MessagesChannel()`: value and `open` flag. Returns how it ended and the outcome of each message
handled, in order. -/
def loop (env : Env C D E) : List (BrokerMessage × Bool) → Status × List (Out C D E)
  | [] => (.waiting, [])
  | (m, isOpen) :: rest =>
    if !isOpen && m.isUninitialized then (.stopped, [])
    else
      let o := handle env m
      if o.crashed then (.crashed, [o])
      else
        let (st, os) := loop env rest
        (st, o :: os)

end Verif.Listen
