import Verif.Model.EndToEnd

/-!
# Requests and their replies

Puts together `Send` (the requesting call of the client and the replying call of the server), `Listen` (the receiving
loop of the server) and `EndToEnd` (conversions and brokers).
-/

namespace Verif.RequestReply

open Verif.EndToEnd
open Verif.Middleware
open Verif.Send (GoErr)

/-- The client: its controller and what is generated for the request (`q`) and its reply (`r`). -/
structure Client (C J T : Type) (q r : MsgCfg) where
  env : Send.Env C
  ty : Send.MsgType (Msg J T q)
  rty : Send.MsgType (Msg J T r)
  op : Send.OpCfg
  addr : Send.ReplyAddr (Msg J T q)
  reqAddr : String

/-- One call of `Request…`: the identifier the library would draw, the message, and what its waiting loop gets. -/
structure Call (J T : Type) (q : MsgCfg) where
  uuid : String
  msg : Msg J T q
  sels : List Send.Sel

/-- A call of `Request…` whose subscription is accepted (v3/templates/controller.tmpl:386-456). -/
def Client.run {C J T : Type} {q r : MsgCfg} (cl : Client C J T q r) (c : Call J T q) :
    Send.ReqRes (Msg J T r) × List Send.ReqEv :=
  Send.request cl.env cl.ty cl.rty cl.op cl.addr c.uuid cl.reqAddr none c.msg c.sels

/-- The server: what its listening goroutine needs (`decode`, `withCorr`, `eh`, `mws`, `ctx` as in `Listen.Env`), and
what `ReplyTo…` needs. `body` is the function its handler gives to `ReplyTo…` for a request. -/
structure Server (C C' J T : Type) (q r : MsgCfg) where
  decode : BrokerMessage → Except GoErr (Msg J T q)
  withCorr : C' → Msg J T q → C'
  eh : BrokerMessage → GoErr → List Ack.Kind
  mws : List (Mw C' BrokerMessage GoErr)
  ctx : BrokerMessage → C'
  env : Send.Env C
  ty : Send.MsgType (Msg J T r)
  op : Send.OpCfg
  corr : Msg J T q → String
  addr : Send.ReplyAddr (Msg J T q)
  body : Msg J T q → Msg J T r → Msg J T r

/-- The handler of the server replies once and returns what `ReplyTo…` returns; the examples panic on an error instead
(v3/templates/controller.tmpl:254-280; examples/ping/v3/nats/app/main.go:21-35). -/
def Server.handler {C C' J T : Type} {q r : MsgCfg} (s : Server C C' J T q r) (m : Msg J T q) : Send.Out C :=
  Send.replyTo s.env s.ty s.op (some s.corr) s.addr "" m (s.body m)

/-- The listening goroutine of the server (v3/templates/controller.tmpl:174-249) with that handler. -/
def Server.listen {C C' J T : Type} {q r : MsgCfg} (s : Server C C' J T q r) : Listen.Env C' (Msg J T q) GoErr where
  decode := s.decode
  withCorr := s.withCorr
  fn := fun _ m => (s.handler m).res
  eh := s.eh
  mws := s.mws
  ctx := s.ctx

/-- How NATS hands the messages published on a subject to the members of one queue group: each message to one of them, of
the broker's choosing (`QueueSubscribe`, brokers/nats/nats.go:97-118; the group is that of the controller, nats.go:24,
55-60, for all its subscriptions, those of requests included). `choice i` is the member given the `i`-th message. -/
def groupReceives (choice : Nat → Nat) (msgs : List BrokerMessage) (member : Nat) : List Send.Sel :=
  (msgs.zipIdx.filter (fun p => choice p.2 == member)).map (fun p => .recv p.1 true)

end Verif.RequestReply
