import Verif.Model.Headers
import Verif.Model.Listen
import Verif.Model.NatsWire
import Verif.Model.Send
import Verif.Model.Transport
import Verif.Model.Versioning

/-!
# A message from the sender's call to the receiver's handler

Puts together `Send` (the call of the sender), `Headers` and `Payload` (the generated conversions), `Versioning` (the
optional wrapper around the broker), `Transport` (the brokers) and `Listen` (the receiving loop).
-/

namespace Verif.EndToEnd

open Verif.Payload (Lib)
open Verif.Send (GoErr)

/-- What the templates know of a message: its headers and its payload. -/
structure MsgCfg where
  fields : List Headers.Field
  pay : Payload.Cfg

/-- The generated message struct (v3/templates/message.tmpl:22-38). -/
structure Msg (J T : Type) (c : MsgCfg) where
  headers : Headers.Struct J T
  payload : Payload.Value J T c.pay.ty

/-- `toBrokerMessage` (v3/templates/message.tmpl:175-277; v2/templates/message.tmpl:157-259). Errors of the JSON library
and of missing headers are not told apart. -/
def toBroker {J T : Type} (lib : Lib J T) (c : MsgCfg) (m : Msg J T c) : Except GoErr BrokerMessage :=
  match Payload.encode lib c.pay m.payload, Headers.encode lib c.fields m.headers with
  | some p, some h => .ok ⟨some h, some p⟩
  | _, _ => .error (.other "encode")

/-- `brokerMessageToX` (v3/templates/message.tmpl:54-172; v2/templates/message.tmpl:45-154); `order` is the order in which
Go iterates over the received headers. A panic on short integers (C66) is taken for an error. -/
def fromBroker {J T : Type} (lib : Lib J T) (z : Headers.Zero J T) (force : Bool) (c : MsgCfg)
    (order : BrokerMessage → List (String × Bytes)) (bm : BrokerMessage) : Except GoErr (Msg J T c) :=
  match Payload.decode lib c.pay (Transport.bytesOf bm.payload) with
  | .ok p => match Headers.decode lib z force c.fields (order bm) with
    | some h => .ok ⟨h, p⟩
    | none => .error (.other "decode")
  | _ => .error (.other "decode")

/-- The brokers. JetStream controllers publish and receive with the client of NATS. -/
inductive Via
  | nats
  | kafka
  deriving DecidableEq, Repr

/-- The broker controllers: what comes out for what goes in, whatever the orders in which header maps are iterated. The
headers of a NATS message are text on their way (`Transport.wire`). -/
inductive Wire : Via → BrokerMessage → BrokerMessage → Prop
  | nats (bm : BrokerMessage) (o1 : List (String × Bytes)) (h1 : o1.Perm (Transport.headersOf bm))
      (ow : List (String × List Bytes)) (hw : ow.Perm (Transport.natsEncode o1 bm).header) (m : Transport.NatsMsg)
      (hm : Transport.wire ow (Transport.natsEncode o1 bm) = some m) (o2 : List (String × List Bytes))
      (h2 : o2.Perm m.header) : Wire .nats bm (Transport.natsDecode o2 m)
  | kafka (bm : BrokerMessage) (o1 : List (String × Bytes)) (h1 : o1.Perm (Transport.headersOf bm)) :
      Wire .kafka bm (Transport.kafkaDecode (Transport.kafkaEncode o1 bm))

/-- Publication through the versioning wrapper, if there is one with a version (`Versioning.publish`). -/
def viaVersioning (v : Option (Versioning.Cfg × Bytes)) (bm : BrokerMessage) : Option BrokerMessage :=
  match v with
  | none => some bm
  | some (cfg, ver) => match Versioning.publish cfg (some ver) bm with
    | .sent bm' => some bm'
    | .panicked => none

/-- What reaches the receiver of a published message. -/
def Delivered (via : Via) (v : Option (Versioning.Cfg × Bytes)) (bm bm' : BrokerMessage) : Prop :=
  ∃ m, viaVersioning v bm = some m ∧ Wire via m bm'

end Verif.EndToEnd
