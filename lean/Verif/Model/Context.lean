import Verif.Model.Listen
import Verif.Model.Send
import Verif.Model.Versioning

/-!
# Values carried by contexts

Models pkg/extensions/context.go and the contexts made by the generated controllers
(pkg/codegen/generators/v3/templates/controller.tmpl:88-92, 146-148, 201-204, 216, 226-231, 301, 352-358, 366, 409-411,
466-472, 505; v2/templates/controller.tmpl:88-92, 148-149, 196-197, 210, 223, 262, 294-307, 337-338, 387-389, 417), by the
versioning wrapper (pkg/extensions/versioning/wrapper.go:79-98, broker_subscription.go:76-114) and their use by the
logging middleware (pkg/extensions/middlewares/logging.go:10-25).
-/

namespace Verif.Context

open Verif.Middleware
open Verif.Send (GoErr)

/-- A key of a context: Go compares the dynamic type and the value. -/
structure Key where
  type : String
  name : String
  deriving DecidableEq, Repr

/-- A value: a string, a broker message, or something else. -/
inductive Val
  | str (s : String)
  | message (m : BrokerMessage)
  | other (n : Nat)
  deriving DecidableEq, Repr

/-- `context.Context`: whose cancellation and deadline it follows (`none`: those of `context.Background()`, save for the
cancellation by the function that made it), and the values added by `WithValue`, last first. -/
structure Ctx where
  follows : Option Nat
  values : List (Key × Val)
  deriving DecidableEq, Repr

/-- `context.Background()`. -/
def background : Ctx := ⟨none, []⟩

/-- `context.WithValue`. -/
def Ctx.withValue (c : Ctx) (k : Key) (v : Val) : Ctx := { c with values := (k, v) :: c.values }

/-- `ctx.Value`. -/
def Ctx.value (c : Ctx) (k : Key) : Option Val := (c.values.find? (fun e => e.1 == k)).map (·.2)

/-- A key of this package (context.go:5-28). -/
def key (name : String) : Key := ⟨"extensions.ContextKey", "asyncapi-" ++ name⟩

/-- `ContextKeyIsVersion` (context.go:14). -/
def versionKey : Key := key "version"
/-- `ContextKeyIsProvider` (context.go:17). -/
def providerKey : Key := key "provider"
/-- `ContextKeyIsChannel` (context.go:19). -/
def channelKey : Key := key "channel"
/-- `ContextKeyIsDirection` (context.go:22). -/
def directionKey : Key := key "operation"
/-- `ContextKeyIsBrokerMessage` (context.go:24). -/
def brokerMessageKey : Key := key "broker-message"
/-- `ContextKeyIsCorrelationID` (context.go:26). -/
def correlationIDKey : Key := key "correlationID"

/-- The value `IfContextSetWith[string]` gives to its function, if it calls it (context.go:35-46). -/
def stringAt (c : Ctx) (k : Key) : Option String :=
  match c.value k with
  | some (.str s) => some s
  | _ => none

/-- Whether `IfContextNotSetWith` calls its function (context.go:49-55). -/
def notSet (c : Ctx) (k : Key) : Bool := (c.value k).isNone

/-- Whether `IfContextValueEquals[string]` calls its function (context.go:59-65). -/
def equals (c : Ctx) (k : Key) (expected : String) : Bool :=
  match stringAt c k with
  | some s => s == expected
  | none => false

/-- What the generated code of a controller knows: the version of the document, and `snakeCase .Prefix` (`app` or
`user`). -/
structure Cfg where
  version : String
  provider : String
  deriving DecidableEq, Repr

/-- `add…ContextValues` (controller.tmpl:88-92). -/
def addValues (cfg : Cfg) (c : Ctx) (addr : String) : Ctx :=
  ((c.withValue versionKey (.str cfg.version)).withValue providerKey (.str cfg.provider)).withValue channelKey (.str addr)

/-- The correlation ID, for operations that have one. -/
def addCorr (c : Ctx) : Option String → Ctx
  | some id => c.withValue correlationIDKey (.str id)
  | none => c

/-- The context of a publication (controller.tmpl:352-358, 366), from that of the caller; `text` is `BrokerMessage.String`
(broker.go:84-96). -/
def sendCtx (cfg : Cfg) (text : BrokerMessage → String) (caller : Ctx) (addr : String) (corr : Option String)
    (bm : BrokerMessage) : Ctx :=
  (addCorr ((addValues cfg caller addr).withValue directionKey (.str "publication")) corr).withValue brokerMessageKey
    (.str (text bm))

/-- The context of a reception (controller.tmpl:201-204, 216). -/
def receiveCtx (cfg : Cfg) (text : BrokerMessage → String) (addr : String) (bm : BrokerMessage) : Ctx :=
  ((addValues cfg background addr).withValue directionKey (.str "reception")).withValue brokerMessageKey (.str (text bm))

/-- The context given to the subscription function (controller.tmpl:226-231); `none`: the message has no correlation
ID. -/
def handlerCtx {D : Type} (corr : Option (D → String)) (c : Ctx) (d : D) : Ctx :=
  match corr with
  | some f => if f d = "" then c else c.withValue correlationIDKey (.str (f d))
  | none => c

/-- The context of a reply to a request (controller.tmpl:466-472, 505). -/
def waitCtx (cfg : Cfg) (text : BrokerMessage → String) (addr : String) (want : Option String) (bm : BrokerMessage) : Ctx :=
  (addCorr ((addValues cfg background addr).withValue directionKey (.str "wait-for")) want).withValue brokerMessageKey
    (.str (text bm))

/-- The environment of a call of `Send…` or `Request…` with a context of the caller. `Request…` calls `Send…` with its own
context, which already has values (controller.tmpl:409-411, 435); they are overwritten. -/
def sendEnv (cfg : Cfg) (text : BrokerMessage → String) (mws : List (Mw Ctx BrokerMessage GoErr))
    (publish : Ctx → String → BrokerMessage → Res GoErr) (caller : Ctx) : Send.Env Ctx where
  mws := mws
  ctx := sendCtx cfg text caller
  publish := publish
  waitCtx := waitCtx cfg text

/-- The environment of a subscription (controller.tmpl:195-249). -/
def listenEnv {D : Type} (cfg : Cfg) (text : BrokerMessage → String) (mws : List (Mw Ctx BrokerMessage GoErr)) (addr : String)
    (decode : BrokerMessage → Except GoErr D) (corr : Option (D → String)) (fn : Ctx → D → Res GoErr)
    (eh : BrokerMessage → GoErr → List Ack.Kind) : Listen.Env Ctx D GoErr where
  decode := decode
  withCorr := handlerCtx corr
  fn := fn
  eh := eh
  mws := mws
  ctx := receiveCtx cfg text addr

/-- What the logging middleware logs (middlewares/logging.go:10-25). -/
def logged (c : Ctx) : List String :=
  (if equals c directionKey "reception" then ["Received a message"] else []) ++
  (if equals c directionKey "publication" then ["Published a message"] else [])

/-- `Wrapper.Publish` (wrapper.go:79-87): the version comes from the context. -/
def wrapperPublish (cfg : Versioning.Cfg) (bytes : String → Bytes) (c : Ctx) (m : BrokerMessage) : Versioning.PubOut :=
  Versioning.publish cfg ((stringAt c versionKey).map bytes) m

/-- The context of the listener of the versioning wrapper after a message (broker_subscription.go:76-114): the variable
outside of the loop is overwritten when the message is refused. `registered`: the versions with a subscription; `bytes`
is the conversion of a Go string. A refusal of the second kind keeps a lock, see `Versioning`. -/
def listenerCtx (cfg : Versioning.Cfg) (registered : Bytes → Bool) (text : Bytes → String) (c : Ctx) (m : BrokerMessage) : Ctx :=
  match Versioning.versionOf cfg m with
  | none => c.withValue brokerMessageKey (.message m)
  | some v =>
    if registered v then c
    else (c.withValue brokerMessageKey (.message m)).withValue versionKey (.str (text v))

/-- The messages a context holds on to. -/
def Ctx.holds (c : Ctx) : List BrokerMessage := c.values.filterMap (fun e => match e.2 with | .message m => some m | _ => none)

end Verif.Context
