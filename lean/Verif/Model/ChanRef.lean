import Verif.Model.ChannelAddr
import Verif.Base.GoMap

/-!
# Channels given by reference (v3)

An operation names its channel by a reference to `channels` (`#/channels/x`); the entry there may itself be a reference,
to `components.channels` or to another entry. Models how the functions of
pkg/codegen/generators/v3/templates/controller.tmpl follow these references: `Follow` makes one step
(pkg/asyncapi/v3/channel.go:147-153), and the places of the template call it a different number of times.

Simplifications: a message stands for its name, and the messages of a channel are in the order in which the iteration
over the map meets them; types of parameters are left out; the place a reference leads to exists
(otherwise processing has failed, `none`).
-/

namespace Verif.ChanRef

/-- Where a reference leads: an entry of `channels` or of `components.channels`. -/
inductive Target
  | top (key : Str)
  | comp (key : Str)
  deriving DecidableEq, Repr

/-- A channel (pkg/asyncapi/v3/channel.go:14-41). `params`: `none` is the nil map. -/
structure Chan where
  address : Str := []
  params : Option (List Str) := none
  messages : List Str := []
  ref : Option Target := none
  deriving DecidableEq, Repr

structure Doc where
  top : GoMap Str Chan
  comps : GoMap Str Chan

/-- `ReferenceChannel` (pkg/asyncapi/v3/specification.go:197-219). -/
def Doc.look (d : Doc) : Target → Option Chan
  | .top k => d.top.get k
  | .comp k => d.comps.get k

/-- `Follow` (pkg/asyncapi/v3/channel.go:147-153) after `setReference` (:131-145). -/
def Doc.follow (d : Doc) (c : Chan) : Option Chan :=
  match c.ref with
  | none => some c
  | some t => d.look t

/-- The address in a generated function: built from the address of a channel, with its parameters or without, or taken
from the caller. -/
inductive Addr
  | built (params : Bool) (address : Str)
  | caller
  deriving DecidableEq, Repr

/-- What a generated function is given besides context and message or handler, and the address it uses. -/
structure Fn where
  params : Bool
  chanAddr : Bool
  addr : Addr
  deriving DecidableEq, Repr

/-- `{{if .Parameters}}`: a map that is nil or empty counts as false. -/
def truthy : Option (List Str) → Bool
  | none => false
  | some ks => !ks.isEmpty

/-- `GenerateChannelAddr` (v3/templates/helpers.go:107-128): follows the reference once. -/
def channelAddr (d : Doc) (c : Chan) : Option Addr :=
  (d.follow c).map (fun f => .built f.params.isSome f.address)

/-- `GenerateChannelAddrFromOp` (v3/templates/helpers.go:101-105): follows once more before. -/
def channelAddrFromOp (d : Doc) (opChan : Chan) : Option Addr :=
  (d.follow opChan).bind (channelAddr d)

/-- `SubscribeTo…`, `UnsubscribeFrom…` (controller.tmpl:143-151, 286-293). -/
def subscribeFn (d : Doc) (opChan : Chan) : Option Fn :=
  (d.follow opChan).bind fun f =>
    (channelAddrFromOp d opChan).map fun a => ⟨truthy f.params, false, a⟩

/-- `Send…` (controller.tmpl:323-338). -/
def sendFn (d : Doc) (opChan : Chan) : Option Fn :=
  (d.follow opChan).bind fun f =>
    if f.address = [] then some ⟨truthy f.params, true, .caller⟩
    else (channelAddrFromOp d opChan).map fun a => ⟨truthy f.params, false, a⟩

/-- The address at which `Request…` listens, when the reply has no address of its own (controller.tmpl:404). -/
def requestAddr (d : Doc) (replyChan : Chan) : Option Addr := channelAddr d replyChan

/-- The `Send…` of the reply: its operation is on the followed channel (pkg/asyncapi/v3/operation.go:170-183). -/
def replyFn (d : Doc) (replyChan : Chan) : Option Fn := (d.follow replyChan).bind (sendFn d)

/-- `Channel.GetMessage` (pkg/asyncapi/v3/channel.go:155-161); `none`: the error. -/
def chanMessage (d : Doc) (c : Chan) : Option Str := (d.follow c).bind (fun f => f.messages.head?)

/-- `OpToMsgTypeName`, `Operation.GetMessage` (v3/templates/helpers.go:79-87, pkg/asyncapi/v3/operation.go:185-192); `none`:
the helper panics and the generation fails. -/
def opMessage (d : Doc) (listed : List Str) (opChan : Chan) : Option Str :=
  match listed with
  | m :: _ => some m
  | [] => chanMessage d opChan

end Verif.ChanRef
