import Verif.Model.CorrTree

/-!
# Reading the address of a reply in the request (v3)

Models `OperationReplyAddress.isLocationRequired` (pkg/asyncapi/v3/operation_reply_address.go:39-79), the message it looks at
(pkg/asyncapi/v3/operation.go:185-192, channel.go:147-161), the expression written for a location
(v3/templates/helpers.go:43-68) and the code that reads the address, in `Request…` and `ReplyTo…`
(v3/templates/controller.tmpl:266-275, 393-406), with the Go types of the fields it goes through
(v3/templates/schema_definition.tmpl:12-22, schema_name.tmpl, message.tmpl:28-40).

Simplifications: formats, `x-go-type` and compositions are not modelled; `IsRequired` of a property is what its parent
requires (C105 is about the difference); a reference leads to a schema that is not a reference (C62); the reply channel is
given by a reference, so that the condition on its address holds (see `OpTypes`). `Namify` is any function.
-/

namespace Verif.ReplyLoc

open CorrTree

/-- A message: what it refers to, or its headers and payload (pkg/asyncapi/v3/message.go:37-63). -/
structure MsgDef where
  ref : Option Nat
  parts : Msg

/-- What references lead to: messages and schemas. -/
structure Doc where
  msgs : Nat → MsgDef
  schemas : Nat → Tree

/-- The messages of an operation, which are references, and those of its channel, in the order of the iteration
(pkg/asyncapi/v3/operation.go:43, channel.go:157). -/
structure Op where
  messages : List Nat
  channel : List MsgDef

/-- `Message.Follow` (pkg/asyncapi/v3/message.go:489-495). -/
def follow (d : Doc) (m : MsgDef) : MsgDef :=
  match m.ref with
  | some k => d.msgs k
  | none => m

/-- `Operation.GetMessage` (pkg/asyncapi/v3/operation.go:185-192), `Channel.GetMessage` (channel.go:155-161): only a message
of the channel is followed. `none` is the error. -/
def getMessage (d : Doc) (op : Op) : Option MsgDef :=
  match op.messages with
  | k :: _ => some ⟨some k, ⟨none, none⟩⟩
  | [] => match op.channel with
    | m :: _ => some (follow d m)
    | [] => none

/-- `createTreeUntilLocationFromMessageType` on the headers or the payload (pkg/asyncapi/v3/message.go:325-352), once
references are resolved: the schemas behind references, the part itself, and the tree the location is looked up in. -/
def locate (schemas : Nat → Tree) (part : Option Tree) (path : List Str) : (Nat → Tree) × Option Tree × Tree :=
  match part with
  | none => (schemas, some (down (newSchema tyObject) path), down (newSchema tyObject) path)
  | some t => match t.info.ref with
    | some k => (fun j => if j = k then down (schemas k) path else schemas j, part, down (schemas k) path)
    | none => (schemas, some (down t path), down t path)

/-- The outcome of `isLocationRequired` (operation_reply_address.go:66-79): the schemas behind references, the message
that was looked at, and the flag; or a nil pointer is dereferenced. -/
inductive Found
  | ok (schemas : Nat → Tree) (m : MsgDef) (required : Bool)
  | panic

/-- The last lines of `isLocationRequired` (operation_reply_address.go:76-78). -/
def lastRequired (t : Tree) (location : Str) : Option Bool :=
  match parentOf t (pathOf location), (Str.split '/' location).getLast? with
  | some p, some last => some (Dedup.isInSlice p.info.required last)
  | _, _ => none

/-- `isLocationRequired` (operation_reply_address.go:66-79) on a message. -/
def isLocationRequired (schemas : Nat → Tree) (m : MsgDef) (location : Str) : Found :=
  match fieldOf location with
  | .nowhere => .ok schemas m false
  | .header =>
    let r := locate schemas m.parts.headers (pathOf location)
    match lastRequired r.2.2 location with
    | some b => .ok r.1 { m with parts := { m.parts with headers := r.2.1 } } b
    | none => .panic
  | .payload =>
    let r := locate schemas m.parts.payload (pathOf location)
    match lastRequired r.2.2 location with
    | some b => .ok r.1 { m with parts := { m.parts with payload := r.2.1 } } b
    | none => .panic

/-- `referenceToSlicePath` (v3/templates/helpers.go:43-49). -/
def slicePath (location : Str) : List Str :=
  (Str.split '/' ((location.map (fun c => if c = '.' then '/' else c)).filter (fun c => c ≠ '#'))).tail

/-- `headers`, `payload`, `array` as they print. -/
def kwHeaders : Str := ['h', 'e', 'a', 'd', 'e', 'r', 's']
def kwPayload : Str := ['p', 'a', 'y', 'l', 'o', 'a', 'd']
def kwArray : Str := ['a', 'r', 'r', 'a', 'y']
/-- The fields of a message. -/
def fHeaders : Str := ['H', 'e', 'a', 'd', 'e', 'r', 's']
def fPayload : Str := ['P', 'a', 'y', 'l', 'o', 'a', 'd']

/-- One step of `ReferenceToStructAttributePath` (v3/templates/helpers.go:57-64). -/
def attr (nm : Str → Str) (v : Str) : Str := nm (if v = tyHeader then kwHeaders else v)

/-- `ReferenceToStructAttributePath` (v3/templates/helpers.go:51-68), before it is joined. -/
def attributes (nm : Str → Str) (location : Str) : List Str := (slicePath location).map (attr nm)

/-- The struct a schema is written as, if it is one (schema_name.tmpl:10-11, 75-76; schema_definition.tmpl:10-24). -/
def body (schemas : Nat → Tree) (t : Tree) : Option Tree :=
  if t.info.type = tyObject then some t
  else if t.info.type = [] then
    match t.info.ref with
    | some k => if (schemas k).info.type = tyObject then some (schemas k) else none
    | none => none
  else none

/-- The field of a struct with a Go name: the property it is written for (schema_definition.tmpl:20). Two fields with the
same name do not compile. -/
def field (nm : Str → Str) (t : Tree) (f : Str) : Option (Str × Tree) :=
  match t.props.filter (fun p => nm p.1 == f) with
  | [p] => some p
  | _ => none

/-- `isFieldPointer` (v3/templates/helpers.go:130-139), without and with forced pointers. -/
def isPointer (force : Bool) (parent : Tree) (k : Str) (c : Tree) : Bool :=
  if force then c.info.type ≠ kwArray
  else !Dedup.isInSlice parent.info.required k && c.info.type ≠ kwArray

/-- The type of an expression that goes through fields: whether it is a pointer, and the schema. Go selects through
pointers to structs. `none`: it does not compile. -/
def typeOf (schemas : Nat → Tree) (nm : Str → Str) (force : Bool) : Tree → List Str → Option (Bool × Tree)
  | _, [] => none
  | t, f :: rest =>
    match body schemas t with
    | none => none
    | some b => match field nm b f with
      | none => none
      | some (k, c) => if rest = [] then some (isPointer force b k c, c) else typeOf schemas nm force c rest

/-- The type of the expression in a message (message.tmpl:28-40): the fields are `Headers`, if there are any, and
`Payload`. -/
def msgType (schemas : Nat → Tree) (nm : Str → Str) (force : Bool) (m : Msg) : List Str → Option (Bool × Tree)
  | [] => none
  | f :: rest =>
    if f = fHeaders then m.headers.bind (fun t => typeOf schemas nm force t rest)
    else if f = fPayload then m.payload.bind (fun t => typeOf schemas nm force t rest)
    else none

/-- The code that reads the address compiles (controller.tmpl:266-275, 393-406): a required location is used as a string,
another one is compared with nil and dereferenced. -/
def compiles (schemas : Nat → Tree) (nm : Str → Str) (force : Bool) (m : Msg) (location : Str) (required : Bool) : Bool :=
  match msgType schemas nm force m (attributes nm location) with
  | none => false
  | some (p, c) => (p != required) && decide (c.info.type = tyString)

/-- What is generated for an operation whose reply has an address: does the code compile? The type of the request is that
of the message followed once more (`OpToMsgTypeName`, v3/templates/helpers.go:79-87). `none`: the generator fails or
panics. -/
def generated (d : Doc) (nm : Str → Str) (force : Bool) (op : Op) (location : Str) : Option (Bool × (Nat → Tree) × Msg × Bool) :=
  match getMessage d op with
  | none => none
  | some m => match isLocationRequired d.schemas m location with
    | .panic => none
    | .ok schemas m' required =>
      let target := (follow d m').parts
      some (compiles schemas nm force target location required, schemas, target, required)

/-! ## Running it -/

/-- A Go value. -/
inductive GV
  | text (s : String)
  | struct (fields : List (Str × GV))
  | nilPtr
  | ptr (v : GV)

/-- The outcome of an expression; `stuck` is what the compiler excludes. -/
inductive Res (α : Type)
  | ok (a : α)
  | panic
  | stuck
  deriving DecidableEq, Repr

/-- `v.f`. -/
def sel (v : GV) (f : Str) : Res GV :=
  match v with
  | .struct fs => match GoMap.get fs f with
    | some w => .ok w
    | none => .stuck
  | .ptr (.struct fs) => match GoMap.get fs f with
    | some w => .ok w
    | none => .stuck
  | .nilPtr => .panic
  | _ => .stuck

/-- `v.f.g.…`. -/
def sels : GV → List Str → Res GV
  | v, [] => .ok v
  | v, f :: rest => match sel v f with
    | .ok w => sels w rest
    | .panic => .panic
    | .stuck => .stuck

/-- The address, or `ErrChannelAddressEmpty` (`none`) (controller.tmpl:266-275, 393-406). -/
def address (required : Bool) (v : GV) (path : List Str) : Res (Option String) :=
  match sels v path with
  | .panic => .panic
  | .stuck => .stuck
  | .ok w =>
    if required then
      match w with
      | .text s => .ok (some s)
      | _ => .stuck
    else
      match w with
      | .nilPtr => .ok none
      | .ptr (.text s) => .ok (some s)
      | _ => .stuck

end Verif.ReplyLoc
