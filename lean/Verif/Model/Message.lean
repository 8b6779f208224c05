import Verif.Model.SchemaMerge
import Verif.Model.CorrTree

/-!
# Messages: traits, alternatives, references

Models pkg/asyncapi/v3/message.go:253-285,401-596, pkg/asyncapi/v3/operation.go:195-243, the same functions of
pkg/asyncapi/v2/message.go:322-416 and the `Follow` methods of both versions.
-/

namespace Verif.Message

open SchemaMerge (Sch Ref)

/-! ## Traits -/

/-- The fields of a message a trait may touch. `α` is the type of what is only copied (correlation ID,
external documentation, examples). (pkg/asyncapi/v3/message.go:37-53) -/
structure Msg (α : Type) where
  headers : Option Sch
  payload : Option Sch
  correlationID : Option α
  contentType : Str
  title : Str
  summary : Str
  description : Str
  tags : List (Str × α)
  externalDocs : Option α
  examples : List α

/-- A message trait has the same fields. (pkg/asyncapi/v3/message_trait.go:12-34) -/
abbrev Trait := Msg

/-- `if msg.X == "" { msg.X = mt.X }` (pkg/asyncapi/v3/message.go:525-543) -/
def fillStr (own trait : Str) : Str := if own = [] then trait else own

/-- `if msg.X == nil && mt.X != nil { … copy … }` (pkg/asyncapi/v3/message.go:519-522,550-553) -/
def fillOpt {α : Type} (own trait : Option α) : Option α :=
  match own, trait with
  | none, some t => some t
  | own, _ => own

/-- `Schema.Follow` (pkg/asyncapi/v3/schema.go:472-477) -/
def followSch (look : Ref → Sch) (s : Sch) : Sch :=
  match s.refTo with
  | some r => look r
  | none => s

/-- `Schema.MergeWith` on a pointer: nothing happens on nil. (pkg/asyncapi/v3/schema.go:321-324) -/
def mergePtr (look : Ref → Sch) (s : Option Sch) (s2 : Sch) : Option Sch :=
  s.map (fun s => SchemaMerge.mergeWith look s s2)

/-- `mergeHeaders` (pkg/asyncapi/v3/message.go:558-576). `prepare` stands for the metadata and dependencies of
the copy. -/
def mergeHeaders {α : Type} (look : Ref → Sch) (prepare : Sch → Sch) (msg : Msg α) (headers : Option Sch) : Msg α :=
  match headers with
  | none => msg
  | some h =>
    match msg.headers with
    | none => { msg with headers := some (prepare (followSch look h)) }
    | some _ => { msg with headers := mergePtr look msg.headers h }

/-- `mergePayload` (pkg/asyncapi/v3/message.go:578-596): an existing payload is not what is merged, the
headers are. -/
def mergePayload {α : Type} (look : Ref → Sch) (prepare : Sch → Sch) (msg : Msg α) (payload : Option Sch) : Msg α :=
  match payload with
  | none => msg
  | some p =>
    match msg.payload with
    | none => { msg with payload := some (prepare (followSch look p)) }
    | some _ => { msg with headers := mergePtr look msg.headers p }

/-- `Message.ApplyTrait` (pkg/asyncapi/v3/message.go:500-556) -/
def applyTrait {α : Type} (look : Ref → Sch) (prepare : Sch → Sch) (msg : Msg α) (mt : Trait α) : Msg α :=
  let msg := mergeHeaders look prepare msg mt.headers
  let msg := mergePayload look prepare msg mt.payload
  { msg with
    correlationID := fillOpt msg.correlationID mt.correlationID
    contentType := fillStr msg.contentType mt.contentType
    title := fillStr msg.title mt.title
    summary := fillStr msg.summary mt.summary
    description := fillStr msg.description mt.description
    tags := Dedup.removeDuplicateNamed (·.1) (msg.tags ++ mt.tags)
    externalDocs := fillOpt msg.externalDocs mt.externalDocs
    examples := msg.examples ++ mt.examples }

/-- `setTraitsDependencies` (pkg/asyncapi/v3/message.go:274-285), the traits being resolved. -/
def applyTraits {α : Type} (look : Ref → Sch) (prepare : Sch → Sch) (msg : Msg α) (mts : List (Trait α)) : Msg α :=
  mts.foldl (applyTrait look prepare) msg

/-- The fields of an operation a trait may touch. (pkg/asyncapi/v3/operation.go:14-44) -/
structure Op (α : Type) where
  title : Str
  summary : Str
  description : Str
  security : List (Str × α)
  tags : List (Str × α)
  externalDocs : Option α
  bindings : Option α

/-- `Operation.ApplyTrait` (pkg/asyncapi/v3/operation.go:195-235) -/
def applyOpTrait {α : Type} (op ot : Op α) : Op α :=
  { title := fillStr op.title ot.title
    summary := fillStr op.summary ot.summary
    description := fillStr op.description ot.description
    security := Dedup.removeDuplicateNamed (·.1) (op.security ++ ot.security)
    tags := Dedup.removeDuplicateNamed (·.1) (op.tags ++ ot.tags)
    externalDocs := fillOpt op.externalDocs ot.externalDocs
    bindings := fillOpt op.bindings ot.bindings }

/-- The loop over the traits of an operation (pkg/asyncapi/v3/operation.go:158-167), the traits being resolved. -/
def applyOpTraits {α : Type} (op : Op α) (ots : List (Op α)) : Op α := ots.foldl applyOpTrait op

/-- The correlation ID of a message: its trees and its location. The order is that of `Process`: the metadata
of everything (pkg/asyncapi/v3/message.go:66-113), then the dependencies, with the traits
(pkg/asyncapi/v3/message.go:115-165). -/
structure CMsg where
  tree : CorrTree.Msg
  location : Option Str

/-- The end of `generateMetadata`: the correlation ID is created if missing.
(pkg/asyncapi/v3/message.go:109-110,297-303) -/
def CMsg.metadata (m : CMsg) : CMsg :=
  match m.location with
  | some l => { m with tree := CorrTree.createTree m.tree l }
  | none => m

/-- `Process` of a message whose traits hold nothing but a correlation ID. -/
def CMsg.process (m : CMsg) (traits : List (Option Str)) : CMsg :=
  traits.foldl (fun m t => { m with location := fillOpt m.location t }) m.metadata

/-! ## Alternatives -/

/-- A message: a reference, or headers and payload. A message with a reference has nothing else (AsyncAPI
reference objects). -/
structure Alt where
  ref : Option Str
  headers : Option Sch
  payload : Option Sch

/-- Merging fails, panics or never ends. -/
inductive Res (β : Type)
  | ok (b : β)
  | err
  | fuel
  deriving DecidableEq, Repr

/-- `mergeWithMessagePayload`, `mergeWithMessageHeaders` (pkg/asyncapi/v3/message.go:462-487) -/
def mergePart (look : Ref → Sch) (s s2 : Option Sch) : Option Sch :=
  match s2 with
  | none => s
  | some p =>
    match s with
    | none => some p
    | some q => some (SchemaMerge.mergeWith look q p)

/-- `Message.MergeWith` (pkg/asyncapi/v3/message.go:402-460, pkg/asyncapi/v2/message.go:322-381); `find` is
`ReferenceMessage`. `msg2` is passed by value: what is merged into it on line 454 is lost. -/
def mergeMsg (find : Str → Option Alt) (look : Ref → Sch) : Nat → Alt → Alt → Res Alt
  | 0, _, _ => .fuel
  | n + 1, msg, msg2 =>
    -- mergeWithSelfReference
    let self : Res Alt :=
      match msg.ref with
      | none => .ok msg
      | some r =>
        match find r with
        | none => .err
        | some m => mergeMsg find look n { msg with ref := none } m
    match self with
    | .err => .err
    | .fuel => .fuel
    | .ok msg =>
      -- mergeWithMessageFromReference
      let other : Res Alt :=
        match msg2.ref with
        | none => .ok msg2
        | some r =>
          match find r with
          | none => .err
          | some m => mergeMsg find look n msg2 m
      match other with
      | .err => .err
      | .fuel => .fuel
      | .ok _ =>
        .ok { msg with
          payload := mergePart look msg.payload msg2.payload
          headers := mergePart look msg.headers msg2.headers }

/-- `setOneOfDependencies` (pkg/asyncapi/v3/message.go:248-262), the alternatives being resolved. -/
def mergeAll (find : Str → Option Alt) (look : Ref → Sch) (fuel : Nat) : Alt → List Alt → Res Alt
  | msg, [] => .ok msg
  | msg, v :: vs =>
    match mergeMsg find look fuel msg v with
    | .ok m => mergeAll find look fuel m vs
    | .err => .err
    | .fuel => .fuel

/-! ## Following references -/

/-- `Follow` of everything but v2 messages. (pkg/asyncapi/v2/schema.go:469-474,
pkg/asyncapi/v3/channel.go:148-153, message.go:490-495, message_trait.go:138-143, operation.go:238-243,
operation_reply.go:73-78, operation_trait.go:91-96, schema.go:472-477): `to` is `ReferenceTo`. -/
def follow {β : Type} (to : β → Option β) (x : β) : β :=
  match to x with
  | some y => y
  | none => x

/-- `Follow` of v2 messages (pkg/asyncapi/v2/message.go:411-416): the recursion, with a bound on its depth;
`none` when the bound is reached. -/
def followAll {β : Type} (to : β → Option β) : Nat → β → Option β
  | 0, _ => none
  | n + 1, x =>
    match to x with
    | some y => followAll to n y
    | none => some x

end Verif.Message
