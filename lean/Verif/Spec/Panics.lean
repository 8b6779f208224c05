import Verif.Model.Panics

/-! # Documents without the forms that crash the generator -/

namespace Verif.Panics

/-- The ways from a schema along property names that end at, or right below, a schema of the document. -/
inductive SchemaPath (h : Heap) : Ptr → List Str → Prop
  | here (p : Ptr) : SchemaPath h p []
  | property {a : Nat} {k : Str} {ks : List Str} : a < h.next → SchemaPath h (at' (h.schemas a).props k) ks →
      SchemaPath h (some a) (k :: ks)

/-- The same from a message. -/
inductive MessagePath (h : Heap) : Ptr → List Str → Prop
  | here (p : Ptr) : MessagePath h p []
  | payload {a : Nat} {ks : List Str} : SchemaPath h (h.messages a).payload ks →
      MessagePath h (some a) (key! "payload" :: ks)
  | header {a : Nat} {ks : List Str} : SchemaPath h (h.messages a).headers ks →
      MessagePath h (some a) (key! "header" :: ks)
  | nothing (p : Ptr) {k : Str} : k ≠ key! "payload" → k ≠ key! "header" → MessagePath h p [k]

/-- The paths of references that are resolved or reported. -/
inductive PathOk (h : Heap) (r : Roots) : List Str → Prop
  | component {k n : Str} {ks : List Str} : k ≠ key! "schemas" → k ≠ key! "messages" →
      PathOk h r (key! "components" :: k :: n :: ks)
  | schema {n : Str} {ks : List Str} : SchemaPath h (at' r.schemas n) ks →
      PathOk h r (key! "components" :: key! "schemas" :: n :: ks)
  | message {n : Str} {ks : List Str} : MessagePath h (at' r.messages n) ks →
      PathOk h r (key! "components" :: key! "messages" :: n :: ks)
  | channel {n : Str} : PathOk h r [key! "channels", n]
  | channelMessage {n m : Str} {a : Nat} {ks : List Str} : at' r.channels n = some a →
      MessagePath h (at' (h.channels a).messages m) ks → PathOk h r (key! "channels" :: n :: key! "messages" :: m :: ks)
  | elsewhere {p : Str} {ks : List Str} : p ≠ key! "components" → p ≠ key! "channels" → PathOk h r (p :: ks)

/-- The file named before `#`. -/
def fileOf (d : Doc) (file : Str) : Option Roots := if file = [] then some d.main else d.deps.get (trimDot file)

/-- A reference that is resolved or reported. A text without exactly one `#`, or naming an unknown file, is reported. -/
def RefOk (h : Heap) (d : Doc) (ref : Str) : Prop :=
  ∀ file path r, Str.split '#' ref = [file, path] → fileOf d file = some r → PathOk h r (Str.split '/' (trimSlash path))

/-- The document and, on their own, the files given with it. -/
def documents (d : Doc) : List Doc := d :: d.deps.map (fun e => { main := e.2 })

/-- A reference that is resolved or reported in each of them. -/
def Calm (h : Heap) (d : Doc) (ref : Str) : Prop := ∀ s ∈ documents d, RefOk h s ref

/-- A location in the headers or the payload has a path. -/
def LocOk (l : Str) : Prop :=
  (key! "$message.header#").isPrefixOf l = true ∨ (key! "$message.payload#").isPrefixOf l = true → '/' ∈ l

/-- No null in a list. -/
def Full {α : Type} (l : List (Option α)) : Prop := ∀ p ∈ l, p ≠ none

/-- No null in a map. -/
def FullMap (m : GoMap Str Ptr) : Prop := ∀ e ∈ m, e.2 ≠ none

/-- `C` holds of a reference, if there is one (the empty text stands for none). -/
def Absent (C : Str → Prop) (ref : Str) : Prop := ref ≠ [] → C ref

def CalmLeaf (C : Str → Prop) (l : Leaf) : Prop := ∀ e ∈ l, Absent C e.2

/-- Tags and security schemes: no null, and calm references. -/
def NamedOk (C : Str → Prop) (l : List (Option Named)) : Prop := Full l ∧ ∀ t, some t ∈ l → CalmLeaf C t.leaf

/-- Properties and alternatives are no null. -/
structure SchemaOk (C : Str → Prop) (s : Sch) : Prop where
  ref : Absent C s.ref
  props : FullMap s.props
  anyOf : Full s.anyOf
  oneOf : Full s.oneOf
  allOf : Full s.allOf

/-- Alternatives, traits and tags are no null; the correlation ID has a path. -/
structure MessageOk (C : Str → Prop) (m : Msg) : Prop where
  ref : Absent C m.ref
  oneOf : Full m.oneOf
  tags : NamedOk C m.tags
  leaf : CalmLeaf C m.leaf
  traits : Full m.traits
  corr : ∀ l, m.corr = some l → LocOk l

structure MTraitOk (C : Str → Prop) (t : MTrait) : Prop where
  ref : Absent C t.ref
  tags : NamedOk C t.tags
  leaf : CalmLeaf C t.leaf
  corr : ∀ l, t.corr = some l → LocOk l

structure OTraitOk (C : Str → Prop) (t : OTrait) : Prop where
  ref : Absent C t.ref
  tags : NamedOk C t.tags
  security : NamedOk C t.security
  leaf : CalmLeaf C t.leaf

structure ChannelOk (C : Str → Prop) (c : Chan) : Prop where
  ref : Absent C c.ref
  messages : FullMap c.messages
  leaf : CalmLeaf C c.leaf

/-- An operation in whose messages a reply address is looked for: it is no reference, and has a message or a channel. -/
structure Asked (o : Op) : Prop where
  ref : o.ref = []
  message : (∃ a rest, o.messages = some a :: rest) ∨ (o.messages = [] ∧ o.channel ≠ none)

/-- A reply has a channel; a reply address with a location has a path, in an operation that can be asked. -/
structure OperationOk (h : Heap) (C : Str → Prop) (o : Op) : Prop where
  ref : Absent C o.ref
  fresh : o.refTo = none
  tags : NamedOk C o.tags
  security : NamedOk C o.security
  leaf : CalmLeaf C o.leaf
  traits : Full o.traits
  reply : ∀ r, o.reply = some r → (h.replies r).channel ≠ none
  location : ∀ r a, o.reply = some r → (h.replies r).address = some a → (h.addresses a).location ≠ [] →
    LocOk (h.addresses a).location ∧ Asked o

/-- No located reply address among the components, and calm references. -/
structure RootsOk (h : Heap) (C : Str → Prop) (r : Roots) : Prop where
  rest : CalmLeaf C r.rest
  others : ∀ k e l, e ∈ r.others k → e.2 = some l → CalmLeaf C l
  replies : ∀ e ∈ r.replies, ∀ a b, e.2 = some a → (h.replies a).address = some b → (h.addresses b).location = []
  addresses : ∀ e ∈ r.addresses, ∀ b, e.2 = some b → (h.addresses b).location = []

/-- A document without the forms that crash the generator. Nothing is asked of what is null elsewhere: pattern and
additional properties, items, `not`, channels, operations and messages of the components when nothing refers to them … -/
structure Tame (h : Heap) (d : Doc) : Prop where
  schemas : ∀ a, SchemaOk (Calm h d) (h.schemas a)
  messages : ∀ a, MessageOk (Calm h d) (h.messages a)
  messageTraits : ∀ a, MTraitOk (Calm h d) (h.messageTraits a)
  operationTraits : ∀ a, OTraitOk (Calm h d) (h.operationTraits a)
  channels : ∀ a, ChannelOk (Calm h d) (h.channels a)
  operations : ∀ a, OperationOk h (Calm h d) (h.operations a)
  replies : ∀ a, Absent (Calm h d) (h.replies a).ref
  addresses : ∀ a, Absent (Calm h d) (h.addresses a).ref
  roots : ∀ s ∈ documents d, RootsOk h (Calm h d) s.main
  componentSchemas : FullMap d.main.schemas
  componentMessages : FullMap d.main.messages

/-- For the code of a side: no operation is null. -/
def NoNullOperation (d : Doc) : Prop := FullMap d.main.operations

/-- Go ranges over a map in some order. -/
def Order.Ok (o : Order) : Prop := ∀ (α : Type) (n : Nat) (l : List α), (o.order n l).Perm l

end Verif.Panics
