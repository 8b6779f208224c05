import Verif.Spec.Panics
import Verif.Model.Panics2

/-! # Documents of version 2 without the forms that crash the generator -/

namespace Verif.Panics2

open Panics

/-- The paths of references that are resolved or reported. -/
inductive PathOk (h : Heap) (r : Roots) : List Str → Prop
  | schema {n : Str} {ks : List Str} : SchemaPath h (at' r.schemas n) ks →
      PathOk h r (key! "components" :: key! "schemas" :: n :: ks)
  | message {n : Str} {ks : List Str} : MessagePath h (at' r.messages n) ks →
      PathOk h r (key! "components" :: key! "messages" :: n :: ks)
  | parameter {n : Str} {ks : List Str} : PathOk h r (key! "components" :: key! "parameters" :: n :: ks)
  | kind {k : Str} {ks : List Str} : k ≠ key! "messages" → k ≠ key! "schemas" → k ≠ key! "parameters" →
      PathOk h r (key! "components" :: k :: ks)
  | elsewhere {p : Str} {ks : List Str} : p ≠ key! "components" → PathOk h r (p :: ks)

/-- The file named before `#`. -/
def fileOf (d : Doc) (file : Str) : Option Roots := if file = [] then some d.main else d.deps.get (trimDot file)

/-- A reference that is resolved or reported. A text without exactly one `#`, or naming an unknown file, is reported. -/
def RefOk (h : Heap) (d : Doc) (ref : Str) : Prop :=
  ∀ file path r, Str.split '#' ref = [file, path] → fileOf d file = some r → PathOk h r (Str.split '/' (trimSlash path))

/-- The document and, on their own, the files given with it. -/
def documents (d : Doc) : List Doc := d :: d.deps.map (fun e => { main := e.2 })

/-- A reference that is resolved or reported in each of them. -/
def Calm (h : Heap) (d : Doc) (ref : Str) : Prop := ∀ s ∈ documents d, RefOk h s ref

/-- The message of an operation is no reference, or one with four parts. -/
def OperationOk (h : Heap) (p : Ptr) : Prop :=
  ∀ a, p = some a → (h.messages a).ref ≠ [] → 4 ≤ (Str.split '/' (h.messages a).ref).length

/-- No parameter is null, and their references are calm. -/
def ParametersOk (C : Str → Prop) (m : GoMap Str (Option Par)) : Prop :=
  Full (m.map (·.2)) ∧ ∀ p, some p ∈ m.map (·.2) → Absent C p.ref

structure ChannelOk (h : Heap) (C : Str → Prop) (c : Chan) : Prop where
  subscribe : OperationOk h c.subscribe
  publish : OperationOk h c.publish
  parameters : ParametersOk C c.parameters

/-- No channel, schema, message or parameter is null. -/
structure RootsOk (h : Heap) (C : Str → Prop) (r : Roots) : Prop where
  channels : Full (r.channels.map (·.2))
  channel : ∀ c, some c ∈ r.channels.map (·.2) → ChannelOk h C c
  schemas : FullMap r.schemas
  messages : FullMap r.messages
  parameters : ParametersOk C r.parameters

/-- A document without the forms that crash the generator. -/
structure Tame (s : Store) (d : Doc) : Prop where
  schemas : ∀ a, SchemaOk (Calm s.heap d) (s.schemas a)
  messages : ∀ a, MessageOk (Calm s.heap d) (s.messages a)
  roots : ∀ x ∈ documents d, RootsOk s.heap (Calm s.heap d) x.main

end Verif.Panics2
