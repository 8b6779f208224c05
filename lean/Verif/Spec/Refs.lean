import Verif.Model.Refs

/-! # What a reference designates -/

namespace Verif.Refs

/-- The property at a path of property names. -/
inductive InSchema : Sch → List Str → Sch → Prop
  | here (s : Sch) : InSchema s [] s
  | prop {s t u : Sch} {k : Str} {ks : List Str} : s.prop k = some t → InSchema t ks u → InSchema s (k :: ks) u

/-- What is inside a message: itself, or a property of its payload or headers. -/
inductive InMessage : Msg → List Str → Elem → Prop
  | here (m : Msg) : InMessage m [] (.message m)
  | payload {m : Msg} {s t : Sch} {ks : List Str} : m.payload = some s → InSchema s ks t →
      InMessage m (kwPayload :: ks) (.schema t)
  | header {m : Msg} {s t : Sch} {ks : List Str} : m.headers = some s → InSchema s ks t →
      InMessage m (kwHeader :: ks) (.schema t)

/-- The element at a path of a document. -/
inductive At (v : Version) (d : Doc) : List Str → Elem → Prop
  | schema {n : Str} {s t : Sch} {ks : List Str} : d.schemas.get n = some s → InSchema s ks t →
      At v d (kwComponents :: kwSchemas :: n :: ks) (.schema t)
  | message {n : Str} {m : Msg} {ks : List Str} {e : Elem} : d.messages.get n = some m → InMessage m ks e →
      At v d (kwComponents :: kwMessages :: n :: ks) e
  | other {k n : Str} {i : Nat} : k ∈ v.kinds → d.others.get (k, n) = some i →
      At v d [kwComponents, k, n] (.other k i)
  | channel {n : Str} {c : Chan} : v.channels = true → d.channels.get n = some c →
      At v d [kwChannels, n] (.channel c)
  | channelMessage {n k : Str} {c : Chan} {m : Msg} {ks : List Str} {e : Elem} : v.channels = true →
      d.channels.get n = some c → c.messages.get k = some m → InMessage m ks e →
      At v d (kwChannels :: n :: kwMessages :: k :: ks) e

/-- The type of Go of an element; the channels among the components are channels too. -/
inductive Typed : Elem → Ty → Prop
  | schema (s : Sch) : Typed (.schema s) .schema
  | message (m : Msg) : Typed (.message m) .message
  | channel (c : Chan) : Typed (.channel c) .channel
  | component {k : Str} {i : Nat} : k = kwChannels → Typed (.other k i) .channel
  | other {k : Str} {i : Nat} : k ≠ kwChannels → Typed (.other k i) (.other k)

/-- The document a file name designates. -/
def docOf (self : Doc) (deps : GoMap Str Doc) (file : Str) : Option Doc :=
  if file = [] then some self else deps.get (trimDot file)

/-- A component of another kind than schemas and messages has nothing below it. -/
def NoTail (v : Version) (path : List Str) : Prop :=
  ∀ k n x rest, k ∈ v.kinds → path ≠ kwComponents :: k :: n :: x :: rest

/-- The property of a schema at a JSON pointer (RFC 6901): property names come after `properties`. -/
def Sch.pointer : Sch → List Str → Option Sch
  | s, [] => some s
  | _, [_] => none
  | s, p :: k :: ks =>
    if p = "properties".toList then
      match s.prop k with
      | none => none
      | some t => t.pointer ks
    else none

/-- A path below a missing schema. -/
def BelowMissing (s : Option Sch) (ks : List Str) : Prop :=
  ∃ pre k rest, ks = pre ++ k :: rest ∧ ∀ s' t, s = some s' → ¬ InSchema s' pre t

/-- A path into a missing message, or below a missing part of a message. -/
inductive BelowMissingPart (m : Option Msg) : List Str → Prop
  | message {k : Str} {ks : List Str} : m = none → k = kwPayload ∨ k = kwHeader → BelowMissingPart m (k :: ks)
  | part {k k' : Str} {pre rest : List Str} : (∀ m' t, m = some m' → ¬ InMessage m' (k :: pre) (.schema t)) →
      BelowMissingPart m (k :: (pre ++ k' :: rest))

/-- The paths that crash: those which stop where a name is expected, and those which continue below something
missing. -/
inductive Crash (v : Version) (d : Doc) : List Str → Prop
  | components : Crash v d [kwComponents]
  | kind {k : Str} : k = kwSchemas ∨ k = kwMessages ∨ k ∈ v.kinds → Crash v d [kwComponents, k]
  | schema {n : Str} {ks : List Str} : BelowMissing (d.schemas.get n) ks →
      Crash v d (kwComponents :: kwSchemas :: n :: ks)
  | message {n : Str} {ks : List Str} : BelowMissingPart (d.messages.get n) ks →
      Crash v d (kwComponents :: kwMessages :: n :: ks)
  | channels : v.channels = true → Crash v d [kwChannels]
  | channelMessages {n : Str} : v.channels = true → Crash v d [kwChannels, n, kwMessages]
  | channel {n m : Str} {ks : List Str} : v.channels = true → d.channels.get n = none →
      Crash v d (kwChannels :: n :: kwMessages :: m :: ks)
  | channelMessage {n m : Str} {c : Chan} {ks : List Str} : v.channels = true → d.channels.get n = some c →
      BelowMissingPart (c.messages.get m) ks → Crash v d (kwChannels :: n :: kwMessages :: m :: ks)

end Verif.Refs
