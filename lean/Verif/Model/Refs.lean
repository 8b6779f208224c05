import Verif.Base.Str
import Verif.Base.GoMap

/-!
# References

Models `Specification.reference`, `getDependencyBasedOnRef`, the `referenceFrom` methods and the typed
`ReferenceX` functions of pkg/asyncapi/v2/specification.go:49-255, pkg/asyncapi/v3/specification.go:198-752,
schema.go (`referenceFrom`) and message.go (`referenceFrom`). A nil pointer stored in a map is the same as an
absent key. Panics are explicit outcomes.
-/

namespace Verif.Refs

/-- A schema: an identity and its properties. The rest of a schema plays no role here. -/
inductive Sch
  | mk (id : Nat) (props : List (Str × Sch))

/-- `s.Properties[k]` -/
def Sch.prop : Sch → Str → Option Sch
  | .mk _ props, k => (props.find? (fun e => e.1 == k)).map (·.2)

/-- A message. -/
structure Msg where
  id : Nat
  payload : Option Sch
  headers : Option Sch

/-- A channel and its messages. -/
structure Chan where
  id : Nat
  messages : GoMap Str Msg

/-- A document: component schemas and messages, other components by kind, channels, and what else is at its root by
kind (servers and operations, v3/specification.go:27-34). -/
structure Doc where
  schemas : GoMap Str Sch
  messages : GoMap Str Msg
  others : GoMap (Str × Str) Nat
  channels : GoMap Str Chan
  roots : GoMap (Str × Str) Nat

/-- A pointer to an element of a document, with its Go type. -/
inductive Elem
  | schema (s : Sch)
  | message (m : Msg)
  | channel (c : Chan)
  | other (kind : Str) (id : Nat)

/-- The Go type of a pointer. -/
inductive Ty
  | schema
  | message
  | channel
  | other (kind : Str)
  deriving DecidableEq, Repr

/-- Components of the kind `channels` are channels too. -/
def kindTy (k : Str) : Ty := if k = "channels".toList then .channel else .other k

def Elem.ty : Elem → Ty
  | .schema _ => .schema
  | .message _ => .message
  | .channel _ => .channel
  | .other k _ => kindTy k

/-- What `reference` does. -/
inductive Res
  | panic
  | error
  /-- a nil pointer of some type -/
  | nil (t : Ty)
  | val (e : Elem)

/-- Which references a version supports: component kinds returned as they are, and channels. -/
structure Version where
  kinds : List Str
  channels : Bool

/-- v2/specification.go:240-250 -/
def v2 : Version := ⟨["parameters".toList], false⟩

/-- v3/specification.go:693-734 (except schemas and messages) -/
def v3 : Version := ⟨["servers", "channels", "operations", "securitySchemes", "serverVariables", "parameters",
  "correlationIds", "replies", "replyAddresses", "externalDocs", "tags", "operationTraits", "messageTraits",
  "serverBindings", "channelBindings", "operationBindings", "messageBindings"].map String.toList, true⟩

/-- A pointer or nil. -/
def ptr {α : Type} (t : Ty) (f : α → Elem) : Option α → Res
  | none => .nil t
  | some a => .val (f a)

/-- `(*Schema).referenceFrom` (v2/schema.go:308-314, v3/schema.go:311-317): dereferencing nil panics. -/
def Sch.from? : Option Sch → List Str → Res
  | s, [] => ptr .schema .schema s
  | none, _ :: _ => .panic
  | some s, k :: ks => Sch.from? (s.prop k) ks

def kwComponents : Str := "components".toList
def kwChannels : Str := "channels".toList
def kwSchemas : Str := "schemas".toList
def kwMessages : Str := "messages".toList
def kwPayload : Str := "payload".toList
/-- `MessageFieldIsHeader`: the singular. -/
def kwHeader : Str := "header".toList

/-- `(*Message).referenceFrom` (v2/message.go:306-319, v3/message.go:385-398). -/
def Msg.from? (m : Option Msg) : List Str → Res
  | [] => ptr .message .message m
  | k :: ks =>
    if k = kwPayload then
      match m with
      | none => .panic
      | some m => Sch.from? m.payload ks
    else if k = kwHeader then
      match m with
      | none => .panic
      | some m => Sch.from? m.headers ks
    else Sch.from? none ks

/-- The switch on the path (v2/specification.go:237-254, v3/specification.go:691-751). Indexing the path
beyond its end panics. -/
def resolve (v : Version) (d : Doc) (path : List Str) : Res :=
  match path with
  | [] => .panic                        -- not reached: `strings.Split` never returns an empty list
  | p0 :: rest =>
    if p0 = kwComponents then
      match rest with
      | [] => .panic
      | k :: rest =>
        if k = kwSchemas then
          match rest with
          | [] => .panic
          | n :: rest => Sch.from? (d.schemas.get n) rest
        else if k = kwMessages then
          match rest with
          | [] => .panic
          | n :: rest => Msg.from? (d.messages.get n) rest
        else if k ∈ v.kinds then
          match rest with
          | [] => .panic
          | n :: _ => ptr (kindTy k) (.other k) (d.others.get (k, n))
        else .error
    else if p0 = kwChannels ∧ v.channels = true then
      match rest with
      | [] => .panic
      | [n] => ptr .channel .channel (d.channels.get n)
      | n :: k :: rest =>
        if k = kwMessages then
          match rest with
          | [] => .panic
          | m :: rest =>
            match d.channels.get n with
            | none => .panic
            | some c => Msg.from? (c.messages.get m) rest
        else .error
    else .error

/-- `strings.TrimPrefix(s, "./")` -/
def trimDot : Str → Str
  | '.' :: '/' :: s => s
  | s => s

/-- `strings.TrimPrefix(s, "/")` -/
def trimSlash : Str → Str
  | '/' :: s => s
  | s => s

/-- `reference` with `getDependencyBasedOnRef` (v2/specification.go:200-255, v3/specification.go:653-752).
`deps` are the dependencies given with `AddDependency`, under their paths without `./`. -/
def reference (v : Version) (self : Doc) (deps : GoMap Str Doc) (ref : Str) : Res :=
  match Str.split '#' ref with
  | [file, path] =>
    let used := if file = [] then some self else deps.get (trimDot file)
    match used with
    | none => .error
    | some d => resolve v d (Str.split '/' (trimSlash path))
  | _ => .error

/-- What a `ReferenceX` function does. -/
inductive Out
  | panic
  | error
  | found (e : Elem)

/-- The `ReferenceX` function of a type (e.g. `ReferenceSchema`, v3/specification.go:534-554): the cast, then
the nil check. -/
def referenceAs (t : Ty) : Res → Out
  | .panic => .panic
  | .error => .error
  | .nil _ => .error
  | .val e => if e.ty = t then .found e else .error

/-- `ReferenceX(ref)` -/
def lookup (v : Version) (self : Doc) (deps : GoMap Str Doc) (t : Ty) (ref : Str) : Out :=
  referenceAs t (reference v self deps ref)

end Verif.Refs
