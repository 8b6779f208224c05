import Verif.Model.Types
import Verif.Model.Imports

/-!
# The packages a generated file imports and uses

Models the import block of pkg/codegen/generators/v3/templates/imports.tmpl (the same in v2) and, for version 3, which
package qualifiers the other templates write: types.tmpl, message.tmpl, schema_definition.tmpl, schema_name.tmpl,
marshaling/*.tmpl, subscriber.tmpl and controller.tmpl, put together as in pkg/codegen/generators/v3/generator.go.

A piece of generated text is represented by the list of qualifiers `q` it writes as `q.Name`. The qualifiers that
custom Go types write (`x-go-type`) are the document's own words: they are left out here, their imports are the
custom imports of `Verif.Imports`.
-/

namespace Verif.FileImports
open Verif.Types (Cfg Info Sch Ty Err Decl Body)

/-! ## The import block -/

/-- The names under which the fixed packages are used in the templates. -/
def qJson : Str := ['j', 's', 'o', 'n']
def qTime : Str := ['t', 'i', 'm', 'e']
def qErrors : Str := ['e', 'r', 'r', 'o', 'r', 's']
def qFmt : Str := ['f', 'm', 't']
def qContext : Str := ['c', 'o', 'n', 't', 'e', 'x', 't']
def qBinary : Str := ['b', 'i', 'n', 'a', 'r', 'y']
def qMath : Str := ['m', 'a', 't', 'h']
def qExtensions : Str := ['e', 'x', 't', 'e', 'n', 's', 'i', 'o', 'n', 's']
def qUuid : Str := ['u', 'u', 'i', 'd']
def qCivil : Str := ['c', 'i', 'v', 'i', 'l']

/-- The fixed imports, none of which is given a name (imports.tmpl:9-28). -/
def fixed : List Imports.Import :=
  [⟨[], "encoding/json".toList⟩, ⟨[], "time".toList⟩, ⟨[], "errors".toList⟩, ⟨[], "fmt".toList⟩,
   ⟨[], "context".toList⟩, ⟨[], "encoding/binary".toList⟩, ⟨[], "math".toList⟩,
   ⟨[], "github.com/lerenn/asyncapi-codegen/pkg/extensions".toList⟩, ⟨[], "github.com/google/uuid".toList⟩,
   ⟨[], "cloud.google.com/go/civil".toList⟩]

/-- The import block of the file: the fixed imports and the custom ones; `none` when the custom imports are refused
(imports.tmpl:6-32, pkg/codegen/generators/v3/generator.go:51-62). -/
def block (d : Imports.Doc) : Option (List Imports.Import) := (Imports.customImports d).map (fixed ++ ·)

/-! ## What the templates write -/

/-- `isDateOrDateTimeGenerated` (pkg/utils/template/helpers.go:147-154). -/
def isDate (c : Cfg) (format : Str) : Bool :=
  c.dates && (decide (format = "date".toList) || decide (format = "date-time".toList))

/-- The qualifiers of a type expression (schema_name.tmpl:18-25). -/
def tyQuals : Ty → List Str
  | .date => [qCivil]
  | .time => [qTime]
  | .slice t => tyQuals t
  | _ => []

/-- The qualifiers of a type declaration and of the functions that marshal additional properties
(schema_definition.tmpl:11-30, marshaling/additional_properties.tmpl). -/
def declQuals (d : Decl) : List Str :=
  match d.body with
  | .struct fs x => fs.flatMap (fun f => tyQuals f.2) ++ (match x with
      | some t => tyQuals t ++ [qJson, qFmt]
      | none => [])
  | .alias t => tyQuals t

/-- The functions that marshal a schema as an instant: written for every schema that is no object and has the format
(schema_definition.tmpl:37-40, marshaling/time.tmpl). -/
def timeQuals (c : Cfg) (i : Info) : List Str :=
  if i.type ≠ Types.tObject ∧ isDate c i.format = true then [qJson, qTime] else []

/-- The template "schema-definition" (schema_definition.tmpl:1-51). -/
def schQuals (c : Cfg) (s : Sch) : Except Err (List Str) :=
  match Types.decls c s with
  | .error e => .error e
  | .ok ds => .ok (ds.flatMap declQuals ++ timeQuals c s.info)

/-- A header as message.tmpl reads it: type, format, whether the field is a pointer, whether it is required. -/
structure Hdr where
  type : Str
  format : Str := []
  pointer : Bool := false
  required : Bool := false
  deriving DecidableEq, Repr

/-- A message: the part that declares types, the schema its payload leads to after at most one reference
(message.tmpl:62-66), the properties of the headers (message.tmpl:113-117), whether it has a correlation ID. -/
structure Msg where
  types : Types.Msg
  payload : Info
  hdrs : List Hdr := []
  corr : Bool := false

/-- Decoding the payload (message.tmpl:69-95). -/
def decodePayload (c : Cfg) (p : Info) : List Str :=
  if p.type = Types.tString then (if isDate c p.format then [qTime] else [])
  else if p.type = Types.tInteger then [qBinary]
  else if p.type = Types.tNumber then [qMath, qBinary]
  else [qJson]

/-- Encoding the payload (message.tmpl:187-215). -/
def encodePayload (c : Cfg) (p : Info) : List Str :=
  if p.type = Types.tObject ∨ p.type = Types.tArray then [qJson, qExtensions]
  else if p.type = Types.tInteger then [qBinary]
  else if p.type = Types.tNumber then [qBinary, qMath]
  else if p.type = Types.tString ∧ isDate c p.format = true then [qTime]
  else []

/-- Decoding a header (message.tmpl:121-161). -/
def decodeHdr (c : Cfg) (h : Hdr) : List Str :=
  if h.type = Types.tObject then [qJson] else if isDate c h.format then [qTime] else []

/-- Encoding a header (message.tmpl:231-264). -/
def encodeHdr (c : Cfg) (h : Hdr) : List Str :=
  (if h.required && h.pointer then [qExtensions, qFmt] else []) ++
  (if h.type = Types.tObject then [qJson, qExtensions] else if isDate c h.format then [qTime] else [])

/-- The types a message declares (message.tmpl:12-39): headers that are written as a schema may be written with the
functions of an instant. -/
def msgTypeQuals (c : Cfg) (m : Types.Msg) : Except Err (List Str) :=
  match Types.msgDecls c m with
  | .error e => .error e
  | .ok ds => .ok (ds.flatMap declQuals ++
      (match m.headers with
        | some h => if h.isRef then [] else timeQuals c h.info
        | none => []) ++
      (match m.payload with
        | some p => if (p.info.type = Types.tObject ∨ p.info.type = Types.tArray) ∧ p.isRef = false then timeQuals c p.info else []
        | none => []))

/-- The template "message" (message.tmpl:1-310): nothing but a comment for a reference. -/
def msgQuals (c : Cfg) (m : Msg) : Except Err (List Str) :=
  match m.types.ref with
  | some _ => .ok []
  | none => match msgTypeQuals c m.types with
    | .error e => .error e
    | .ok ts => .ok (ts ++ (if m.corr then [qUuid] else []) ++ [qExtensions] ++ decodePayload c m.payload ++
        m.hdrs.flatMap (decodeHdr c) ++ encodePayload c m.payload ++ m.hdrs.flatMap (encodeHdr c))

/-- Concatenation of outputs. -/
def cat (a b : Except Err (List Str)) : Except Err (List Str) :=
  match a with
  | .error e => .error e
  | .ok x => match b with
    | .error e => .error e
    | .ok y => .ok (x ++ y)

/-- All outputs one after the other. -/
def catAll : List (Except Err (List Str)) → Except Err (List Str)
  | [] => .ok []
  | a :: rest => cat a (catAll rest)

/-- The address of a reply: none, taken from a required field, taken from an optional field
(controller.tmpl:266-279, 394-405). -/
inductive ReplyAddr
  | channel
  | required
  | optional
  deriving DecidableEq, Repr

/-- An operation as controller.tmpl reads it: has its message a correlation ID, its reply, is it a reply itself, has its
channel parameters and an address. -/
structure Op where
  corr : Bool := false
  reply : Option ReplyAddr := none
  isReply : Bool := false
  params : Bool := false
  address : Bool := true
  deriving DecidableEq, Repr

/-- A reply address taken from an optional field is checked (controller.tmpl:271, 399). -/
def addrQuals : ReplyAddr → List Str
  | .optional => [qFmt, qExtensions]
  | _ => []

/-- The address of a channel is put together where it has parameters (v3/templates/helpers.go:108-128); the function that
sends is given the address where the channel has none (controller.tmpl:334-338). -/
def sendAddrQuals (o : Op) : List Str := if o.address && o.params then [qFmt] else []

/-- The functions of a received operation (controller.tmpl:134-312). -/
def receiveQuals (o : Op) : List Str :=
  [qContext, qExtensions, qFmt] ++ (match o.reply with
    | some a => qContext :: addrQuals a
    | none => [])

/-- The functions of a sent operation (controller.tmpl:314-529). -/
def sendQuals (o : Op) : List Str :=
  [qContext, qExtensions] ++ sendAddrQuals o ++ (if o.corr && !o.isReply then [qUuid] else []) ++ (match o.reply with
    | some a => addrQuals a ++ [qContext, qExtensions, qFmt] ++ (if o.corr then [qUuid] else [])
    | none => [])

/-- One side: what it receives, what it sends. -/
structure Side where
  receive : List Op
  send : List Op

/-- The subscriber interface (subscriber.tmpl:1-9). -/
def subscriberQuals (s : Side) : List Str := s.receive.map (fun _ => qContext)

/-- The subscriber and the controller of a side (generator.go:68-92, 94-117; controller.tmpl:1-529). -/
def sideQuals (s : Side) : List Str :=
  subscriberQuals s ++ [qExtensions, qContext] ++ s.receive.flatMap receiveQuals ++ s.send.flatMap sendQuals

/-- A processed document: the messages of the channels, the messages and schemas of the components, the operations of
each side. -/
structure Doc where
  channelMsgs : List Msg
  messages : List Msg
  schemas : List Sch
  app : Side
  user : Side

/-- The template "types" (types.tmpl:1-101). -/
def typesQuals (c : Cfg) (d : Doc) : Except Err (List Str) :=
  cat (.ok [qExtensions, qFmt])
    (cat (catAll (d.channelMsgs.map (msgQuals c))) (cat (catAll (d.messages.map (msgQuals c))) (catAll (d.schemas.map (schQuals c)))))

/-- The parts to generate (pkg/codegen/options/options.go). -/
structure Parts where
  app : Bool
  user : Bool
  types : Bool

/-- The qualifiers of the whole file (generator.go:21-49). -/
def fileQuals (c : Cfg) (g : Parts) (d : Doc) : Except Err (List Str) :=
  cat (.ok (if g.app then sideQuals d.app else []))
    (cat (.ok (if g.user then sideQuals d.user else [])) (if g.types then typesQuals c d else .ok []))

end Verif.FileImports
