import Verif.Model.Naming

/-!
# Names of schemas in a document

Models `generateFullName` (pkg/asyncapi/v3/utils.go:11-29) and the names `Schema.generateMetadata`
(pkg/asyncapi/v3/schema.go:84-165) gives to what is below a schema: properties, items, additional properties. Also the
names of v2 (pkg/asyncapi/v2/schema.go:64-65, 163-166, 187).
-/

namespace Verif.Names
open Naming (Uni Bytes namify)

/-- ASCII text as bytes. -/
def lit (s : String) : Bytes := s.toList.map Char.toNat

/-- `generateFullName` (v3/utils.go:11-29), without a number. -/
def fullName (u : Uni) (parent name type : Bytes) : Option Bytes :=
  match namify u parent, namify u name, namify u type with
  | some p, some n, some t =>
    namify u (n ++ lit "_" ++ t ++ lit "_" ++ (if p ≠ [] then lit "From_" ++ p else []))
  | _, _, _ => none

/-- One step down from a schema. -/
inductive Step
  | prop (key : Bytes)
  | item
  | extra
  deriving DecidableEq, Repr

/-- The name of what a step leads to (v3/schema.go:95-99 for properties, 108-112 for additional properties, 122-126 for
items). -/
def stepName (u : Uni) (parent : Bytes) : Step → Option Bytes
  | .prop k => fullName u parent (k ++ lit "_Property") []
  | .extra => fullName u parent (lit "Additional_Properties") []
  | .item => fullName u [] (lit "Item_From_" ++ parent) []

/-- The name at the end of a path. -/
def nameAt (u : Uni) (root : Bytes) : List Step → Option Bytes
  | [] => some root
  | s :: rest => match stepName u root s with
    | some n => nameAt u n rest
    | none => none

/-- What is named at the top of a document: component schemas, and messages of the components or of channels with their
payloads and headers. -/
inductive Root
  | schema (key : Bytes)
  | message (chan : Option Bytes) (key : Bytes)
  | payload (chan : Option Bytes) (key : Bytes)
  | headers (chan : Option Bytes) (key : Bytes)
  deriving DecidableEq, Repr

/-- The name of a channel of the document (v3/specification.go:113-117, v3/channel.go:52). -/
def chanName (u : Uni) (c : Bytes) : Option Bytes := fullName u [] c (lit "Channel")

/-- The name of a message, of the components (v3/components.go:165-170) or of a channel (v3/channel.go:55-59). Both from
v3/message.go:73. -/
def messageName (u : Uni) (m : Bytes) : Option Bytes → Option Bytes
  | none => fullName u [] m (lit "Message")
  | some c => (chanName u c).bind (fun cn => fullName u cn m (lit "Message"))

/-- The name of a root: component schemas (v3/components.go:40-44), messages, payloads (v3/message.go:75-79) and headers
(v3/message.go:217). Not modelled: a message without headers, payloads and headers inside traits and oneOf. -/
def rootName (u : Uni) : Root → Option Bytes
  | .schema k => fullName u [] (k ++ lit "_Schema") []
  | .message c m => messageName u m c
  | .payload c m => (messageName u m c).bind (fun mn => fullName u [] (mn ++ lit "_Payload") [])
  | .headers c m => (messageName u m c).bind (fun mn => fullName u mn (lit "Headers") [])

/-- The name of a place of the document. -/
def docName (u : Uni) (r : Root) (ps : List Step) : Option Bytes := (rootName u r).bind (fun n => nameAt u n ps)

/-- The same in v2, for properties, items and additional properties (v2/schema.go:64-65, 163-166, 187, 285). -/
def stepName2 (u : Uni) (parent : Bytes) : Step → Option Bytes
  | .prop k => (namify u k).bind (fun n => namify u (parent ++ n))
  | .item => namify u (parent ++ lit "Item")
  | .extra => namify u (parent ++ lit "AdditionalProperties")

end Verif.Names
