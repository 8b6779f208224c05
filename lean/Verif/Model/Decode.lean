import Verif.Base.Str
import Verif.Base.Json
import Verif.Model.Parse

/-!
# Decoding documents

Models what `json.Unmarshal(params.Data, &spec)` of pkg/asyncapi/parser/parse.go:135 makes of a document: the
structures of pkg/asyncapi/v3 and pkg/asyncapi/v2 with their `json` tags, and the part of `encoding/json` that
decodes into them. No structure of the repository has an `UnmarshalJSON` of its own.

Simplifications: a pointer is decoded as what it points to (`null` gives the zero value of both); the value of
a number decoded into a `float64` is its text, numbers outside of the range of `float64` (an error in Go) are
not modelled; a field whose name occurs twice in an object has both values, where Go decodes the second value
into the first (the theorems about values are about objects without such names).
-/

namespace Verif.Decode

/-- The characters of a literal, as a list. -/
macro "key! " s:str : term => do
  let cs := (s.getString.toList.map (fun c => Lean.Syntax.mkCharLit c)).toArray
  `([$cs,*])

/-- Go types, over the names of the structures. -/
inductive Ty (ν : Type)
  | str
  | bool
  | uint
  | float
  | any
  | list (t : Ty ν)
  | dict (t : Ty ν)
  | struct (n : ν)
  deriving DecidableEq, Repr

/-- Go values: `zero` is the zero value of any type (`nil`, `""`, `false`, `0`); a structure lists the fields
that are set. -/
inductive Val
  | zero
  | str (s : Str)
  | bool (b : Bool)
  | uint (n : Nat)
  | float (text : Str)
  | any (j : Json)
  | list (vs : List Val)
  | dict (ms : List (Str × Val))
  | struct (fs : List (Str × Val))
  deriving Repr

/-- `foldRune` of encoding/json for the letters that fold to an ASCII letter: `ſ` and the Kelvin sign are the
only ones outside of ASCII. -/
def foldChar (c : Char) : Char :=
  if 'A'.toNat ≤ c.toNat ∧ c.toNat ≤ 'Z'.toNat then Char.ofNat (c.toNat + 32)
  else if c.toNat = 0x17f then 's'
  else if c.toNat = 0x212a then 'k'
  else c

/-- `foldName` of encoding/json. -/
def fold (s : Str) : Str := s.map foldChar

/-- The field of that very name. (encoding/json, `fields.byExactName`) -/
def exactField {ν : Type} (k : Str) : List (Str × Ty ν) → Option (Str × Ty ν)
  | [] => none
  | f :: fs => if f.1 = k then some f else exactField k fs

/-- The first field whose name differs in case at most. (encoding/json, `fields.byFoldedName`) -/
def foldField {ν : Type} (k : Str) : List (Str × Ty ν) → Option (Str × Ty ν)
  | [] => none
  | f :: fs => if fold f.1 = fold k then some f else foldField k fs

/-- The field a member of an object is decoded into. (encoding/json, `decodeState.object`) -/
def findField {ν : Type} (k : Str) (fs : List (Str × Ty ν)) : Option (Str × Ty ν) :=
  match exactField k fs with
  | some f => some f
  | none => foldField k fs

/-- The value of a text of decimal digits. -/
def natOf (acc : Nat) : Str → Option Nat
  | [] => some acc
  | c :: s => if Json.isDigit c then natOf (acc * 10 + (c.toNat - '0'.toNat)) s else none

/-- `strconv.ParseUint(s, 10, 64)`. -/
def parseUint (s : Str) : Option Nat :=
  match s with
  | [] => none
  | s =>
    match natOf 0 s with
    | some n => if n < 2 ^ 64 then some n else none
    | none => none

mutual
/-- `decodeState.value` of encoding/json, into a variable of a type; `none` is an `UnmarshalTypeError`. Members
that match no field are skipped. An error does not stop the decoding, but it is returned in the end. -/
def decode {ν : Type} (F : ν → List (Str × Ty ν)) : Json → Ty ν → Option Val
  | .null, _ => some .zero
  | .bool b, .bool => some (.bool b)
  | .bool b, .any => some (.any (.bool b))
  | .bool _, _ => none
  | .num t, .uint => (parseUint t).map .uint
  | .num t, .float => some (.float t)
  | .num t, .any => some (.any (.num t))
  | .num _, _ => none
  | .str s, .str => some (.str s)
  | .str s, .any => some (.any (.str s))
  | .str _, _ => none
  | .arr xs, .list t => (decodeList F xs t).map .list
  | .arr xs, .any => some (.any (.arr xs))
  | .arr _, _ => none
  | .obj ms, .dict t => (decodeDict F ms t).map .dict
  | .obj ms, .struct n => (decodeFields F ms (F n)).map .struct
  | .obj ms, .any => some (.any (.obj ms))
  | .obj _, _ => none
/-- `decodeState.array` of encoding/json, into a slice. -/
def decodeList {ν : Type} (F : ν → List (Str × Ty ν)) : List Json → Ty ν → Option (List Val)
  | [], _ => some []
  | j :: js, t =>
    match decode F j t, decodeList F js t with
    | some v, some vs => some (v :: vs)
    | _, _ => none
/-- `decodeState.object` of encoding/json, into a map. -/
def decodeDict {ν : Type} (F : ν → List (Str × Ty ν)) : List (Str × Json) → Ty ν → Option (List (Str × Val))
  | [], _ => some []
  | (k, j) :: ms, t =>
    match decode F j t, decodeDict F ms t with
    | some v, some vs => some ((k, v) :: vs)
    | _, _ => none
/-- `decodeState.object` of encoding/json, into a structure. -/
def decodeFields {ν : Type} (F : ν → List (Str × Ty ν)) :
    List (Str × Json) → List (Str × Ty ν) → Option (List (Str × Val))
  | [], _ => some []
  | (k, j) :: ms, fs =>
    match findField k fs with
    | none => decodeFields F ms fs
    | some f =>
      match decode F j f.2, decodeFields F ms fs with
      | some v, some vs => some ((f.1, v) :: vs)
      | _, _ => none
end

/-- The structures of pkg/asyncapi/v3 a document is decoded into. -/
inductive T3
  | root
  | info
  | contact
  | license
  | server
  | serverVariable
  | channel
  | operation
  | operationTrait
  | reply
  | replyAddress
  | message
  | messageTrait
  | messageExample
  | correlationId
  | parameter
  | schema
  | goTypeImport
  | security
  | oauthFlows
  | oauthFlow
  | tag
  | externalDocs
  | components
  | serverBindings
  | channelBindings
  | operationBindings
  | messageBindings
  deriving DecidableEq, Repr

/-- `Specification` (pkg/asyncapi/v3/specification.go:25-42). -/
def root3 : List (Str × Ty T3) :=
  [(key! "asyncapi", .str), (key! "id", .str), (key! "info", .struct .info),
   (key! "servers", .dict (.struct .server)), (key! "defaultContentType", .str),
   (key! "channels", .dict (.struct .channel)), (key! "operations", .dict (.struct .operation)),
   (key! "components", .struct .components)]

/-- `Info` (pkg/asyncapi/v3/info.go:6-19). -/
def info3 : List (Str × Ty T3) :=
  [(key! "title", .str), (key! "version", .str), (key! "description", .str), (key! "termsOfService", .str),
   (key! "contact", .struct .contact), (key! "license", .struct .license),
   (key! "tags", .list (.struct .tag)), (key! "externalDocs", .struct .externalDocs)]

/-- `Contact` (pkg/asyncapi/v3/contact.go:6-14). -/
def contact3 : List (Str × Ty T3) :=
  [(key! "name", .str), (key! "url", .str), (key! "email", .str)]

/-- `License` (pkg/asyncapi/v3/license.go:6-13). -/
def license3 : List (Str × Ty T3) :=
  [(key! "name", .str), (key! "url", .str)]

/-- `Server` (pkg/asyncapi/v3/server.go:6-27). -/
def server3 : List (Str × Ty T3) :=
  [(key! "host", .str), (key! "protocol", .str), (key! "protocolVersion", .str), (key! "pathname", .str),
   (key! "description", .str), (key! "title", .str), (key! "summary", .str),
   (key! "variables", .dict (.struct .serverVariable)), (key! "security", .struct .security),
   (key! "tags", .list (.struct .tag)), (key! "externalDocs", .struct .externalDocs),
   (key! "bindings", .struct .serverBindings), (key! "$ref", .str)]

/-- `ServerVariable` (pkg/asyncapi/v3/server_variable.go:6-19). -/
def serverVariable3 : List (Str × Ty T3) :=
  [(key! "enum", .list .str), (key! "default", .str), (key! "description", .str),
   (key! "examples", .list .str), (key! "$ref", .str)]

/-- `Channel` (pkg/asyncapi/v3/channel.go:22-41). -/
def channel3 : List (Str × Ty T3) :=
  [(key! "address", .str), (key! "messages", .dict (.struct .message)), (key! "title", .str),
   (key! "summary", .str), (key! "description", .str), (key! "servers", .list (.struct .server)),
   (key! "parameters", .dict (.struct .parameter)), (key! "tags", .list (.struct .tag)),
   (key! "externalDocs", .struct .externalDocs), (key! "bindings", .struct .channelBindings),
   (key! "$ref", .str)]

/-- `Operation` (pkg/asyncapi/v3/operation.go:26-49). -/
def operation3 : List (Str × Ty T3) :=
  [(key! "action", .str), (key! "channel", .struct .channel), (key! "title", .str), (key! "summary", .str),
   (key! "string", .str), (key! "security", .list (.struct .security)), (key! "tags", .list (.struct .tag)),
   (key! "externalDocs", .struct .externalDocs), (key! "bindings", .struct .operationBindings),
   (key! "traits", .list (.struct .operationTrait)), (key! "messages", .list (.struct .message)),
   (key! "reply", .struct .reply), (key! "$ref", .str)]

/-- `OperationTrait` (pkg/asyncapi/v3/operation_trait.go:6-22). -/
def operationTrait3 : List (Str × Ty T3) :=
  [(key! "title", .str), (key! "summary", .str), (key! "description", .str),
   (key! "security", .list (.struct .security)), (key! "tags", .list (.struct .tag)),
   (key! "externalDocs", .struct .externalDocs), (key! "bindings", .struct .operationBindings),
   (key! "$ref", .str)]

/-- `OperationReply` (pkg/asyncapi/v3/operation_reply.go:6-18). -/
def reply3 : List (Str × Ty T3) :=
  [(key! "address", .struct .replyAddress), (key! "channel", .struct .channel),
   (key! "messages", .list (.struct .message)), (key! "$ref", .str)]

/-- `OperationReplyAddress` (pkg/asyncapi/v3/operation_reply_address.go:10-22). -/
def replyAddress3 : List (Str × Ty T3) :=
  [(key! "description", .str), (key! "location", .str), (key! "$ref", .str)]

/-- `Message` (pkg/asyncapi/v3/message.go:37-63). -/
def message3 : List (Str × Ty T3) :=
  [(key! "headers", .struct .schema), (key! "payload", .struct .schema),
   (key! "oneOf", .list (.struct .message)), (key! "correlationID", .struct .correlationId),
   (key! "contentType", .str), (key! "name", .str), (key! "title", .str), (key! "summary", .str),
   (key! "description", .str), (key! "tags", .list (.struct .tag)),
   (key! "externalDocs", .struct .externalDocs), (key! "bindings", .struct .messageBindings),
   (key! "examples", .list (.struct .messageExample)), (key! "traits", .list (.struct .messageTrait)),
   (key! "$ref", .str)]

/-- `MessageTrait` (pkg/asyncapi/v3/message_trait.go:6-31). -/
def messageTrait3 : List (Str × Ty T3) :=
  [(key! "headers", .struct .schema), (key! "payload", .struct .schema),
   (key! "correlationID", .struct .correlationId), (key! "contentType", .str), (key! "name", .str),
   (key! "title", .str), (key! "summary", .str), (key! "description", .str),
   (key! "tags", .list (.struct .tag)), (key! "externalDocs", .struct .externalDocs),
   (key! "bindings", .struct .messageBindings), (key! "examples", .list (.struct .messageExample)),
   (key! "$ref", .str)]

/-- `MessageExample` (pkg/asyncapi/v3/message_example.go:6-18). -/
def messageExample3 : List (Str × Ty T3) :=
  [(key! "headers", .dict .any), (key! "payload", .dict .any), (key! "name", .str), (key! "summary", .str),
   (key! "$ref", .str)]

/-- `CorrelationID` (pkg/asyncapi/v3/correlation_id.go:6-17). -/
def correlationId3 : List (Str × Ty T3) :=
  [(key! "description", .str), (key! "location", .str), (key! "$ref", .str)]

/-- `Parameter` (pkg/asyncapi/v3/parameter.go:6-17). -/
def parameter3 : List (Str × Ty T3) :=
  [(key! "enum", .list .str), (key! "default", .str), (key! "description", .str),
   (key! "examples", .list .str), (key! "location", .str), (key! "$ref", .str)]

/-- `Schema` (pkg/asyncapi/v3/schema.go:30-69, pkg/asyncapi/schema.go:5-30,
pkg/asyncapi/v3/extensions.go:10-20). The fields of the embedded structures are promoted;
of two fields of the same name the outer one is used. -/
def schema3 : List (Str × Ty T3) :=
  [(key! "title", .str), (key! "type", .str), (key! "examples", .list .any), (key! "readOnly", .bool),
   (key! "writeOnly", .bool), (key! "properties", .dict (.struct .schema)),
   (key! "patternProperties", .dict (.struct .schema)), (key! "additionalProperties", .struct .schema),
   (key! "additionalItems", .list (.struct .schema)), (key! "items", .struct .schema),
   (key! "propertyNames", .list .str), (key! "contains", .list (.struct .schema)),
   (key! "allOf", .list (.struct .schema)), (key! "anyOf", .list (.struct .schema)),
   (key! "oneOf", .list (.struct .schema)), (key! "not", .struct .schema), (key! "description", .str),
   (key! "format", .str), (key! "default", .any), (key! "$ref", .str), (key! "required", .list .str),
   (key! "multipleOf", .list .str), (key! "maximum", .float), (key! "exclusiveMaximum", .float),
   (key! "minimum", .float), (key! "exclusiveMinimum", .float), (key! "maxLength", .uint),
   (key! "minLength", .uint), (key! "pattern", .str), (key! "maxItems", .uint), (key! "minItems", .uint),
   (key! "uniqueItems", .bool), (key! "maxProperties", .uint), (key! "minProperties", .uint),
   (key! "enum", .list .any), (key! "const", .any), (key! "x-go-type", .str),
   (key! "x-go-type-import", .struct .goTypeImport), (key! "x-omitempty", .bool)]

/-- `GoTypeImportExtension` (pkg/asyncapi/v3/extensions.go:26-29). -/
def goTypeImport3 : List (Str × Ty T3) :=
  [(key! "name", .str), (key! "path", .str)]

/-- `SecurityScheme` (pkg/asyncapi/v3/security_scheme.go:34-51). -/
def security3 : List (Str × Ty T3) :=
  [(key! "type", .str), (key! "description", .str), (key! "name", .str), (key! "in", .str),
   (key! "scheme", .str), (key! "bearerFormat", .str), (key! "flows", .struct .oauthFlows),
   (key! "openIdConnectUrl", .str), (key! "scopes", .list .str), (key! "$ref", .str)]

/-- `OAuthFlows` (pkg/asyncapi/v3/security_scheme.go:20-29). -/
def oauthFlows3 : List (Str × Ty T3) :=
  [(key! "implicit", .struct .oauthFlow), (key! "password", .struct .oauthFlow),
   (key! "clientCredential", .struct .oauthFlow), (key! "authorizationCode", .struct .oauthFlow)]

/-- `OAuthFlow` (pkg/asyncapi/v3/security_scheme.go:6-15). -/
def oauthFlow3 : List (Str × Ty T3) :=
  [(key! "authorizationUrl", .str), (key! "tokenUrl", .str), (key! "refreshUrl", .str),
   (key! "availableScopes", .dict .str)]

/-- `Tag` (pkg/asyncapi/v3/tag.go:6-17). -/
def tag3 : List (Str × Ty T3) :=
  [(key! "name", .str), (key! "description", .str), (key! "externalDocs", .struct .externalDocs),
   (key! "$ref", .str)]

/-- `ExternalDocumentation` (pkg/asyncapi/v3/external_documentation.go:11-22). -/
def externalDocs3 : List (Str × Ty T3) :=
  [(key! "description", .str), (key! "url", .str), (key! "$ref", .str)]

/-- `Components` (pkg/asyncapi/v3/components.go:6-30). -/
def components3 : List (Str × Ty T3) :=
  [(key! "schemas", .dict (.struct .schema)), (key! "servers", .dict (.struct .server)),
   (key! "channels", .dict (.struct .channel)), (key! "operations", .dict (.struct .operation)),
   (key! "messages", .dict (.struct .message)), (key! "securitySchemes", .dict (.struct .security)),
   (key! "serverVariables", .dict (.struct .serverVariable)), (key! "parameters", .dict (.struct .parameter)),
   (key! "correlationIds", .dict (.struct .correlationId)), (key! "replies", .dict (.struct .reply)),
   (key! "replyAddresses", .dict (.struct .replyAddress)),
   (key! "externalDocs", .dict (.struct .externalDocs)), (key! "tags", .dict (.struct .tag)),
   (key! "operationTraits", .dict (.struct .operationTrait)),
   (key! "messageTraits", .dict (.struct .messageTrait)),
   (key! "serverBindings", .dict (.struct .serverBindings)),
   (key! "channelBindings", .dict (.struct .channelBindings)),
   (key! "operationBindings", .dict (.struct .operationBindings)),
   (key! "messageBindings", .dict (.struct .messageBindings))]

/-- `ServerBindings` (pkg/asyncapi/v3/server_bindings.go:6-34). -/
def serverBindings3 : List (Str × Ty T3) :=
  [(key! "http", .any), (key! "ws", .any), (key! "kafka", .any), (key! "anypointmq", .any),
   (key! "amqp", .any), (key! "amqp1", .any), (key! "mqtt", .any), (key! "mqtt5", .any), (key! "nats", .any),
   (key! "jms", .any), (key! "sns", .any), (key! "solace", .any), (key! "sqs", .any), (key! "stomp", .any),
   (key! "redis", .any), (key! "mercure", .any), (key! "ibmmq", .any), (key! "googlepubsub", .any),
   (key! "pulsar", .any), (key! "$ref", .str)]

/-- `ChannelBindings` (pkg/asyncapi/v3/channel_bindings.go:6-34). -/
def channelBindings3 : List (Str × Ty T3) :=
  [(key! "http", .any), (key! "ws", .any), (key! "kafka", .any), (key! "anypointmq", .any),
   (key! "amqp", .any), (key! "amqp1", .any), (key! "mqtt", .any), (key! "mqtt5", .any), (key! "nats", .any),
   (key! "jms", .any), (key! "sns", .any), (key! "solace", .any), (key! "sqs", .any), (key! "stomp", .any),
   (key! "redis", .any), (key! "mercure", .any), (key! "ibmmq", .any), (key! "googlepubsub", .any),
   (key! "pulsar", .any), (key! "$ref", .str)]

/-- `OperationBindings` (pkg/asyncapi/v3/operation_bindings.go:6-34). -/
def operationBindings3 : List (Str × Ty T3) :=
  [(key! "http", .any), (key! "ws", .any), (key! "kafka", .any), (key! "anypointmq", .any),
   (key! "amqp", .any), (key! "amqp1", .any), (key! "mqtt", .any), (key! "mqtt5", .any), (key! "nats", .any),
   (key! "jms", .any), (key! "sns", .any), (key! "solace", .any), (key! "sqs", .any), (key! "stomp", .any),
   (key! "redis", .any), (key! "mercure", .any), (key! "ibmmq", .any), (key! "googlepubsub", .any),
   (key! "pulsar", .any), (key! "$ref", .str)]

/-- `MessageBindings` (pkg/asyncapi/v3/message_bindings.go:6-34). -/
def messageBindings3 : List (Str × Ty T3) :=
  [(key! "http", .any), (key! "ws", .any), (key! "kafka", .any), (key! "anypointmq", .any),
   (key! "amqp", .any), (key! "amqp1", .any), (key! "mqtt", .any), (key! "mqtt5", .any), (key! "nats", .any),
   (key! "jms", .any), (key! "sns", .any), (key! "solace", .any), (key! "sqs", .any), (key! "stomp", .any),
   (key! "redis", .any), (key! "mercure", .any), (key! "ibmmq", .any), (key! "googlepubsub", .any),
   (key! "pulsar", .any), (key! "$ref", .str)]

/-- The fields of each structure, by their names in JSON (pkg/asyncapi/v3). -/
def fields3 : T3 → List (Str × Ty T3)
  | .root => root3
  | .info => info3
  | .contact => contact3
  | .license => license3
  | .server => server3
  | .serverVariable => serverVariable3
  | .channel => channel3
  | .operation => operation3
  | .operationTrait => operationTrait3
  | .reply => reply3
  | .replyAddress => replyAddress3
  | .message => message3
  | .messageTrait => messageTrait3
  | .messageExample => messageExample3
  | .correlationId => correlationId3
  | .parameter => parameter3
  | .schema => schema3
  | .goTypeImport => goTypeImport3
  | .security => security3
  | .oauthFlows => oauthFlows3
  | .oauthFlow => oauthFlow3
  | .tag => tag3
  | .externalDocs => externalDocs3
  | .components => components3
  | .serverBindings => serverBindings3
  | .channelBindings => channelBindings3
  | .operationBindings => operationBindings3
  | .messageBindings => messageBindings3

/-- The structures of pkg/asyncapi/v2 a document is decoded into. -/
inductive T2
  | root
  | info
  | channel
  | operation
  | message
  | correlationId
  | parameter
  | schema
  | goTypeImport
  | components
  deriving DecidableEq, Repr

/-- `Specification` (pkg/asyncapi/v2/specification.go:25-38). -/
def root2 : List (Str × Ty T2) :=
  [(key! "asyncapi", .str), (key! "info", .struct .info), (key! "channels", .dict (.struct .channel)),
   (key! "components", .struct .components)]

/-- `Info` (pkg/asyncapi/v2/info.go:6-14). -/
def info2 : List (Str × Ty T2) :=
  [(key! "title", .str), (key! "version", .str), (key! "description", .str)]

/-- `Channel` (pkg/asyncapi/v2/channel.go:8-20). -/
def channel2 : List (Str × Ty T2) :=
  [(key! "parameters", .dict (.struct .parameter)), (key! "subscribe", .struct .operation),
   (key! "publish", .struct .operation)]

/-- `Operation` (pkg/asyncapi/v2/operation.go:12-21). -/
def operation2 : List (Str × Ty T2) :=
  [(key! "operationId", .str), (key! "message", .struct .message)]

/-- `Message` (pkg/asyncapi/v2/message.go:37-56). -/
def message2 : List (Str × Ty T2) :=
  [(key! "description", .str), (key! "headers", .struct .schema), (key! "oneOf", .list (.struct .message)),
   (key! "payload", .struct .schema), (key! "correlationID", .struct .correlationId), (key! "$ref", .str)]

/-- `CorrelationID` (pkg/asyncapi/v2/correlation_id.go:6-13). -/
def correlationId2 : List (Str × Ty T2) :=
  [(key! "description", .str), (key! "location", .str)]

/-- `Parameter` (pkg/asyncapi/v2/parameter.go:8-20). -/
def parameter2 : List (Str × Ty T2) :=
  [(key! "description", .str), (key! "schema-name", .struct .schema), (key! "location", .str),
   (key! "$ref", .str)]

/-- `Schema` (pkg/asyncapi/v2/schema.go:31-51, pkg/asyncapi/schema.go:5-30,
pkg/asyncapi/v2/extensions.go:10-20). The fields of the embedded structures are promoted;
no two have the same name. -/
def schema2 : List (Str × Ty T2) :=
  [(key! "type", .str), (key! "description", .str), (key! "format", .str),
   (key! "properties", .dict (.struct .schema)), (key! "items", .struct .schema), (key! "$ref", .str),
   (key! "additionalProperties", .struct .schema), (key! "required", .list .str),
   (key! "multipleOf", .list .str), (key! "maximum", .float), (key! "exclusiveMaximum", .float),
   (key! "minimum", .float), (key! "exclusiveMinimum", .float), (key! "maxLength", .uint),
   (key! "minLength", .uint), (key! "pattern", .str), (key! "maxItems", .uint), (key! "minItems", .uint),
   (key! "uniqueItems", .bool), (key! "maxProperties", .uint), (key! "minProperties", .uint),
   (key! "enum", .list .any), (key! "const", .any), (key! "allOf", .list (.struct .schema)),
   (key! "anyOf", .list (.struct .schema)), (key! "oneOf", .list (.struct .schema)), (key! "x-go-type", .str),
   (key! "x-go-type-import", .struct .goTypeImport), (key! "x-omitempty", .bool)]

/-- `GoTypeImportExtension` (pkg/asyncapi/v2/extensions.go:26-29). -/
def goTypeImport2 : List (Str × Ty T2) :=
  [(key! "name", .str), (key! "path", .str)]

/-- `Components` (pkg/asyncapi/v2/components.go:6-14). -/
def components2 : List (Str × Ty T2) :=
  [(key! "messages", .dict (.struct .message)), (key! "schemas", .dict (.struct .schema)),
   (key! "parameters", .dict (.struct .parameter))]

/-- The fields of each structure, by their names in JSON (pkg/asyncapi/v2). -/
def fields2 : T2 → List (Str × Ty T2)
  | .root => root2
  | .info => info2
  | .channel => channel2
  | .operation => operation2
  | .message => message2
  | .correlationId => correlationId2
  | .parameter => parameter2
  | .schema => schema2
  | .goTypeImport => goTypeImport2
  | .components => components2

/-- Whether a document decodes, for `Parse.fromJSON`. (pkg/asyncapi/parser/parse.go:122-137) -/
def decodes : Parse.Impl → Json → Bool
  | .v2, doc => (decode fields2 doc (.struct .root)).isSome
  | .v3, doc => (decode fields3 doc (.struct .root)).isSome

end Verif.Decode
