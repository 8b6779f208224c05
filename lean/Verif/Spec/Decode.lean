import Verif.Model.Decode

/-!
# What AsyncAPI documents are

The objects of AsyncAPI 3.0.0 and 2.6.0 with the shapes of their keywords, taken from the AsyncAPI
specification (with JSON Schema draft 7 for schemas), and where a value of a document is to be found in the
Go structures. A "Reference Object" is counted as a keyword `$ref` of the objects that may be referred to.
The shapes of v2 keywords the program has no field for are left open (`anything`).
-/

namespace Verif.Decode

/-- Shapes of JSON values, over the names of the objects. -/
inductive Sh (σ : Type)
  | string
  | boolean
  | number
  | natural              -- a number that is a non-negative integer
  | digits               -- a non-negative integer below 2⁶⁴ written without fraction and exponent
  | null
  | anything
  | never
  | list (a : Sh σ)
  | map (a : Sh σ)
  | obj (s : σ)
  | either (a b : Sh σ)
  deriving DecidableEq, Repr

/-- A non-negative integer: decimal digits, and maybe a fraction of zeros. -/
def IsNatural (t : Str) : Prop :=
  ∃ n : Nat, ∃ f : Str, t = Nat.toDigits 10 n ++ f ∧ (f = [] ∨ ∃ m, f = '.' :: List.replicate (m + 1) '0')

/-- A name that AsyncAPI allows although it is no keyword of the object: it begins with `x-`. Here it is not a
keyword in other letters either. -/
def Extra {σ : Type} (T : σ → List (Str × Sh σ)) (s : σ) (k : Str) : Prop :=
  (∃ r, k = 'x' :: '-' :: r) ∧ ∀ f ∈ T s, fold f.1 ≠ fold k

/-- A JSON value has a shape. The names of an object are distinct. -/
inductive Conforms {σ : Type} (T : σ → List (Str × Sh σ)) : Sh σ → Json → Prop
  | string (s : Str) : Conforms T .string (.str s)
  | boolean (b : Bool) : Conforms T .boolean (.bool b)
  | number (t : Str) (h : Json.isNumber t = true) : Conforms T .number (.num t)
  | natural (t : Str) (h : IsNatural t) : Conforms T .natural (.num t)
  | digits (n : Nat) (h : n < 2 ^ 64) : Conforms T .digits (.num (Nat.toDigits 10 n))
  | null : Conforms T .null .null
  | anything (j : Json) : Conforms T .anything j
  | list (a : Sh σ) (xs : List Json) (h : ∀ x ∈ xs, Conforms T a x) : Conforms T (.list a) (.arr xs)
  | map (a : Sh σ) (ms : List (Str × Json)) (hd : (ms.map Prod.fst).Nodup)
      (h : ∀ m ∈ ms, Conforms T a m.2) : Conforms T (.map a) (.obj ms)
  | obj (s : σ) (ms : List (Str × Json)) (hd : (ms.map Prod.fst).Nodup)
      (hk : ∀ m ∈ ms, (∃ a, (m.1, a) ∈ T s) ∨ Extra T s m.1)
      (h : ∀ m ∈ ms, ∀ a, (m.1, a) ∈ T s → Conforms T a m.2) : Conforms T (.obj s) (.obj ms)
  | left (a b : Sh σ) (j : Json) (h : Conforms T a j) : Conforms T (.either a b) j
  | right (a b : Sh σ) (j : Json) (h : Conforms T b j) : Conforms T (.either a b) j

/-- A step into a value. -/
inductive Step
  | key (k : Str)
  | idx (i : Nat)
  deriving DecidableEq, Repr

/-- `Reach T ignored a j p x`: the document `j` of shape `a` has at the place `p` the value `x`, and the way
there takes no keyword of `ignored`. -/
inductive Reach {σ : Type} (T : σ → List (Str × Sh σ)) (ignored : List (σ × Str)) :
    Sh σ → Json → List Step → Json → Prop
  | here (a : Sh σ) (j : Json) (h : Conforms T a j) : Reach T ignored a j [] j
  | list (a : Sh σ) (xs : List Json) (i : Nat) (y : Json) (p : List Step) (x : Json) (hi : xs[i]? = some y)
      (h : Reach T ignored a y p x) : Reach T ignored (.list a) (.arr xs) (.idx i :: p) x
  | map (a : Sh σ) (ms : List (Str × Json)) (k : Str) (y : Json) (p : List Step) (x : Json)
      (hk : (k, y) ∈ ms) (h : Reach T ignored a y p x) :
      Reach T ignored (.map a) (.obj ms) (.key k :: p) x
  | obj (s : σ) (ms : List (Str × Json)) (k : Str) (a : Sh σ) (y : Json) (p : List Step) (x : Json)
      (ht : (k, a) ∈ T s) (hi : (s, k) ∉ ignored) (hk : (k, y) ∈ ms) (h : Reach T ignored a y p x) :
      Reach T ignored (.obj s) (.obj ms) (.key k :: p) x
  | left (a b : Sh σ) (j : Json) (p : List Step) (x : Json) (hc : Conforms T a j)
      (h : Reach T ignored a j p x) : Reach T ignored (.either a b) j p x
  | right (a b : Sh σ) (j : Json) (p : List Step) (x : Json) (hc : Conforms T b j)
      (h : Reach T ignored b j p x) : Reach T ignored (.either a b) j p x

/-- The value of a key of a Go map. -/
def keyOf (k : Str) : List (Str × Val) → Option Val
  | [] => none
  | m :: ms => if m.1 = k then some m.2 else keyOf k ms

/-- The value of the field of a keyword: the field whose name in JSON is the keyword, up to the case of
letters. -/
def fieldOf (k : Str) : List (Str × Val) → Option Val
  | [] => none
  | m :: ms => if fold m.1 = fold k then some m.2 else fieldOf k ms

/-- The Go value at a place. -/
def valAt : Val → List Step → Option Val
  | v, [] => some v
  | .list vs, .idx i :: p =>
    match vs[i]? with
    | some v => valAt v p
    | none => none
  | .dict ms, .key k :: p =>
    match keyOf k ms with
    | some v => valAt v p
    | none => none
  | .struct fs, .key k :: p =>
    match fieldOf k fs with
    | some v => valAt v p
    | none => none
  | _, _ => none

/-- A Go value holds a JSON value: the same string, boolean, number; as many elements; the same keys; no field
that is not in the document. -/
def Holds : Val → Json → Prop
  | .zero, .null => True
  | .str s, .str s' => s = s'
  | .bool b, .bool b' => b = b'
  | .uint n, .num t => t = Nat.toDigits 10 n
  | .float t, .num t' => t = t'
  | .any j, j' => j = j'
  | .list vs, .arr xs => vs.length = xs.length
  | .dict ms, .obj ms' => ms.map Prod.fst = ms'.map Prod.fst
  | .struct fs, .obj ms => ∀ f ∈ fs, ∃ m ∈ ms, fold m.1 = fold f.1
  | _, _ => False

/-- The objects of AsyncAPI 3.0.0. -/
inductive S3
  | root
  | info
  | contact
  | license
  | server
  | serverVariable
  | channel
  | operation
  | operationTrait
  | reply
  | replyAddress
  | message
  | messageTrait
  | messageExample
  | correlationId
  | parameter
  | schema
  | multiFormat
  | goTypeImport
  | security
  | oauthFlows
  | oauthFlow
  | tag
  | externalDocs
  | components
  | serverBindings
  | channelBindings
  | operationBindings
  | messageBindings
  deriving DecidableEq, Repr

/-- A schema: a Schema Object or a boolean (JSON Schema draft 7). -/
def schemaSh3 : Sh S3 := .either (.obj .schema) .boolean

/-- A schema, or a schema of another format. -/
def payloadSh3 : Sh S3 := .either schemaSh3 (.obj .multiFormat)

/-- AsyncAPI Object -/
def rootS3 : List (Str × Sh S3) :=
  [(key! "asyncapi", .string), (key! "id", .string), (key! "info", .obj .info),
   (key! "servers", .map (.obj .server)), (key! "defaultContentType", .string),
   (key! "channels", .map (.obj .channel)), (key! "operations", .map (.obj .operation)),
   (key! "components", .obj .components)]

/-- Info Object -/
def infoS3 : List (Str × Sh S3) :=
  [(key! "title", .string), (key! "version", .string), (key! "description", .string),
   (key! "termsOfService", .string), (key! "contact", .obj .contact), (key! "license", .obj .license),
   (key! "tags", .list (.obj .tag)), (key! "externalDocs", .obj .externalDocs)]

/-- Contact Object -/
def contactS3 : List (Str × Sh S3) :=
  [(key! "name", .string), (key! "url", .string), (key! "email", .string)]

/-- License Object -/
def licenseS3 : List (Str × Sh S3) :=
  [(key! "name", .string), (key! "url", .string)]

/-- Server Object -/
def serverS3 : List (Str × Sh S3) :=
  [(key! "host", .string), (key! "protocol", .string), (key! "protocolVersion", .string),
   (key! "pathname", .string), (key! "description", .string), (key! "title", .string),
   (key! "summary", .string), (key! "variables", .map (.obj .serverVariable)),
   (key! "security", .list (.obj .security)), (key! "tags", .list (.obj .tag)),
   (key! "externalDocs", .obj .externalDocs), (key! "bindings", .obj .serverBindings), (key! "$ref", .string)]

/-- Server Variable Object -/
def serverVariableS3 : List (Str × Sh S3) :=
  [(key! "enum", .list .string), (key! "default", .string), (key! "description", .string),
   (key! "examples", .list .string), (key! "$ref", .string)]

/-- Channel Object -/
def channelS3 : List (Str × Sh S3) :=
  [(key! "address", .either .string .null), (key! "messages", .map (.obj .message)), (key! "title", .string),
   (key! "summary", .string), (key! "description", .string), (key! "servers", .list (.obj .server)),
   (key! "parameters", .map (.obj .parameter)), (key! "tags", .list (.obj .tag)),
   (key! "externalDocs", .obj .externalDocs), (key! "bindings", .obj .channelBindings), (key! "$ref", .string)]

/-- Operation Object -/
def operationS3 : List (Str × Sh S3) :=
  [(key! "action", .string), (key! "channel", .obj .channel), (key! "title", .string),
   (key! "summary", .string), (key! "description", .string), (key! "security", .list (.obj .security)),
   (key! "tags", .list (.obj .tag)), (key! "externalDocs", .obj .externalDocs),
   (key! "bindings", .obj .operationBindings), (key! "traits", .list (.obj .operationTrait)),
   (key! "messages", .list (.obj .message)), (key! "reply", .obj .reply), (key! "$ref", .string)]

/-- Operation Trait Object -/
def operationTraitS3 : List (Str × Sh S3) :=
  [(key! "title", .string), (key! "summary", .string), (key! "description", .string),
   (key! "security", .list (.obj .security)), (key! "tags", .list (.obj .tag)),
   (key! "externalDocs", .obj .externalDocs), (key! "bindings", .obj .operationBindings),
   (key! "$ref", .string)]

/-- Operation Reply Object -/
def replyS3 : List (Str × Sh S3) :=
  [(key! "address", .obj .replyAddress), (key! "channel", .obj .channel),
   (key! "messages", .list (.obj .message)), (key! "$ref", .string)]

/-- Operation Reply Address Object -/
def replyAddressS3 : List (Str × Sh S3) :=
  [(key! "description", .string), (key! "location", .string), (key! "$ref", .string)]

/-- Message Object -/
def messageS3 : List (Str × Sh S3) :=
  [(key! "headers", payloadSh3), (key! "payload", payloadSh3), (key! "correlationId", .obj .correlationId),
   (key! "contentType", .string), (key! "name", .string), (key! "title", .string), (key! "summary", .string),
   (key! "description", .string), (key! "tags", .list (.obj .tag)), (key! "externalDocs", .obj .externalDocs),
   (key! "bindings", .obj .messageBindings), (key! "examples", .list (.obj .messageExample)),
   (key! "traits", .list (.obj .messageTrait)), (key! "$ref", .string)]

/-- Message Trait Object -/
def messageTraitS3 : List (Str × Sh S3) :=
  [(key! "headers", payloadSh3), (key! "correlationId", .obj .correlationId), (key! "contentType", .string),
   (key! "name", .string), (key! "title", .string), (key! "summary", .string), (key! "description", .string),
   (key! "tags", .list (.obj .tag)), (key! "externalDocs", .obj .externalDocs),
   (key! "bindings", .obj .messageBindings), (key! "examples", .list (.obj .messageExample)),
   (key! "$ref", .string)]

/-- Message Example Object -/
def messageExampleS3 : List (Str × Sh S3) :=
  [(key! "headers", .map .anything), (key! "payload", .anything), (key! "name", .string),
   (key! "summary", .string)]

/-- Correlation ID Object -/
def correlationIdS3 : List (Str × Sh S3) :=
  [(key! "description", .string), (key! "location", .string), (key! "$ref", .string)]

/-- Parameter Object -/
def parameterS3 : List (Str × Sh S3) :=
  [(key! "enum", .list .string), (key! "default", .string), (key! "description", .string),
   (key! "examples", .list .string), (key! "location", .string), (key! "$ref", .string)]

/-- Schema Object -/
def schemaS3 : List (Str × Sh S3) :=
  [(key! "title", .string), (key! "type", .either .string (.list .string)), (key! "required", .list .string),
   (key! "multipleOf", .number), (key! "maximum", .number), (key! "exclusiveMaximum", .number),
   (key! "minimum", .number), (key! "exclusiveMinimum", .number), (key! "maxLength", .natural),
   (key! "minLength", .natural), (key! "pattern", .string), (key! "maxItems", .natural),
   (key! "minItems", .natural), (key! "uniqueItems", .boolean), (key! "maxProperties", .natural),
   (key! "minProperties", .natural), (key! "enum", .list .anything), (key! "const", .anything),
   (key! "examples", .list .anything), (key! "if", schemaSh3), (key! "then", schemaSh3),
   (key! "else", schemaSh3), (key! "readOnly", .boolean), (key! "writeOnly", .boolean),
   (key! "properties", .map schemaSh3), (key! "patternProperties", .map schemaSh3),
   (key! "additionalProperties", schemaSh3), (key! "additionalItems", schemaSh3),
   (key! "items", .either schemaSh3 (.list schemaSh3)), (key! "propertyNames", schemaSh3),
   (key! "contains", schemaSh3), (key! "allOf", .list schemaSh3), (key! "anyOf", .list schemaSh3),
   (key! "oneOf", .list schemaSh3), (key! "not", schemaSh3), (key! "description", .string),
   (key! "format", .string), (key! "default", .anything), (key! "discriminator", .string),
   (key! "externalDocs", .obj .externalDocs), (key! "deprecated", .boolean), (key! "$ref", .string),
   (key! "$id", .string), (key! "$schema", .string), (key! "$comment", .string),
   (key! "definitions", .map schemaSh3), (key! "dependencies", .anything), (key! "contentEncoding", .string),
   (key! "contentMediaType", .string), (key! "x-go-type", .string),
   (key! "x-go-type-import", .obj .goTypeImport), (key! "x-omitempty", .boolean)]

/-- Multi Format Schema Object -/
def multiFormatS3 : List (Str × Sh S3) :=
  [(key! "schemaFormat", .string), (key! "schema", .anything), (key! "$ref", .string),
   (key! "x-go-type", .string), (key! "x-go-type-import", .obj .goTypeImport), (key! "x-omitempty", .boolean)]

/-- the `x-go-type-import` extension (README.md) -/
def goTypeImportS3 : List (Str × Sh S3) :=
  [(key! "name", .string), (key! "path", .string)]

/-- Security Scheme Object -/
def securityS3 : List (Str × Sh S3) :=
  [(key! "type", .string), (key! "description", .string), (key! "name", .string), (key! "in", .string),
   (key! "scheme", .string), (key! "bearerFormat", .string), (key! "flows", .obj .oauthFlows),
   (key! "openIdConnectUrl", .string), (key! "scopes", .list .string), (key! "$ref", .string)]

/-- OAuth Flows Object -/
def oauthFlowsS3 : List (Str × Sh S3) :=
  [(key! "implicit", .obj .oauthFlow), (key! "password", .obj .oauthFlow),
   (key! "clientCredentials", .obj .oauthFlow), (key! "authorizationCode", .obj .oauthFlow)]

/-- OAuth Flow Object -/
def oauthFlowS3 : List (Str × Sh S3) :=
  [(key! "authorizationUrl", .string), (key! "tokenUrl", .string), (key! "refreshUrl", .string),
   (key! "availableScopes", .map .string)]

/-- Tag Object -/
def tagS3 : List (Str × Sh S3) :=
  [(key! "name", .string), (key! "description", .string), (key! "externalDocs", .obj .externalDocs),
   (key! "$ref", .string)]

/-- External Documentation Object -/
def externalDocsS3 : List (Str × Sh S3) :=
  [(key! "description", .string), (key! "url", .string), (key! "$ref", .string)]

/-- Components Object -/
def componentsS3 : List (Str × Sh S3) :=
  [(key! "schemas", .map payloadSh3), (key! "servers", .map (.obj .server)),
   (key! "channels", .map (.obj .channel)), (key! "operations", .map (.obj .operation)),
   (key! "messages", .map (.obj .message)), (key! "securitySchemes", .map (.obj .security)),
   (key! "serverVariables", .map (.obj .serverVariable)), (key! "parameters", .map (.obj .parameter)),
   (key! "correlationIds", .map (.obj .correlationId)), (key! "replies", .map (.obj .reply)),
   (key! "replyAddresses", .map (.obj .replyAddress)), (key! "externalDocs", .map (.obj .externalDocs)),
   (key! "tags", .map (.obj .tag)), (key! "operationTraits", .map (.obj .operationTrait)),
   (key! "messageTraits", .map (.obj .messageTrait)), (key! "serverBindings", .map (.obj .serverBindings)),
   (key! "channelBindings", .map (.obj .channelBindings)),
   (key! "operationBindings", .map (.obj .operationBindings)),
   (key! "messageBindings", .map (.obj .messageBindings))]

/-- Server Bindings Object -/
def serverBindingsS3 : List (Str × Sh S3) :=
  [(key! "http", .anything), (key! "ws", .anything), (key! "kafka", .anything), (key! "anypointmq", .anything),
   (key! "amqp", .anything), (key! "amqp1", .anything), (key! "mqtt", .anything), (key! "mqtt5", .anything),
   (key! "nats", .anything), (key! "jms", .anything), (key! "sns", .anything), (key! "solace", .anything),
   (key! "sqs", .anything), (key! "stomp", .anything), (key! "redis", .anything), (key! "mercure", .anything),
   (key! "ibmmq", .anything), (key! "googlepubsub", .anything), (key! "pulsar", .anything),
   (key! "$ref", .string)]

/-- Channel Bindings Object -/
def channelBindingsS3 : List (Str × Sh S3) :=
  [(key! "http", .anything), (key! "ws", .anything), (key! "kafka", .anything), (key! "anypointmq", .anything),
   (key! "amqp", .anything), (key! "amqp1", .anything), (key! "mqtt", .anything), (key! "mqtt5", .anything),
   (key! "nats", .anything), (key! "jms", .anything), (key! "sns", .anything), (key! "solace", .anything),
   (key! "sqs", .anything), (key! "stomp", .anything), (key! "redis", .anything), (key! "mercure", .anything),
   (key! "ibmmq", .anything), (key! "googlepubsub", .anything), (key! "pulsar", .anything),
   (key! "$ref", .string)]

/-- Operation Bindings Object -/
def operationBindingsS3 : List (Str × Sh S3) :=
  [(key! "http", .anything), (key! "ws", .anything), (key! "kafka", .anything), (key! "anypointmq", .anything),
   (key! "amqp", .anything), (key! "amqp1", .anything), (key! "mqtt", .anything), (key! "mqtt5", .anything),
   (key! "nats", .anything), (key! "jms", .anything), (key! "sns", .anything), (key! "solace", .anything),
   (key! "sqs", .anything), (key! "stomp", .anything), (key! "redis", .anything), (key! "mercure", .anything),
   (key! "ibmmq", .anything), (key! "googlepubsub", .anything), (key! "pulsar", .anything),
   (key! "$ref", .string)]

/-- Message Bindings Object -/
def messageBindingsS3 : List (Str × Sh S3) :=
  [(key! "http", .anything), (key! "ws", .anything), (key! "kafka", .anything), (key! "anypointmq", .anything),
   (key! "amqp", .anything), (key! "amqp1", .anything), (key! "mqtt", .anything), (key! "mqtt5", .anything),
   (key! "nats", .anything), (key! "jms", .anything), (key! "sns", .anything), (key! "solace", .anything),
   (key! "sqs", .anything), (key! "stomp", .anything), (key! "redis", .anything), (key! "mercure", .anything),
   (key! "ibmmq", .anything), (key! "googlepubsub", .anything), (key! "pulsar", .anything),
   (key! "$ref", .string)]

/-- AsyncAPI 3.0.0: the keywords of each object. -/
def std3 : S3 → List (Str × Sh S3)
  | .root => rootS3
  | .info => infoS3
  | .contact => contactS3
  | .license => licenseS3
  | .server => serverS3
  | .serverVariable => serverVariableS3
  | .channel => channelS3
  | .operation => operationS3
  | .operationTrait => operationTraitS3
  | .reply => replyS3
  | .replyAddress => replyAddressS3
  | .message => messageS3
  | .messageTrait => messageTraitS3
  | .messageExample => messageExampleS3
  | .correlationId => correlationIdS3
  | .parameter => parameterS3
  | .schema => schemaS3
  | .multiFormat => multiFormatS3
  | .goTypeImport => goTypeImportS3
  | .security => securityS3
  | .oauthFlows => oauthFlowsS3
  | .oauthFlow => oauthFlowS3
  | .tag => tagS3
  | .externalDocs => externalDocsS3
  | .components => componentsS3
  | .serverBindings => serverBindingsS3
  | .channelBindings => channelBindingsS3
  | .operationBindings => operationBindingsS3
  | .messageBindings => messageBindingsS3

/-- The objects of AsyncAPI 2.6.0. -/
inductive S2
  | root
  | info
  | channel
  | operation
  | message
  | correlationId
  | parameter
  | schema
  | goTypeImport
  | components
  deriving DecidableEq, Repr

/-- A schema: a Schema Object or a boolean (JSON Schema draft 7). -/
def schemaSh2 : Sh S2 := .either (.obj .schema) .boolean

/-- AsyncAPI Object -/
def rootS2 : List (Str × Sh S2) :=
  [(key! "asyncapi", .string), (key! "id", .string), (key! "info", .obj .info), (key! "servers", .anything),
   (key! "defaultContentType", .string), (key! "channels", .map (.obj .channel)),
   (key! "components", .obj .components), (key! "tags", .anything), (key! "externalDocs", .anything)]

/-- Info Object -/
def infoS2 : List (Str × Sh S2) :=
  [(key! "title", .string), (key! "version", .string), (key! "description", .string),
   (key! "termsOfService", .string), (key! "contact", .anything), (key! "license", .anything)]

/-- Channel Item Object -/
def channelS2 : List (Str × Sh S2) :=
  [(key! "$ref", .string), (key! "description", .string), (key! "servers", .anything),
   (key! "subscribe", .obj .operation), (key! "publish", .obj .operation),
   (key! "parameters", .map (.obj .parameter)), (key! "bindings", .anything)]

/-- Operation Object -/
def operationS2 : List (Str × Sh S2) :=
  [(key! "operationId", .string), (key! "summary", .string), (key! "description", .string),
   (key! "security", .anything), (key! "tags", .anything), (key! "externalDocs", .anything),
   (key! "bindings", .anything), (key! "traits", .anything), (key! "message", .obj .message)]

/-- Message Object, Reference Object, or a list of them by `oneOf` -/
def messageS2 : List (Str × Sh S2) :=
  [(key! "messageId", .string), (key! "headers", schemaSh2), (key! "payload", .anything),
   (key! "correlationId", .obj .correlationId), (key! "schemaFormat", .string), (key! "contentType", .string),
   (key! "name", .string), (key! "title", .string), (key! "summary", .string), (key! "description", .string),
   (key! "tags", .anything), (key! "externalDocs", .anything), (key! "bindings", .anything),
   (key! "examples", .anything), (key! "traits", .anything), (key! "oneOf", .list (.obj .message)),
   (key! "$ref", .string)]

/-- Correlation ID Object -/
def correlationIdS2 : List (Str × Sh S2) :=
  [(key! "description", .string), (key! "location", .string), (key! "$ref", .string)]

/-- Parameter Object -/
def parameterS2 : List (Str × Sh S2) :=
  [(key! "description", .string), (key! "schema", schemaSh2), (key! "location", .string),
   (key! "$ref", .string)]

/-- Schema Object -/
def schemaS2 : List (Str × Sh S2) :=
  [(key! "title", .string), (key! "type", .either .string (.list .string)), (key! "required", .list .string),
   (key! "multipleOf", .number), (key! "maximum", .number), (key! "exclusiveMaximum", .number),
   (key! "minimum", .number), (key! "exclusiveMinimum", .number), (key! "maxLength", .natural),
   (key! "minLength", .natural), (key! "pattern", .string), (key! "maxItems", .natural),
   (key! "minItems", .natural), (key! "uniqueItems", .boolean), (key! "maxProperties", .natural),
   (key! "minProperties", .natural), (key! "enum", .list .anything), (key! "const", .anything),
   (key! "examples", .list .anything), (key! "if", schemaSh2), (key! "then", schemaSh2),
   (key! "else", schemaSh2), (key! "readOnly", .boolean), (key! "writeOnly", .boolean),
   (key! "properties", .map schemaSh2), (key! "patternProperties", .map schemaSh2),
   (key! "additionalProperties", schemaSh2), (key! "additionalItems", schemaSh2),
   (key! "items", .either schemaSh2 (.list schemaSh2)), (key! "propertyNames", schemaSh2),
   (key! "contains", schemaSh2), (key! "allOf", .list schemaSh2), (key! "anyOf", .list schemaSh2),
   (key! "oneOf", .list schemaSh2), (key! "not", schemaSh2), (key! "description", .string),
   (key! "format", .string), (key! "default", .anything), (key! "discriminator", .string),
   (key! "externalDocs", .anything), (key! "deprecated", .boolean), (key! "$ref", .string),
   (key! "$id", .string), (key! "$schema", .string), (key! "$comment", .string),
   (key! "definitions", .map schemaSh2), (key! "dependencies", .anything), (key! "contentEncoding", .string),
   (key! "contentMediaType", .string), (key! "x-go-type", .string),
   (key! "x-go-type-import", .obj .goTypeImport), (key! "x-omitempty", .boolean)]

/-- the `x-go-type-import` extension (README.md) -/
def goTypeImportS2 : List (Str × Sh S2) :=
  [(key! "name", .string), (key! "path", .string)]

/-- Components Object -/
def componentsS2 : List (Str × Sh S2) :=
  [(key! "schemas", .map schemaSh2), (key! "servers", .anything), (key! "serverVariables", .anything),
   (key! "channels", .anything), (key! "messages", .map (.obj .message)), (key! "securitySchemes", .anything),
   (key! "parameters", .map (.obj .parameter)), (key! "correlationIds", .anything),
   (key! "operationTraits", .anything), (key! "messageTraits", .anything), (key! "serverBindings", .anything),
   (key! "channelBindings", .anything), (key! "operationBindings", .anything),
   (key! "messageBindings", .anything)]

/-- AsyncAPI 2.6.0: the keywords of each object. -/
def std2 : S2 → List (Str × Sh S2)
  | .root => rootS2
  | .info => infoS2
  | .channel => channelS2
  | .operation => operationS2
  | .message => messageS2
  | .correlationId => correlationIdS2
  | .parameter => parameterS2
  | .schema => schemaS2
  | .goTypeImport => goTypeImportS2
  | .components => componentsS2

/-- What the program reads of a shape: no boolean in place of a schema, and integers without fraction and
exponent. -/
def narrowSh {σ : Type} : Sh σ → Sh σ
  | .either a .boolean => narrowSh a
  | .either a b => .either (narrowSh a) (narrowSh b)
  | .natural => .digits
  | .list a => .list (narrowSh a)
  | .map a => .map (narrowSh a)
  | a => a

/-- The shapes the program reads of particular keywords. -/
def narrowed3 : List (S3 × Str × Sh S3) :=
  [(.schema, key! "type", .string), (.schema, key! "multipleOf", .never),
   (.schema, key! "additionalItems", .never), (.schema, key! "items", .obj .schema),
   (.schema, key! "propertyNames", .never), (.schema, key! "contains", .never),
   (.server, key! "security", .never), (.messageExample, key! "payload", .map .anything)]

def narrowed2 : List (S2 × Str × Sh S2) :=
  [(.schema, key! "type", .string), (.schema, key! "multipleOf", .never), (.schema, key! "items", .obj .schema),
   (.message, key! "payload", .obj .schema)]

/-- The shape of a keyword in a list, or else `narrowSh` of its shape. -/
def override {σ : Type} [DecidableEq σ] (s : σ) (k : Str) (a : Sh σ) : List (σ × Str × Sh σ) → Sh σ
  | [] => narrowSh a
  | (s', k', b) :: os => if s' = s ∧ k' = k then b else override s k a os

/-- The documents of AsyncAPI 3.0.0 that are read. -/
def read3 (s : S3) : List (Str × Sh S3) := (std3 s).map (fun f => (f.1, override s f.1 f.2 narrowed3))

/-- The documents of AsyncAPI 2.6.0 that are read. -/
def read2 (s : S2) : List (Str × Sh S2) := (std2 s).map (fun f => (f.1, override s f.1 f.2 narrowed2))

/-- Keywords of AsyncAPI 3.0.0 that are skipped. -/
def ignored3 : List (S3 × Str) :=
  [(.operation, key! "description"), (.oauthFlows, key! "clientCredentials"),
   (.multiFormat, key! "schemaFormat"), (.multiFormat, key! "schema")]
  ++ [key! "if", key! "then", key! "else", key! "discriminator", key! "externalDocs", key! "deprecated",
      key! "$id", key! "$schema", key! "$comment", key! "definitions", key! "dependencies",
      key! "contentEncoding", key! "contentMediaType"].map (fun k => (.schema, k))

/-- Keywords of AsyncAPI 2.6.0 that are skipped. -/
def ignored2 : List (S2 × Str) :=
  [key! "id", key! "servers", key! "defaultContentType", key! "tags", key! "externalDocs"].map
    (fun k => (.root, k))
  ++ [key! "termsOfService", key! "contact", key! "license"].map (fun k => (.info, k))
  ++ [key! "$ref", key! "description", key! "servers", key! "bindings"].map (fun k => (.channel, k))
  ++ [key! "summary", key! "description", key! "security", key! "tags", key! "externalDocs", key! "bindings",
      key! "traits"].map (fun k => (.operation, k))
  ++ [key! "messageId", key! "schemaFormat", key! "contentType", key! "name", key! "title", key! "summary",
      key! "tags", key! "externalDocs", key! "bindings", key! "examples", key! "traits"].map
    (fun k => (.message, k))
  ++ [(.correlationId, key! "$ref"), (.parameter, key! "schema")]
  ++ [key! "servers", key! "serverVariables", key! "channels", key! "securitySchemes", key! "correlationIds",
      key! "operationTraits", key! "messageTraits", key! "serverBindings", key! "channelBindings",
      key! "operationBindings", key! "messageBindings"].map (fun k => (.components, k))
  ++ [key! "title", key! "examples", key! "if", key! "then", key! "else", key! "readOnly", key! "writeOnly",
      key! "patternProperties", key! "additionalItems", key! "propertyNames", key! "contains", key! "not",
      key! "default", key! "discriminator", key! "externalDocs", key! "deprecated", key! "$id",
      key! "$schema", key! "$comment", key! "definitions", key! "dependencies", key! "contentEncoding",
      key! "contentMediaType"].map (fun k => (.schema, k))

end Verif.Decode
