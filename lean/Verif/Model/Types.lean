import Verif.Model.ChannelAddr
import Verif.Model.Validations

/-!
# Generated type declarations

Models the templates that declare types: pkg/codegen/generators/v3/templates/{schema_name,schema_definition,
message,types}.tmpl (the first two are the same in v2) and the helpers they call.

The input is a processed document: names are given, references are followed. A schema that is shared through
pointers is repeated in the tree; a reference is the name of the schema it leads to.

Simplifications: texts that declare no type (functions, comments, constants, parameter structs) are left out,
except for the lines of fields, which are modelled as text at the end of the file.
-/

namespace Verif.Types

/-- The configured naming scheme (`namify`), and whether dates are generated
(pkg/utils/template/helpers.go:82-84, 147-154). -/
structure Cfg where
  nm : Str → Str
  dates : Bool

/-- The fields of a schema the templates read (pkg/asyncapi/v3/schema.go:30-66). `choice`: there is an `anyOf` or a
`oneOf`; `ref`: the name of `ReferenceTo`. -/
structure Info where
  name : Str
  goType : Str := []
  type : Str := []
  format : Str := []
  choice : Bool := false
  ref : Option Str := none
  deriving DecidableEq, Repr

/-- A schema: its own fields, properties, items, additional properties. -/
inductive Sch
  | node (i : Info) (props : List (Str × Sch)) (items : Option Sch) (extra : Option Sch)

def Sch.info : Sch → Info
  | .node i _ _ _ => i
def Sch.props : Sch → List (Str × Sch)
  | .node _ p _ _ => p
def Sch.items : Sch → Option Sch
  | .node _ _ i _ => i
def Sch.extra : Sch → Option Sch
  | .node _ _ _ e => e

/-- The type names of JSON Schema the templates know. -/
def tObject : Str := ['o', 'b', 'j', 'e', 'c', 't']
def tArray : Str := ['a', 'r', 'r', 'a', 'y']
def tBoolean : Str := ['b', 'o', 'o', 'l', 'e', 'a', 'n']
def tString : Str := ['s', 't', 'r', 'i', 'n', 'g']
def tInteger : Str := ['i', 'n', 't', 'e', 'g', 'e', 'r']
def tNumber : Str := ['n', 'u', 'm', 'b', 'e', 'r']

/-- Go type expressions the templates write. -/
inductive Ty
  | named (n : Str)
  | custom (text : Str)
  | bool
  | string
  | date
  | time
  | int32
  | int64
  | float32
  | float64
  | slice (t : Ty)
  | unknown (type : Str)
  | any
  deriving DecidableEq, Repr

/-- Failures of the template execution. -/
inductive Err
  | nilPointer     -- a field of a nil schema is read
  | noTemplate     -- the template "schema" does not exist
  deriving DecidableEq, Repr

/-- The template "schema-name" (schema_name.tmpl). -/
def schemaName (c : Cfg) : Sch → Except Err Ty
  | .node i _ items _ =>
    if i.goType ≠ [] then .ok (.custom i.goType)                                  -- 4-5
    else if i.type ≠ [] then
      if i.type = tObject then .ok (.named (c.nm i.name))                         -- 10-11
      else if i.type = tBoolean then .ok .bool                                    -- 14-15
      else if i.type = tString then                                               -- 18-25
        if c.dates ∧ i.format = "date".toList then .ok .date
        else if c.dates ∧ i.format = "date-time".toList then .ok .time
        else .ok .string
      else if i.type = tInteger then                                              -- 28-33
        if i.format = "int32".toList then .ok .int32 else .ok .int64
      else if i.type = tArray then                                                -- 36-37
        match items with
        | none => .error .nilPointer
        | some s => match schemaName c s with
          | .ok t => .ok (.slice t)
          | .error e => .error e
      else if i.type = tNumber then                                               -- 40-45
        if i.format = "float".toList then .ok .float32 else .ok .float64
      else .ok (.unknown i.type)                                                  -- 48-49
    else if i.choice then .error .noTemplate                                      -- 53-68
    else match i.ref with
      | some r => .ok (.named (c.nm r))                                           -- 71-72
      | none => .ok .any                                                          -- 75-78

/-- What a declaration says: a struct with the types of its fields, or another type. -/
inductive Body
  | struct (fields : List (Str × Ty)) (extra : Option Ty)
  | alias (t : Ty)
  deriving DecidableEq, Repr

/-- `type name body` -/
structure Decl where
  name : Str
  body : Body
  deriving DecidableEq, Repr

/-- The types of the fields of a struct (schema_definition.tmpl:12-19), in key order. -/
def fieldTypes (c : Cfg) : List (Str × Sch) → Except Err (List (Str × Ty))
  | [] => .ok []
  | (k, s) :: rest =>
    match schemaName c s with
    | .error e => .error e
    | .ok t => match fieldTypes c rest with
      | .error e => .error e
      | .ok ts => .ok ((k, t) :: ts)

/-- The type of additional properties (schema_definition.tmpl:21-24). -/
def extraType (c : Cfg) : Option Sch → Except Err (Option Ty)
  | none => .ok none
  | some s => match schemaName c s with
    | .error e => .error e
    | .ok t => .ok (some t)

/-- The declaration of an object (schema_definition.tmpl:9-25). -/
def structDecl (c : Cfg) (i : Info) (props : List (Str × Sch)) (extra : Option Sch) : Except Err Decl :=
  match fieldTypes c props with
  | .error e => .error e
  | .ok fs => match extraType c extra with
    | .error e => .error e
    | .ok x => .ok ⟨c.nm i.name, .struct fs x⟩

/-- The declaration of any other schema (schema_definition.tmpl:33-35). -/
def aliasDecl (c : Cfg) (s : Sch) : Except Err Decl :=
  match schemaName c s with
  | .error e => .error e
  | .ok t => .ok ⟨s.info.name, .alias t⟩

/-- Concatenation of outputs. -/
def cat (a b : Except Err (List Decl)) : Except Err (List Decl) :=
  match a with
  | .error e => .error e
  | .ok x => match b with
    | .error e => .error e
    | .ok y => .ok (x ++ y)

/-- One declaration as an output. -/
def one (d : Except Err Decl) : Except Err (List Decl) :=
  match d with
  | .error e => .error e
  | .ok x => .ok [x]

/-! `GetChildrenObjectSchemas` (v3/templates/helpers.go:16-42) with the template "schema-definition" applied to each
result (schema_definition.tmpl:45-49). The order of properties is the iteration order of a map. -/
mutual
/-- What a schema contributes as a child: itself when it is an object, its items when it is an array of objects. -/
def child (c : Cfg) : Sch → Except Err (List Decl)
  | .node i props items extra =>
    if i.type = tObject then
      cat (one (structDecl c i props extra))
        (cat (childProps c props) (cat (childOpt c items) (childOpt c extra)))
    else if i.type = tArray then
      match items with
      | none => .ok []
      | some t => if t.info.type = tObject then child c t else .ok []
    else .ok []
/-- The children among the properties. -/
def childProps (c : Cfg) : List (Str × Sch) → Except Err (List Decl)
  | [] => .ok []
  | (_, s) :: rest => cat (child c s) (childProps c rest)
/-- The children among items or additional properties. -/
def childOpt (c : Cfg) : Option Sch → Except Err (List Decl)
  | none => .ok []
  | some s => child c s
end

/-- The children of a schema. -/
def children (c : Cfg) (s : Sch) : Except Err (List Decl) :=
  cat (childProps c s.props) (cat (childOpt c s.items) (childOpt c s.extra))

/-- The template "schema-definition" (schema_definition.tmpl:1-51). -/
def decls (c : Cfg) (s : Sch) : Except Err (List Decl) :=
  cat (one (if s.info.type = tObject then structDecl c s.info s.props s.extra else aliasDecl c s))
    (if s.info.type = tObject ∨ s.info.type = tArray then children c s else .ok [])

/-! ## Messages and documents (v3) -/

/-- Where a message is: in a channel or in the components. -/
inductive MRef
  | chan (c m : Str)
  | comp (m : Str)
  deriving DecidableEq, Repr

/-- A message (pkg/asyncapi/v3/message.go:38-62): its name, its reference, headers and payload. -/
structure Msg where
  name : Str
  ref : Option MRef := none
  headers : Option Sch := none
  payload : Option Sch := none

/-- Is the schema a reference? (`ReferenceTo` is set) -/
def Sch.isRef (s : Sch) : Bool := s.info.ref.isSome

/-- `"Headers"`, `"Payload"` -/
def fHeaders : Str := ['H', 'e', 'a', 'd', 'e', 'r', 's']
def fPayload : Str := ['P', 'a', 'y', 'l', 'o', 'a', 'd']

/-- The definition of the headers of a message (message.tmpl:12-14). -/
def headersDecls (c : Cfg) : Option Sch → Except Err (List Decl)
  | none => .ok []
  | some h => if h.isRef then .ok [] else decls c h

/-- The definition of the payload of a message (message.tmpl:17-21). -/
def payloadDecls (c : Cfg) (p : Sch) : Except Err (List Decl) :=
  if (p.info.type = tObject ∨ p.info.type = tArray) ∧ p.isRef = false then decls c p else .ok []

/-- The struct of a message (message.tmpl:28-39). -/
def msgStruct (c : Cfg) (m : Msg) (p : Sch) : Except Err Decl :=
  match extraType c m.headers with
  | .error e => .error e
  | .ok h => match schemaName c p with
    | .error e => .error e
    | .ok t => .ok ⟨c.nm m.name, .struct ((match h with
        | some th => [(fHeaders, th)]
        | none => []) ++ [(fPayload, t)]) none⟩

/-- The template "message" (message.tmpl:1-39). -/
def msgDecls (c : Cfg) (m : Msg) : Except Err (List Decl) :=
  match m.ref with
  | some _ => .ok []
  | none => match m.payload with
    | none => .error .nilPointer
    | some p => cat (headersDecls c m.headers) (cat (payloadDecls c p) (one (msgStruct c m p)))

/-- An operation (pkg/asyncapi/v3/operation.go:26-49): the messages it lists (references only), its channel. -/
structure Op where
  messages : List MRef
  channel : Str

/-- A document: the messages of its channels, component messages and schemas, operations. Maps are lists in
iteration order. -/
structure Doc where
  channels : GoMap Str (GoMap Str Msg)
  messages : GoMap Str Msg
  schemas : GoMap Str Sch
  ops : List Op

/-- All outputs one after the other. -/
def catAll : List (Except Err (List Decl)) → Except Err (List Decl)
  | [] => .ok []
  | a :: rest => cat a (catAll rest)

/-- The template "types" (types.tmpl:59-85). -/
def docDecls (c : Cfg) (d : Doc) : Except Err (List Decl) :=
  cat (catAll ((d.channels.flatMap (fun e => e.2)).map (fun e => msgDecls c e.2)))
    (cat (catAll (d.messages.map (fun e => msgDecls c e.2))) (catAll (d.schemas.map (fun e => decls c e.2))))

/-- `ReferenceMessage` (pkg/asyncapi/v3/specification.go:270-291, 704-706, 742-745); `none`: no such message. -/
def Doc.look (d : Doc) : MRef → Option Msg
  | .chan c m => match d.channels.get c with
    | some ms => ms.get m
    | none => none
  | .comp m => d.messages.get m

/-- `Message.Follow` (v3/message.go:487-492): one step. -/
def Doc.follow (d : Doc) (m : Msg) : Option Msg :=
  match m.ref with
  | none => some m
  | some r => d.look r

/-- The message of an operation as `OpToMsgTypeName` finds it (v3/templates/helpers.go:79-87, v3/operation.go:185-192,
v3/channel.go:156-161). `none`: no message, or a reference to nothing. -/
def Doc.opMessage (d : Doc) (op : Op) : Option Msg :=
  match op.messages with
  | r :: _ => d.look r                     -- op.Messages[0].Follow()
  | [] => match d.channels.get op.channel with
    | some ((_, m) :: _) => match d.follow m with
      | some m' => d.follow m'
      | none => none
    | _ => none

/-- The type the controller uses for the messages of an operation. -/
def Doc.opType (c : Cfg) (d : Doc) (op : Op) : Option Str := (d.opMessage op).map (fun m => c.nm m.name)

/-! ## Lines of fields, as text -/

/-- `describeStruct` on the schema; the text is arbitrary, prefixed line by line
(pkg/utils/template/helpers.go:124-133). -/
def describe (text : Str) : Str := ChannelAddr.multiLineComment text

/-- The warnings written for unknown types and untyped schemas (schema_name.tmpl:49, 76-78). -/
def warnUnknown : Str := " WARNING: no generation occured here as it has unknown type '".toList
def warnAny : Str := "// WARNING: potential error in AsyncAPI generation\n// Infos on type: ".toList

/-- The text of a type expression (schema_name.tmpl); `text` is what `%+v` prints for the schema. -/
def Ty.text (text : Str) : Ty → Str
  | .named n => n
  | .custom t => t
  | .bool => "bool".toList
  | .string => "string".toList
  | .date => "civil.Date".toList
  | .time => "time.Time".toList
  | .int32 => "int32".toList
  | .int64 => "int64".toList
  | .float32 => "float32".toList
  | .float64 => "float64".toList
  | .slice t => '[' :: ']' :: t.text text
  | .unknown ty => '/' :: '/' :: (warnUnknown ++ ty ++ "'".toList)
  | .any => "interface{}".toList ++
    '\n' :: (warnAny ++ describe text)

/-- The line of a field (schema_definition.tmpl:18): name, type, struct tag. -/
def fieldText (name : Str) (pointer : Bool) (t : Ty) (text tag : Str) : Str :=
  name ++ ' ' :: ((if pointer then ['*'] else []) ++ t.text text ++ ' ' :: '`' :: (tag ++ ['`']))

/-- The struct tag of a field (schema_definition.tmpl:18, pkg/codegen/generators/helpers.go:19-29, 66-74): `key` is the
converted name of the property, `validate` the value of the validation tag, empty when there is none. -/
def tagText (v : Validations.V) (key validate : Str) : Str :=
  "json:\"".toList ++ Validations.jsonTag v key ++ '"' :: (if validate = [] then [] else " validate:\"".toList ++ validate ++ ['"'])

/-- The line of the additional properties (schema_definition.tmpl:23). -/
def extraText (t : Ty) (text : Str) : Str :=
  "AdditionalProperties map[string]".toList ++ t.text text ++ " `json:\"-\"`".toList

end Verif.Types
