import Verif.Model.Payload

/-!
# Header encoding of generated messages, and correlation ID accessors

Models the header parts of `toBrokerMessage` and `brokerMessageToX`
(pkg/codegen/generators/v3/templates/message.tmpl:107-167, 217-271; v2 template :98-158, 199-253) and the
accessors `CorrelationID`, `SetCorrelationID`, `SetAsResponseFrom` (v3 message.tmpl:279-305).
-/

namespace Verif.Headers

open Verif.Payload (Lib)

/-- Header types for which the generated code compiles: strings (also behind a reference), date-times,
objects. -/
inductive Kind
  | string
  | dateTime
  | object
  deriving DecidableEq, Repr

/-- A declared header: its name, type and `IsRequired`. Go struct fields are identified with the header
names (distinct Go names are the subject of C43). Simplified: `isFieldPointer` also looks at the list of required
names, which agrees with `IsRequired` except for a header that is only required by a merged part
(`C51_violated_merged_requirement`); the generated comparison of such a header with nil does not compile. -/
structure Field where
  key : String
  kind : Kind
  required : Bool
  deriving DecidableEq, Repr

/-- `isFieldPointer` (v3/templates/helpers.go:130-139); `force` is the option forcing pointers. No header
here is an array. With `force`, Go rejects a required date-time (`Convert`, C103). -/
def isPointer (force : Bool) (f : Field) : Bool := force || !f.required

/-- A header value. -/
inductive Val (J T : Type)
  | str (b : Bytes)
  | time (t : T)
  | obj (j : J)
  deriving DecidableEq, Repr

/-- A field of the header struct: a plain value or a pointer. -/
inductive Slot (J T : Type)
  | plain (v : Val J T)
  | ptr (v : Option (Val J T))
  deriving DecidableEq, Repr

/-- The value in a field, unless it is a nil pointer. -/
def Slot.val {J T : Type} : Slot J T → Option (Val J T)
  | .plain v => some v
  | .ptr o => o

/-- The header struct. -/
abbrev Struct (J T : Type) := String → Slot J T

/-- The kind of a value. -/
def Val.kind {J T : Type} : Val J T → Kind
  | .str _ => .string
  | .time _ => .dateTime
  | .obj _ => .object

/-- Header bytes of a value (message.tmpl:241-251, 254-264); `none` is an error of `json.Marshal`. -/
def encodeVal {J T : Type} (lib : Lib J T) : Val J T → Option Bytes
  | .str b => some b
  | .time t => some (lib.format t)
  | .obj j => lib.marshal j

/-- Adding the header of one field (message.tmpl:230-267); `none` is an error. -/
def encodeField {J T : Type} (lib : Lib J T) (h : Struct J T) (f : Field) (acc : GoMap String Bytes) :
    Option (GoMap String Bytes) :=
  match (h f.key).val with
  | none => if f.required then none else some acc
  | some v => (encodeVal lib v).map (fun b => acc.put f.key b)

/-- Adding the headers of all fields. -/
def encodeFields {J T : Type} (lib : Lib J T) (h : Struct J T) :
    List Field → GoMap String Bytes → Option (GoMap String Bytes)
  | [], acc => some acc
  | f :: fs, acc => (encodeField lib h f acc).bind (encodeFields lib h fs)

/-- The headers made by `toBrokerMessage` (message.tmpl:217-271). -/
def encode {J T : Type} (lib : Lib J T) (fs : List Field) (h : Struct J T) : Option (GoMap String Bytes) :=
  encodeFields lib h fs []

/-- Zero values (of `var msg X`, message.tmpl:55). -/
structure Zero (J T : Type) where
  time : T
  obj : J

/-- The zero value of a field. -/
def zeroSlot {J T : Type} (z : Zero J T) (force : Bool) (f : Field) : Slot J T :=
  if isPointer force f then .ptr none
  else .plain (match f.kind with
    | .string => .str []
    | .dateTime => .time z.time
    | .object => .obj z.obj)

/-- Reading the value of one received header (message.tmpl:121-161); `none` is an error returned.
`json.Unmarshal` into the nil pointer of an object always fails (:124). -/
def decodeVal {J T : Type} (lib : Lib J T) (force : Bool) (f : Field) (v : Bytes) : Option (Slot J T) :=
  if isPointer force f then
    match f.kind with
    | .object => none
    | .dateTime => (lib.parse v).map (fun t => .ptr (some (.time t)))
    | .string => some (.ptr (some (.str v)))
  else
    match f.kind with
    | .object => (lib.unmarshal v).map (fun j => .plain (.obj j))
    | .dateTime => (lib.parse v).map (fun t => .plain (.time t))
    | .string => some (.plain (.str v))

/-- The loop over the received headers, in the order Go iterates them (message.tmpl:109-166); unknown
headers are ignored. -/
def decodeLoop {J T : Type} (lib : Lib J T) (force : Bool) (fs : List Field) :
    List (String × Bytes) → Struct J T → Option (Struct J T)
  | [], h => some h
  | (k, v) :: rest, h =>
    match fs.find? (fun f => f.key == k) with
    | none => decodeLoop lib force fs rest h
    | some f =>
      match decodeVal lib force f v with
      | none => none
      | some s => decodeLoop lib force fs rest (fun k' => if k' = k then s else h k')

/-- The zero header struct: fields not declared do not exist, any value does. -/
def zeroStruct {J T : Type} (z : Zero J T) (force : Bool) (fs : List Field) : Struct J T := fun k =>
  match fs.find? (fun f => f.key == k) with
  | none => .ptr none
  | some f => zeroSlot z force f

/-- The header struct made by `brokerMessageToX` from the received headers. -/
def decode {J T : Type} (lib : Lib J T) (z : Zero J T) (force : Bool) (fs : List Field)
    (order : List (String × Bytes)) : Option (Struct J T) :=
  decodeLoop lib force fs order (zeroStruct z force fs)

/-- A message seen along the path to its correlation ID: at each level the other fields (`rest`) and
the field on the path, a struct (`obj`) or a pointer to one (`ptr`, nil or not); at the end the ID, required
(`plain`) or optional (`opt`). -/
inductive Tree (R : Type)
  | plain (id : String)
  | opt (id : Option String)
  | obj (rest : R) (child : Tree R)
  | nilPtr
  | ptr (rest : R) (child : Tree R)
  deriving DecidableEq, Repr

/-- `CorrelationID()` (message.tmpl:281-291): `none` is a nil dereference. A nil ID is "". -/
def corr {R : Type} : Tree R → Option String
  | .plain id => some id
  | .opt none => some ""
  | .opt (some id) => some id
  | .obj _ c => corr c
  | .nilPtr => none
  | .ptr _ c => corr c

/-- `SetCorrelationID(id)` (message.tmpl:294-296): `none` is a nil dereference. -/
def setCorr {R : Type} (id : String) : Tree R → Option (Tree R)
  | .plain _ => some (.plain id)
  | .opt _ => some (.opt (some id))
  | .obj r c => (setCorr id c).map (.obj r)
  | .nilPtr => none
  | .ptr r c => (setCorr id c).map (.ptr r)

/-- `SetAsResponseFrom(req)` (message.tmpl:301-304). -/
def setAsResponseFrom {R S : Type} (req : Tree S) (m : Tree R) : Option (Tree R) :=
  (corr req).bind (fun id => setCorr id m)

end Verif.Headers
