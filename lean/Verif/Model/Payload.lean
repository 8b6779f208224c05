import Verif.Model.Broker

/-!
# Payload encoding of generated messages

Models the payload parts of `toBrokerMessage` and `brokerMessageToX`
(pkg/codegen/generators/v3/templates/message.tmpl:57-105, 178-215; the v2 template has the same lines,
pkg/codegen/generators/v2/templates/message.tmpl:48-96, 160-197). `encoding/json` and `time` are parameters.
-/

namespace Verif.Payload

/-- `binary.LittleEndian` on `w` bytes: the bytes of `n`, least significant first. -/
def lePut : Nat → Nat → Bytes
  | 0, _ => []
  | w + 1, n => UInt8.ofNat (n % 256) :: lePut w (n / 256)

/-- `binary.BigEndian.PutUint32/64`: most significant byte first. -/
def bePut (w n : Nat) : Bytes := (lePut w n).reverse

/-- `binary.LittleEndian.Uint32/64` on exactly the bytes given. -/
def leGet : Bytes → Nat
  | [] => 0
  | b :: bs => b.toNat + 256 * leGet bs

/-- Payload types for which the generated code compiles, plus numbers (for which Go rejects the decoder
because its result is unused, message.tmpl:82-88 and :98). `dateTime` is a string with format date-time
when time types are generated; behind a reference Go rejects it (`Convert`, C103). -/
inductive Ty
  | string
  | dateTime
  | int32
  | int64
  | number
  | json
  deriving DecidableEq, Repr

/-- Payload of a message: the type of the schema, and whether the payload is a `$ref` to it (its own
format is then empty, message.tmpl:193). -/
structure Cfg where
  ty : Ty
  isRef : Bool
  deriving DecidableEq, Repr

/-- The libraries used: JSON of values of type `J`, `time.Time` values of type `T`, bits of a float64. -/
structure Lib (J T : Type) where
  marshal : J → Option Bytes
  unmarshal : Bytes → Option J
  /-- `t.Format(time.RFC3339)` -/
  format : T → Bytes
  /-- `time.Parse(time.RFC3339, s)` -/
  parse : Bytes → Option T
  /-- what RFC 3339 with seconds keeps of a time -/
  trunc : T → T

/-- Assumptions on the libraries. -/
structure Lib.Lawful {J T : Type} (lib : Lib J T) : Prop where
  json : ∀ v b, lib.marshal v = some b → lib.unmarshal b = some v
  time : ∀ t, lib.parse (lib.format t) = some (lib.trunc t)

/-- The Go value of a payload (schema_name.tmpl); a number is represented by its 64 bits. -/
def Value (J T : Type) : Ty → Type
  | .string => Bytes
  | .dateTime => T
  | .int32 => BitVec 32
  | .int64 => BitVec 64
  | .number => BitVec 64
  | .json => J

/-- Outcome of the decoder. -/
inductive Dec (α : Type)
  | ok (v : α)
  | error
  | panicked
  deriving DecidableEq, Repr

/-- Payload bytes made by `toBrokerMessage` (message.tmpl:184-215); `none` is an error of `json.Marshal`.
An `int32` behind a reference is written on 8 bytes since the format is looked up on the reference (:193);
the conversion `uint64(msg.Payload)` extends the sign. -/
def encode {J T : Type} (lib : Lib J T) : (c : Cfg) → Value J T c.ty → Option Bytes
  | ⟨.string, _⟩, v => some v
  | ⟨.dateTime, _⟩, t => some (lib.format t)
  | ⟨.int32, false⟩, (v : BitVec 32) => some (bePut 4 v.toNat)
  | ⟨.int32, true⟩, (v : BitVec 32) => some (bePut 8 (v.signExtend 64).toNat)
  | ⟨.int64, _⟩, (v : BitVec 64) => some (bePut 8 v.toNat)
  | ⟨.number, _⟩, (v : BitVec 64) => some (bePut 8 v.toNat)
  | ⟨.json, _⟩, v => lib.marshal v

/-- Payload read by `brokerMessageToX` (message.tmpl:63-105). `Uint32`/`Uint64` panic on short payloads and
ignore what follows. The value of a number is never stored (:98 tests for type "numeric"), so it stays 0. -/
def decode {J T : Type} (lib : Lib J T) : (c : Cfg) → Bytes → Dec (Value J T c.ty)
  | ⟨.string, _⟩, b => .ok b
  | ⟨.dateTime, _⟩, b => match lib.parse b with
    | some t => .ok t
    | none => .error
  | ⟨.int32, _⟩, b => if b.length < 4 then .panicked else .ok (BitVec.ofNat 32 (leGet (b.take 4)))
  | ⟨.int64, _⟩, b => if b.length < 8 then .panicked else .ok (BitVec.ofNat 64 (leGet (b.take 8)))
  | ⟨.number, _⟩, b => if b.length < 8 then .panicked else .ok (0 : BitVec 64)
  | ⟨.json, _⟩, b => match lib.unmarshal b with
    | some v => .ok v
    | none => .error

end Verif.Payload
