import Verif.Base.Json

/-!
# Payloads behind two references

A payload `$ref` to a schema that is itself a `$ref` to a string: the template looks one reference far
(`.Payload.ReferenceTo`, pkg/codegen/generators/v3/templates/message.tmpl:57-61 and 178-182) and finds a schema without a
type. The payload's Go type is text all the same (`type A B`, `type B string`).
-/

namespace Verif.PayloadRef

/-- The number of references between the payload and the string. -/
inductive Via
  | direct
  | one
  | more
  deriving DecidableEq, Repr

/-- The payload bytes made by `toBrokerMessage`: `[]byte(msg.Payload)` in all cases (message.tmpl:212-215). -/
def encode : Via → Str → Str
  | _, s => s

/-- `json.Unmarshal` into text: the contents of a JSON string; `null` leaves the empty text; others are errors. -/
def unmarshalText (b : Str) : Option Str :=
  match Json.parse b with
  | some (.str s) => some s
  | some .null => some []
  | _ => none

/-- The payload read by `brokerMessageToX`: a string behind at most one reference is taken as it is
(message.tmpl:64-73, 98-105); the type of a reference is empty, so JSON is expected (:89-96). -/
def decode : Via → Str → Option Str
  | .direct, b => some b
  | .one, b => some b
  | .more, b => unmarshalText b

end Verif.PayloadRef
