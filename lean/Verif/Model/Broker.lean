import Verif.Base.GoMap

/-! # Broker messages (pkg/extensions/broker.go:71-81) -/

namespace Verif

/-- `[]byte` contents. -/
abbrev Bytes := List UInt8

/-- `BrokerMessage` (pkg/extensions/broker.go:72-75). `none` is Go's `nil` map or slice. -/
structure BrokerMessage where
  headers : Option (GoMap String Bytes)
  payload : Option Bytes
  deriving DecidableEq, Repr

namespace BrokerMessage

/-- Go's zero value, received from a closed and drained channel. -/
def zero : BrokerMessage := ⟨none, none⟩

/-- `IsUninitialized` (pkg/extensions/broker.go:79-81). -/
def isUninitialized (m : BrokerMessage) : Bool := m.headers.isNone && m.payload.isNone

end BrokerMessage
end Verif
