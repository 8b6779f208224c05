/-!
# Acknowledgement of a received message

Models `pkg/extensions/broker.go`, lines 98-134: `AcknowledgeableBrokerMessage` with `Ack` and `Nak`.
-/

namespace Verif.Ack

/-- The two calls a consumer can make on a received message, and the two hooks a broker provides
(`BrokerAcknowledgment.AckMessage` / `NakMessage`). pkg/extensions/broker.go:120 and :129. -/
inductive Kind
  | ack
  | nak
  deriving DecidableEq, Repr

/-- Fields of `AcknowledgeableBrokerMessage` (pkg/extensions/broker.go:102-107): the `acked` flag;
`hooks` records the hook calls made on `acknowledgment`, oldest first. -/
structure St where
  acked : Bool
  hooks : List Kind
  deriving DecidableEq, Repr

/-- `NewAcknowledgeableBrokerMessage` (pkg/extensions/broker.go:111-116). -/
def init : St := ⟨false, []⟩

/-- `Ack` (pkg/extensions/broker.go:120-125) and `Nak` (pkg/extensions/broker.go:129-134). -/
def step (s : St) : Kind → St
  | .ack => if !s.acked then { hooks := s.hooks ++ [.ack], acked := true } else s
  | .nak => if !s.acked then { hooks := s.hooks ++ [.nak], acked := true } else s

/-- A sequence of calls on one message. -/
def run (s : St) : List Kind → St
  | [] => s
  | k :: ks => run (step s k) ks

end Verif.Ack
