import Verif.Model.NatsSlow

/-! # Specification: messages that arrive are handled, however slow the handler is -/

namespace Verif.NatsSlow.Spec

/-- The messages that have arrived in a history, in order. -/
def arrived {M : Type} : List (Ev M) → List M
  | [] => []
  | .arrive m :: es => m :: arrived es
  | _ :: es => arrived es

/-- What is still on its way to the handler, oldest first. -/
def onTheWay {M : Type} (s : St M) : List M := s.queue ++ s.hand.toList ++ s.pending

/-- While nothing arrives, the library, the function and the listener each get a turn, in any order and among any others. -/
def Round {M : Type} (r : List (Ev M)) : Prop := arrived r = [] ∧ .call ∈ r ∧ .put ∈ r ∧ .handle ∈ r

end Verif.NatsSlow.Spec
