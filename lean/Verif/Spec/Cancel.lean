import Verif.Model.Cancel

/-! # What users expect of a cancelled subscription (C02, C03) -/

namespace Verif.Cancel

/-- The broker-side cleanup was executed, and the message channel is closed. -/
def TornDown (s : St) : Prop := .cleanup ∈ s.log ∧ .closeMessages ∈ s.log

/-- Call `i` to `Cancel` has returned. -/
def Returned (s : St) (i : Nat) : Prop :=
  s.c i = .retToken ∨ s.c i = .retClosed ∨ s.c i = .retCtx

/-- Call `i` to `Cancel` was made and has not returned. -/
def Pending (s : St) (i : Nat) : Prop := s.c i = .sending ∨ s.c i = .selecting

/-- States some schedule leads to, starting with an open subscription. -/
def Reachable (cap : Nat) (acts : List Act) (s : St) : Prop := run (init cap) acts = some s

/-- At most one call to `Cancel` is made in the schedule. -/
def OneCaller (acts : List Act) : Prop := ∀ i, .call i ∈ acts → i = 0

/-- Actions of the environment: calling `Cancel`, expiry of a context. All the others are steps of
goroutines already running. -/
def Act.isEnv : Act → Bool
  | .call _ => true
  | .expire _ => true
  | _ => false

instance (s : St) : Decidable (TornDown s) := by unfold TornDown; infer_instance
instance (s : St) (i : Nat) : Decidable (Returned s i) := by unfold Returned; infer_instance
instance (s : St) (i : Nat) : Decidable (Pending s i) := by unfold Pending; infer_instance

end Verif.Cancel
