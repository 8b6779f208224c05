import Verif.Model.NatsOrder

/-! # Specification: published messages reach the subscriptions made before -/

namespace Verif.NatsOrder.Spec

/-- The message has reached the subscription, or another one to the channel if they share a queue group. -/
def Reached (s : St) (x : Sub) (m : Nat) : Prop :=
  ∃ d ∈ s.got, d.msg = m ∧ (d.to = x ∨ (x.group ≠ [] ∧ d.to.group = x.group ∧ d.to.ch = x.ch))

/-- The message is published in the history on this channel only. -/
def On (es : List Ev) (m : Nat) (ch : Str) : Prop := ∀ c ch', Ev.publish c m ch' ∈ es → ch' = ch

/-- The message is published in the history by this controller only. -/
def By (es : List Ev) (m c : Nat) : Prop := ∀ c' ch', Ev.publish c' m ch' ∈ es → c' = c

/-- The message is not published in the history. -/
def Fresh (es : List Ev) (m : Nat) : Prop := ∀ c ch, Ev.publish c m ch ∉ es

/-- The subscription is made at most once in the history. -/
def MadeOnce (es : List Ev) (x : Sub) : Prop :=
  (∀ c, Ev.subscribe c x ∉ es) ∨
  ∃ p c q, es = p ++ [.subscribe c x] ++ q ∧ (∀ c, Ev.subscribe c x ∉ p) ∧ ∀ c, Ev.subscribe c x ∉ q

/-- How often the server takes a command from a connection in the history. -/
def turns (c : Nat) : List Ev → Nat
  | [] => 0
  | .take d _ :: es => (if d = c then 1 else 0) + turns c es
  | _ :: es => turns c es

end Verif.NatsOrder.Spec
