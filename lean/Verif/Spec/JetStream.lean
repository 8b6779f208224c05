import Verif.Model.JetStream

/-!
# What is expected of the JetStream controller (C30–C32)
-/

namespace Verif.JetStream

/-- NATS subject matching, on tokens (https://docs.nats.io/nats-concepts/subjects): a literal token
matches itself, `*` exactly one (non-empty) token, a final `>` one or more tokens. -/
inductive Matches : List Str → List Str → Prop
  | nil : Matches [] []
  | lit {t : Str} {ps ss : List Str} : t ≠ ['*'] → t ≠ ['>'] → Matches ps ss → Matches (t :: ps) (t :: ss)
  | star {t : Str} {ps ss : List Str} : t ≠ [] → Matches ps ss → Matches (['*'] :: ps) (t :: ss)
  | rest {ss : List Str} : ss ≠ [] → Matches [['>']] ss

/-- No queue without reader, no crash, every subscription reads the queue of its channel, nothing else reads a
queue, and the controller consumes from the server exactly as long as there is a subscription. -/
structure Healthy (s : St) : Prop where
  noCrash : s.crashed = false
  noOrphan : ∀ ch q, s.chans.get ch = some q → ∃ id, (id, q) ∈ s.readers
  served : ∀ id ch, (id, ch) ∈ s.subs → ∃ q, s.chans.get ch = some q ∧ (id, q) ∈ s.readers
  noOther : ∀ id q, (id, q) ∈ s.readers → ∃ ch, (id, ch) ∈ s.subs ∧ s.chans.get ch = some q
  consumes : s.consuming = true ↔ s.subs ≠ []

end Verif.JetStream
