import Verif.Model.Inherit
import Verif.Props.Validations

/-! # C100: inherited constraints -/

namespace Verif.Inherit

open Validations (V merge Fld declared)

variable {refs : Nat → Option Nat}

/-- The constraints of a schema according to the document: its own, over which go those of the schema it refers to. -/
inductive Means (refs : Nat → Option Nat) (h0 : Heap) : Nat → V → Prop
  | own {s : Nat} : refs s = none → Means refs h0 s (h0 s)
  | ref {s t : Nat} {v : V} : refs s = some t → Means refs h0 t v → Means refs h0 s (merge (h0 s) v)

theorem setReference_other (h : Heap) (s q : Nat) (hq : q ≠ s) : setReference refs h s q = h q := by
  unfold setReference
  cases refs s with
  | none => rfl
  | some t => simp [hq]

theorem setReference_none (h : Heap) (s : Nat) (hs : refs s = none) : setReference refs h s = h := by
  unfold setReference; rw [hs]

theorem setReference_self (h : Heap) (s t : Nat) (hs : refs s = some t) : setReference refs h s s = merge (h s) (h t) := by
  unfold setReference; rw [hs]; simp

/-- A schema that is no reference keeps its constraints. -/
theorem process_root (s : Nat) (hs : refs s = none) : ∀ (order : List Nat) (h : Heap), process refs h order s = h s
  | [], _ => rfl
  | q :: order, h => by
    show process refs (setReference refs h q) order s = h s
    rw [process_root s hs order]
    by_cases hq : s = q
    · subst hq; rw [setReference_none h s hs]
    · exact setReference_other h q s hq

/-- **C100** (part that holds): a reference to a schema that is no reference itself has the constraints the document says,
in whatever order, and however often, schemas are processed. -/
theorem C100_direct_partial (h0 : Heap) (s t : Nat) (hs : refs s = some t) (ht : refs t = none) (order : List Nat) (hm : s ∈ order) :
    process refs h0 order s = merge (h0 s) (h0 t) ∧ Means refs h0 s (process refs h0 order s) := by
  have key : ∀ (order : List Nat) (h : Heap), h t = h0 t → (h s = h0 s ∨ h s = merge (h0 s) (h0 t)) →
      (s ∈ order ∨ h s = merge (h0 s) (h0 t)) → process refs h order s = merge (h0 s) (h0 t) := by
    intro order
    induction order with
    | nil =>
      intro h _ _ h3
      rcases h3 with h3 | h3
      · cases h3
      · exact h3
    | cons q order ih =>
      intro h h1 h2 h3
      show process refs (setReference refs h q) order s = _
      have hst : s ≠ t := fun e => by rw [e, ht] at hs; cases hs
      have h1' : setReference refs h q t = h0 t := by
        by_cases hq : t = q
        · subst hq; rw [setReference_none h t ht]; exact h1
        · rw [setReference_other h q t hq]; exact h1
      by_cases hq : s = q
      · subst hq
        have : setReference refs h s s = merge (h0 s) (h0 t) := by
          rw [setReference_self h s t hs, h1]
          rcases h2 with h2 | h2
          · rw [h2]
          · rw [h2, Validations.C49_idempotent]
        exact ih _ h1' (.inr this) (.inr this)
      · have e := setReference_other (refs := refs) h q s hq
        refine ih _ h1' (by rw [e]; exact h2) ?_
        rcases h3 with h3 | h3
        · rcases List.mem_cons.1 h3 with h3 | h3
          · exact absurd h3 hq
          · exact .inl h3
        · exact .inr (by rw [e]; exact h3)
  have e := key order h0 rfl (.inl rfl) (.inl hm)
  exact ⟨e, e ▸ .ref hs (.own ht)⟩

/-- Every schema is processed after the one it refers to, and once. -/
def Ordered (refs : Nat → Option Nat) : List Nat → List Nat → Prop
  | _, [] => True
  | done, s :: rest => s ∉ done ∧ (∀ t, refs s = some t → refs t = none ∨ t ∈ done) ∧ Ordered refs (s :: done) rest

theorem process_done : ∀ (order done : List Nat) (h : Heap) (s : Nat), Ordered refs done order → s ∈ done → process refs h order s = h s
  | [], _, _, _, _, _ => rfl
  | q :: order, done, h, s, ho, hs => by
    show process refs (setReference refs h q) order s = h s
    have hq : s ≠ q := fun e => ho.1 (e ▸ hs)
    rw [process_done order (q :: done) _ s ho.2.2 (.tail _ hs), setReference_other h q s hq]

/-- **C100** (part that holds): when every schema is processed after the one it refers to, all have the constraints the
document says, through chains of references of any length. -/
theorem C100_chain_partial (h0 : Heap) (order : List Nat) (ho : Ordered refs [] order) (s : Nat) (hs : s ∈ order) :
    Means refs h0 s (process refs h0 order s) := by
  have key : ∀ (order done : List Nat) (h : Heap), Ordered refs done order → (∀ q ∈ done, Means refs h0 q (h q)) →
      (∀ q, q ∉ done → h q = h0 q) → ∀ s, s ∈ order → Means refs h0 s (process refs h order s) := by
    intro order
    induction order with
    | nil => intro _ _ _ _ _ _ hs; cases hs
    | cons q order ih =>
      intro done h ho hd hn s hs
      show Means refs h0 s (process refs (setReference refs h q) order s)
      have hq : Means refs h0 q (setReference refs h q q) := by
        cases hr : refs q with
        | none => rw [setReference_none h q hr, hn q ho.1]; exact .own hr
        | some t =>
          rw [setReference_self h q t hr, hn q ho.1]
          rcases ho.2.1 t hr with ht | ht
          · by_cases htd : t ∈ done
            · exact .ref hr (hd t htd)
            · rw [hn t htd]; exact .ref hr (.own ht)
          · exact .ref hr (hd t ht)
      have hd' : ∀ p ∈ q :: done, Means refs h0 p (setReference refs h q p) := by
        intro p hp
        by_cases e : p = q
        · rw [e]; exact hq
        · rw [setReference_other h q p e]
          exact hd p ((List.mem_cons.1 hp).resolve_left e)
      have hn' : ∀ p, p ∉ q :: done → setReference refs h q p = h0 p := by
        intro p hp
        have e : p ≠ q := fun e => hp (e ▸ .head _)
        rw [setReference_other h q p e]
        exact hn p (fun hm => hp (.tail _ hm))
      by_cases hso : s ∈ order
      · exact ih (q :: done) _ ho.2.2 hd' hn' s hso
      · have e : s = q := (List.mem_cons.1 hs).resolve_right hso
        subst e
        rw [process_done order (s :: done) _ s ho.2.2 (.head _)]
        exact hq
  exact key order [] h0 ho (fun _ h => nomatch h) (fun _ _ => rfl) s hs

/-- What the document says is one thing. -/
theorem means_unique {h0 : Heap} {s : Nat} {v w : V} (hv : Means refs h0 s v) (hw : Means refs h0 s w) : v = w := by
  induction hv generalizing w with
  | own hs =>
    cases hw with
    | own _ => rfl
    | ref hs' _ => rw [hs] at hs'; cases hs'
  | ref hs _ ih =>
    cases hw with
    | own hs' => rw [hs] at hs'; cases hs'
    | ref hs' hm =>
      rw [hs] at hs'
      cases hs'
      rw [ih hm]

/-- `0` is a property that refers to `1`, which refers to `2`. -/
def chain (s : Nat) : Option Nat := if s = 0 then some 1 else if s = 1 then some 2 else none

def chainHeap (s : Nat) : V := if s = 2 then { maxLength := 5 } else {}

example : Ordered chain [] [2, 1, 0] ∧ (process chain chainHeap [2, 1, 0] 0).maxLength = 5 :=
  ⟨⟨by simp, by simp [chain], by simp, by simp [chain], by simp, by simp [chain], trivial⟩, by decide⟩

theorem tag_found (v : V) (hv : v = { maxLength := 5 }) :
    Validations.directives v true false = [.omitempty, .num "max".toList 5] := by
  subst hv; rfl

theorem tag_lost (v : V) (hv : v = {}) : Validations.directives v true false = [] := by
  subst hv; rfl

theorem chain_lost (v : V) (hv : v = {}) : ¬ Means chain chainHeap 0 v := by
  subst hv
  intro h
  have := means_unique h (.ref (t := 1) rfl (.ref (t := 2) rfl (.own rfl)))
  exact absurd this (by decide)

/-- **C100** violated: through two references the constraint, and with it the tag of the generated field, is there or not
depending on the order in which Go ranges over the components. -/
theorem C100_violated_order :
    Validations.directives (process chain chainHeap [2, 1, 0] 0) true false = [.omitempty, .num "max".toList 5] ∧
    Validations.directives (process chain chainHeap [0, 1, 2] 0) true false = [] ∧
    ¬ Means chain chainHeap 0 (process chain chainHeap [0, 1, 2] 0) :=
  ⟨tag_found _ (by decide), tag_lost _ (by decide), chain_lost _ (by decide)⟩

end Verif.Inherit
