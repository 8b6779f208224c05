import Verif.Model.SchemaMerge
import Verif.Props.Dedup

/-! # C48: schema composition -/

namespace Verif.SchemaMerge

/-- First of two. -/
def orElse {α : Type} : Option α → Option α → Option α
  | some a, _ => some a
  | none, b => b

theorem addProps_get (add : List (Str × Ref)) : ∀ (props : GoMap Str Ref) (k : Str),
    (addProps props add).get k = orElse (props.get k) (GoMap.get add k) := by
  induction add with
  | nil => intro props k; cases h : props.get k <;> simp [addProps, orElse, h]
  | cons e add ih =>
    obtain ⟨a, v⟩ := e
    intro props k
    simp only [addProps, GoMap.get_cons]
    cases ha : props.get a with
    | some w =>
      simp only
      rw [ih]
      by_cases hak : a = k
      · subst hak; simp [ha, orElse]
      · simp [hak]
    | none =>
      simp only
      rw [ih, GoMap.get_put]
      by_cases hak : a = k
      · subst hak; simp [ha, orElse]
      · simp [hak]

theorem addRefProps_get (look : Ref → Sch) (add : List (Str × Ref)) : ∀ (props : GoMap Str Ref) (req : List Str) (k : Str),
    (addRefProps look props req add).1.get k = orElse (props.get k) ((GoMap.get add k).map (adopt look)) := by
  induction add with
  | nil => intro props req k; cases h : props.get k <;> simp [addRefProps, orElse, h]
  | cons e add ih =>
    obtain ⟨a, v⟩ := e
    intro props req k
    simp only [addRefProps, GoMap.get_cons]
    cases ha : props.get a with
    | some w =>
      simp only
      rw [ih]
      by_cases hak : a = k
      · subst hak; simp [ha, orElse]
      · simp [hak]
    | none =>
      simp only
      rw [ih, GoMap.get_put]
      by_cases hak : a = k
      · subst hak; simp [ha, orElse]
      · simp [hak]

theorem addRefProps_required (look : Ref → Sch) (add : List (Str × Ref)) : ∀ (props : GoMap Str Ref) (req : List Str) (k : Str),
    k ∈ (addRefProps look props req add).2 ↔
      k ∈ req ∨ (props.get k = none ∧ ∃ v, GoMap.get add k = some v ∧ (look v).isRequired = true) := by
  induction add with
  | nil => intro props req k; simp [addRefProps]
  | cons e add ih =>
    obtain ⟨a, v⟩ := e
    intro props req k
    simp only [addRefProps, GoMap.get_cons]
    cases ha : props.get a with
    | some w =>
      simp only
      rw [ih]
      by_cases hak : a = k
      · subst hak; simp [ha]
      · simp [hak]
    | none =>
      simp only
      rw [ih, GoMap.get_put]
      by_cases hak : a = k
      · subst hak
        by_cases hr : (look v).isRequired = true <;> simp [ha, hr]
      · have hne : k ≠ a := fun h => hak h.symm
        by_cases hr : (look v).isRequired = true <;> simp [hak, hr, hne]

/-- The properties a schema brings to a merge: its own, then those of the schema it references. -/
def brings (look : Ref → Sch) (s2 : Sch) (k : Str) : Option Ref :=
  orElse (s2.props.get k) (match s2.refTo with
    | some r => ((look r).props.get k).map (adopt look)
    | none => none)

/-- **C48 (properties).** For all schemas and whatever the iteration order: the merged schema is an object, a
property it had is unchanged, and every other property is the one the merged schema brings. -/
theorem C48_properties (look : Ref → Sch) (s s2 : Sch) :
    (mergeWith look s s2).type = object ∧
    ∀ k, (mergeWith look s s2).props.get k = orElse (s.props.get k) (brings look s2 k) := by
  refine ⟨rfl, fun k => ?_⟩
  unfold mergeWith brings
  cases h : s2.refTo with
  | none =>
    simp only [Option.map_none]
    rw [addProps_get]
    cases s.props.get k <;> cases s2.props.get k <;> rfl
  | some r =>
    simp only [Option.map_some]
    rw [addRefProps_get, addProps_get]
    cases s.props.get k <;> cases s2.props.get k <;> rfl

/-- An adopted property is a reference to the property, as required as it is, if that is an object, and the property
itself otherwise. -/
theorem C48_adopted (h : Heap) (r : Ref) :
    ((h.look r).type = "object".toList → (h.look (adopt h.look r)).refTo = some r ∧
      (h.look (adopt h.look r)).isRequired = (h.look r).isRequired) ∧
    ((h.look r).type ≠ "object".toList → adopt h.look r = r) := by
  unfold adopt
  constructor
  · intro ht; rw [if_pos (show (h.look r).type = object from ht)]; exact ⟨rfl, rfl⟩
  · intro ht; rw [if_neg (show ¬ (h.look r).type = object from ht)]

theorem mem_mergeAlternatives (a b : List Ref) (t : Option (List Ref)) (r : Ref) : r ∈ mergeAlternatives a b t ↔
    r ∈ a ∨ r ∈ b ∨ ∃ l v, t = some l ∧ v ∈ l ∧ r = .wrap v false := by
  unfold mergeAlternatives
  cases t with
  | none => simp
  | some l => simp [eq_comm]

/-- **C48 (alternatives).** For all schemas: the merged schema has the alternatives of both, references to those
of the schema the second one references, and no other. -/
theorem C48_alternatives (h : Heap) (s s2 : Sch) (f : Sch → List Ref)
    (hf : f = Sch.allOf ∨ f = Sch.anyOf ∨ f = Sch.oneOf) (r : Ref) :
    r ∈ f (mergeWith h.look s s2) ↔ r ∈ f s ∨ r ∈ f s2 ∨
      ∃ t v, s2.refTo = some t ∧ v ∈ f (h.look t) ∧ r = .wrap v false := by
  have key : r ∈ f (mergeWith h.look s s2) ↔ r ∈ mergeAlternatives (f s) (f s2) ((s2.refTo.map h.look).map f) := by
    rcases hf with rfl | rfl | rfl <;> rfl
  rw [key, mem_mergeAlternatives]
  cases s2.refTo with
  | none => simp
  | some t => simp

/-- What such a reference leads to. -/
theorem C48_alternative_reference (h : Heap) (v : Ref) : (h.look (.wrap v false)).refTo = some v := rfl

/-- A property of the referenced schema that was not there before and is marked required. -/
def newlyRequired (look : Ref → Sch) (s s2 : Sch) (k : Str) : Prop :=
  s.props.get k = none ∧ s2.props.get k = none ∧
    ∃ r v, s2.refTo = some r ∧ (look r).props.get k = some v ∧ (look v).isRequired = true

/-- **C48 (requirements).** For all schemas: the required names have no duplicate and are those of the two
schemas, and the properties added by reference that are marked required. -/
theorem C48_required (look : Ref → Sch) (s s2 : Sch) :
    (mergeWith look s s2).required.Nodup ∧
    ∀ k, k ∈ (mergeWith look s s2).required ↔ k ∈ s.required ∨ k ∈ s2.required ∨ newlyRequired look s s2 k := by
  have hmem : ∀ (l : List Str) (k : Str), k ∈ Dedup.removeDuplicate l ↔ k ∈ l := by
    intro l k
    have h := Dedup.C64_names l
    refine ⟨fun hk => h.inOrder.subset hk, fun hk => ?_⟩
    have := h.all k hk
    simpa using this
  refine ⟨by simpa [mergeWith] using (Dedup.C64_names _).once, fun k => ?_⟩
  simp only [mergeWith, hmem, List.mem_append]
  unfold newlyRequired
  cases h : s2.refTo with
  | none => simp
  | some r =>
    simp only [Option.map_some]
    rw [addRefProps_required, addProps_get]
    have : orElse (s.props.get k) (GoMap.get s2.props k) = none ↔ s.props.get k = none ∧ s2.props.get k = none := by
      cases s.props.get k <;> cases s2.props.get k <;> simp [orElse]
    rw [this]
    constructor
    · rintro ((h1 | ⟨⟨h1, h2⟩, v, h3, h4⟩) | h1)
      · exact Or.inl h1
      · exact Or.inr (Or.inr ⟨h1, h2, r, v, rfl, h3, h4⟩)
      · exact Or.inr (Or.inl h1)
    · rintro (h1 | h1 | ⟨h1, h2, r', v, h3, h4, h5⟩)
      · exact Or.inl (Or.inl h1)
      · exact Or.inr h1
      · cases h3; exact Or.inl (Or.inr ⟨⟨h1, h2⟩, v, h4, h5⟩)

theorem addProps_same (add : List (Str × Ref)) : ∀ (props : GoMap Str Ref),
    (∀ e ∈ add, props.get e.1 ≠ none) → addProps props add = props := by
  induction add with
  | nil => intros; rfl
  | cons e add ih =>
    obtain ⟨a, v⟩ := e
    intro props h
    have ha := h (a, v) (by simp)
    unfold addProps
    cases hp : props.get a with
    | none => exact absurd hp ha
    | some w => exact ih props (fun e he => h e (List.mem_cons_of_mem _ he))

theorem addRefProps_same (look : Ref → Sch) (add : List (Str × Ref)) : ∀ (props : GoMap Str Ref) (req : List Str),
    (∀ e ∈ add, props.get e.1 ≠ none) → addRefProps look props req add = (props, req) := by
  induction add with
  | nil => intros; rfl
  | cons e add ih =>
    obtain ⟨a, v⟩ := e
    intro props req h
    have ha := h (a, v) (by simp)
    unfold addRefProps
    cases hp : props.get a with
    | none => exact absurd hp ha
    | some w => exact ih props req (fun e he => h e (List.mem_cons_of_mem _ he))

theorem get_ne_none_of_mem (m : List (Str × Ref)) (e : Str × Ref) (h : e ∈ m) : GoMap.get m e.1 ≠ none := by
  intro hc
  exact (GoMap.get_eq_none_iff m e.1).mp hc (List.mem_map_of_mem h)

theorem removeDuplicate_append (r x : List Str) (hr : r.Nodup) (hx : ∀ k ∈ x, k ∈ r) : Dedup.removeDuplicate (r ++ x) = r := by
  rw [(Dedup.C64_names (r ++ x)).exactly]
  have rev : ∀ x : List Str, (∀ k ∈ x.reverse, k ∈ r) → Dedup.firsts id (r ++ x.reverse) = r := by
    intro x
    induction x with
    | nil => intro _; simpa using Dedup.firsts_nodup id r (by simpa using hr)
    | cons a x ih =>
      intro h
      rw [List.reverse_cons, ← List.append_assoc, Dedup.firsts_snoc, ih (fun k hk => h k (by
        rw [List.reverse_cons]; exact List.mem_append_left _ hk)), if_pos, List.append_nil]
      rw [List.any_eq_true]
      exact ⟨a, List.mem_append_left _ (h a (by simp)), by simp⟩
  have := rev x.reverse (by simpa using hx)
  simpa using this

/-- **C48 (twice; partial: properties, requirements and type).** For all schemas: merging with the same schema
again leaves them exactly as they are. Missing: the lists of alternatives, which grow (below). -/
theorem C48_idempotent_partial (look : Ref → Sch) (s s2 : Sch) :
    let once := mergeWith look s s2
    let twice := mergeWith look once s2
    twice.props = once.props ∧ twice.required = once.required ∧ twice.type = once.type := by
  intro once twice
  have h1 : ∀ e ∈ s2.props, once.props.get e.1 ≠ none := by
    intro e he hc
    rw [(C48_properties look s s2).2 e.1] at hc
    have := get_ne_none_of_mem s2.props e he
    unfold brings at hc
    cases h : s2.props.get e.1 with
    | none => exact this h
    | some v => rw [h] at hc; cases h' : s.props.get e.1 <;> rw [h'] at hc <;> cases hc
  have h2 : ∀ r, s2.refTo = some r → ∀ e ∈ (look r).props, once.props.get e.1 ≠ none := by
    intro r hr e he hc
    rw [(C48_properties look s s2).2 e.1] at hc
    have := get_ne_none_of_mem (look r).props e he
    unfold brings at hc
    rw [hr] at hc
    simp only at hc
    cases h : (look r).props.get e.1 with
    | none => exact this h
    | some v =>
      rw [h] at hc
      cases h' : s.props.get e.1 <;> cases h'' : s2.props.get e.1 <;> rw [h', h''] at hc <;> cases hc
  have hreq : ∀ k ∈ s2.required, k ∈ once.required := fun k hk => ((C48_required look s s2).2 k).mpr (Or.inr (Or.inl hk))
  have hdup := removeDuplicate_append once.required s2.required (C48_required look s s2).1 hreq
  have e1 := addProps_same s2.props once.props h1
  refine ⟨?_, ?_, rfl⟩
  · show (mergeWith look once s2).props = once.props
    unfold mergeWith
    simp only [e1]
    cases hr : s2.refTo with
    | none => rfl
    | some r => simp only [Option.map_some]; rw [addRefProps_same look _ _ _ (h2 r hr)]
  · show (mergeWith look once s2).required = once.required
    unfold mergeWith
    simp only [e1]
    cases hr : s2.refTo with
    | none => exact hdup
    | some r => simp only [Option.map_some]; rw [addRefProps_same look _ _ _ (h2 r hr)]; exact hdup

/-- **C48 is violated** (1): merging the same schema twice lists its alternatives twice, as long as it has any. -/
theorem C48_violated_alternatives (look : Ref → Sch) (s s2 : Sch) (h : s2.anyOf ≠ []) :
    (mergeWith look (mergeWith look s s2) s2).anyOf ≠ (mergeWith look s s2).anyOf := by
  intro hc
  have := congrArg List.length hc
  simp only [mergeWith, mergeAlternatives, List.length_append] at this
  have : 0 < s2.anyOf.length := List.length_pos_iff.mpr h
  omega

/-- **C48 is violated** (2): a property reached through two references is lost. -/
theorem C48_violated_two_references : ∃ (h : Heap) (s s2 : Sch) (k : Str),
    (∃ r r', s2.refTo = some r ∧ (h.look r).refTo = some r' ∧ (h.look r').props.get k ≠ none) ∧
    (mergeWith h.look s s2).props.get k = none := by
  refine ⟨fun p => if p = 0 then { refTo := some (.ptr 1) } else if p = 1 then { type := object, props := [("a".toList, .ptr 2)] } else {},
    {}, { refTo := some (.ptr 0) }, "a".toList, ⟨.ptr 0, .ptr 1, rfl, rfl, by decide⟩, by decide⟩

/-- A requirement that comes with a merge is not recorded on the property itself: the property of `s` is the
same schema as before, and its `IsRequired` (set from the requirements `s` had before) stays false. This is how
`Fields.C51_violated_merged_requirement` comes about. -/
theorem C48_required_not_marked : ∃ (h : Heap) (s s2 : Sch) (k : Str) (r : Ref),
    s.props.get k = some r ∧ (h.look r).isRequired = decide (k ∈ s.required) ∧
    k ∈ (mergeWith h.look s s2).required ∧ (mergeWith h.look s s2).props.get k = some r ∧ (h.look r).isRequired = false := by
  refine ⟨fun _ => {}, { props := [("a".toList, .ptr 1)] }, { required := ["a".toList] }, "a".toList, .ptr 1, ?_, ?_, ?_, ?_, ?_⟩ <;> decide

example : (mergeWith (Heap.look (fun p => if p = 0 then { type := object, props := [("b".toList, .ptr 3)], required := ["b".toList] }
      else if p = 3 then { isRequired := true } else {}))
    { props := [("a".toList, .ptr 1)] } { props := [("a".toList, .ptr 2), ("c".toList, .ptr 2)], refTo := some (.ptr 0) }).required =
    ["b".toList] := by decide

end Verif.SchemaMerge
