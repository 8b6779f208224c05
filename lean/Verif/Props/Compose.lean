import Verif.Model.Compose
import Verif.Props.SchemaMerge
import Verif.Model.Validations

/-! # C67: composition by reference -/

namespace Verif.SchemaMerge

/-- The branches of a composition. -/
def Sch.alts (s : Sch) : List Ref := s.anyOf ++ s.oneOf ++ s.allOf

/-- The properties a schema of the document has by composition: its own, those of its branches, those of the
schemas its branches reference. -/
inductive Has (refs : Refs) (h0 : Heap) : Nat → Str → Prop
  | own {s k} : (h0 s).props.get k ≠ none → Has refs h0 s k
  | branch {s b k} : Ref.ptr b ∈ (h0 s).alts → (h0 b).props.get k ≠ none → Has refs h0 s k
  | ref {s b t k} : Ref.ptr b ∈ (h0 s).alts → refs b = some t → Has refs h0 t k → Has refs h0 s k

/-- **C67 is violated**: with three components, `a` composed of a reference to `b`, `b` of one to `c`, and `c`
with property `x`, whether `a` has `x` depends on the order in which they are processed. -/
theorem C67_violated_order : ∃ (refs : Refs) (h0 : Heap) (a : Nat) (k : Str) (o1 o2 : List Nat), o1.Perm o2 ∧
    Has refs h0 a k ∧
    (processAll refs o1 h0 a).props.get k ≠ none ∧ (processAll refs o2 h0 a).props.get k = none := by
  refine ⟨fun p => if p = 10 then some 1 else if p = 11 then some 2 else none,
    fun p => if p = 0 then { allOf := [.ptr 10] } else if p = 1 then { allOf := [.ptr 11] }
      else if p = 2 then { props := [(['x'], .ptr 20)] } else {}, 0, ['x'], [2, 1, 0], [2, 0, 1], ?_, ?_, ?_, ?_⟩
  · exact List.Perm.cons 2 (List.Perm.swap 0 1 [])
  · refine Has.ref (b := 10) (t := 1) (by decide) rfl (Has.ref (b := 11) (t := 2) (by decide) rfl (Has.own (by decide)))
  · decide
  · decide

/-- The documents considered: components are not references themselves; their branches are not components, are
flat, and reference components only. -/
structure Flat (refs : Refs) (h0 : Heap) (comps : List Nat) : Prop where
  noRef : ∀ s ∈ comps, refs s = none
  ptrs : ∀ s ∈ comps, ∀ r ∈ (h0 s).alts, ∃ b, r = .ptr b
  inline : ∀ s ∈ comps, ∀ b, Ref.ptr b ∈ (h0 s).alts → b ∉ comps
  flat : ∀ b, b ∉ comps → (h0 b).alts = [] ∧ (h0 b).refTo = none

/-- The order is such that the references of a component lead to components processed before. -/
def Topological (refs : Refs) (h0 : Heap) (order : List Nat) : Prop :=
  ∀ pre s post, order = pre ++ s :: post → s ∉ pre ∧
    ∀ b t, Ref.ptr b ∈ (h0 s).alts → refs b = some t → t ∈ pre

theorem ne_none_orElse {α : Type} (a b : Option α) : orElse a b ≠ none ↔ a ≠ none ∨ b ≠ none := by
  cases a <;> cases b <;> simp [orElse]

theorem merge_keys (look : Ref → Sch) (s s2 : Sch) (k : Str) : (mergeWith look s s2).props.get k ≠ none ↔
    s.props.get k ≠ none ∨ s2.props.get k ≠ none ∨ ∃ r, s2.refTo = some r ∧ (look r).props.get k ≠ none := by
  rw [(C48_properties look s s2).2 k, ne_none_orElse]
  unfold brings
  rw [ne_none_orElse]
  cases h : s2.refTo with
  | none => simp
  | some r => cases h' : (look r).props.get k <;> simp [h']

theorem merge_alts (look : Ref → Sch) (s s2 : Sch) (r : Ref) (h : r ∈ (mergeWith look s s2).alts) :
    r ∈ s.alts ∨ r ∈ s2.alts ∨ ∃ q v, s2.refTo = some q ∧ v ∈ (look q).alts ∧ r = .wrap v false := by
  have key : ∀ (f : Sch → List Ref) (hf : ∀ x : Sch, ∀ v ∈ f x, v ∈ x.alts),
      r ∈ mergeAlternatives (f s) (f s2) ((s2.refTo.map look).map f) →
      r ∈ s.alts ∨ r ∈ s2.alts ∨ ∃ q v, s2.refTo = some q ∧ v ∈ (look q).alts ∧ r = .wrap v false := by
    intro f hf hr
    rcases (mem_mergeAlternatives _ _ _ r).mp hr with h | h | ⟨l, v, h1, h2, h3⟩
    · exact Or.inl (hf s r h)
    · exact Or.inr (Or.inl (hf s2 r h))
    · cases hq : s2.refTo with
      | none => rw [hq] at h1; cases h1
      | some q =>
        rw [hq] at h1
        cases h1
        exact Or.inr (Or.inr ⟨q, v, rfl, hf _ v h2, h3⟩)
  have h' : r ∈ (mergeWith look s s2).anyOf ++ (mergeWith look s s2).oneOf ++ (mergeWith look s s2).allOf := h
  rcases List.mem_append.mp h' with h' | h'
  · rcases List.mem_append.mp h' with h' | h'
    · exact key (·.anyOf) (fun x v hv => by simp [Sch.alts, hv]) h'
    · exact key (·.oneOf) (fun x v hv => by simp [Sch.alts, hv]) h'
  · exact key (·.allOf) (fun x v hv => by simp [Sch.alts, hv]) h'

section Proof

variable {refs : Refs} {h0 : Heap} {comps : List Nat}

/-- What the alternatives of a component may be while it is processed. -/
def Good (refs : Refs) (h0 : Heap) (comps : List Nat) (s : Nat) : Ref → Prop
  | .ptr b => Ref.ptr b ∈ (h0 s).alts
  | .wrap (.ptr b) _ => b ∉ comps ∧ ∀ k, (h0 b).props.get k ≠ none → Has refs h0 s k
  | .wrap (.wrap _ _) _ => True

/-- What holds between components: `done` have been processed. -/
structure Inv (refs : Refs) (h0 : Heap) (comps : List Nat) (done : List Nat) (cur : Option Nat) (h : Heap) : Prop where
  keys : ∀ s ∈ done, ∀ k, (h s).props.get k ≠ none ↔ Has refs h0 s k
  good : ∀ s ∈ done, ∀ r ∈ (h s).alts, Good refs h0 comps s r
  same : ∀ s ∈ comps, s ∉ done → some s ≠ cur → h s = h0 s
  branches : ∀ b, b ∉ comps → (h b).props = (h0 b).props ∧ (h b).alts = [] ∧
    ((h b).refTo = none ∨ (h b).refTo = (refs b).map Ref.ptr)

/-- What holds while a component is processed. -/
structure Cur (refs : Refs) (h0 : Heap) (comps : List Nat) (s : Nat) (h : Heap) : Prop where
  sound : ∀ k, (h s).props.get k ≠ none → Has refs h0 s k
  own : ∀ k, (h0 s).props.get k ≠ none → (h s).props.get k ≠ none
  good : ∀ r ∈ (h s).alts, Good refs h0 comps s r
  one : ∀ r ∈ (h0 s).oneOf, r ∈ (h s).oneOf
  all : ∀ r ∈ (h0 s).allOf, r ∈ (h s).allOf

/-- The contribution of a branch is there. -/
def Contributed (refs : Refs) (h0 : Heap) (s : Nat) (h : Heap) (b : Nat) : Prop :=
  ∀ k, ((h0 b).props.get k ≠ none ∨ ∃ t, refs b = some t ∧ Has refs h0 t k) → (h s).props.get k ≠ none

theorem setReference_other (h : Heap) (b q : Nat) (hq : q ≠ b) : setReference refs h b q = h q := by
  unfold setReference
  cases refs b <;> simp [Heap.set, hq]

theorem setReference_self (h : Heap) (b : Nat) : (setReference refs h b b).props = (h b).props ∧
    (setReference refs h b b).alts = (h b).alts ∧
    (setReference refs h b b).refTo = (match refs b with | some t => some (.ptr t) | none => (h b).refTo) := by
  unfold setReference
  cases refs b with
  | none => exact ⟨rfl, rfl, rfl⟩
  | some t => refine ⟨?_, ?_, ?_⟩ <;> simp [Heap.set, Sch.alts]

variable (hf : Flat refs h0 comps)

include hf in
theorem branchStep_spec {done : List Nat} {s : Nat} {h : Heap} {r : Ref} (hs : s ∈ comps) (hsd : s ∉ done)
    (hdc : ∀ t ∈ done, t ∈ comps)
    (htop : ∀ b t, Ref.ptr b ∈ (h0 s).alts → refs b = some t → t ∈ done)
    (hi : Inv refs h0 comps done (some s) h) (hc : Cur refs h0 comps s h) (hr : Good refs h0 comps s r) :
    Inv refs h0 comps done (some s) (branchStep refs s h r) ∧ Cur refs h0 comps s (branchStep refs s h r) ∧
    (∀ k, (h s).props.get k ≠ none → (branchStep refs s h r s).props.get k ≠ none) ∧
    (∀ b, r = .ptr b → Contributed refs h0 s (branchStep refs s h r) b) := by
  -- the heap after the dependencies of the branch
  let h1 := match r with
    | .ptr b => setReference refs h b
    | .wrap _ _ => h
  have hstep : branchStep refs s h r = h1.set s (mergeWith h1.look (h1 s) (h1.look r)) := rfl
  have hcomp : ∀ q ∈ comps, h1 q = h q := by
    intro q hq
    show (match r with | .ptr b => setReference refs h b | .wrap _ _ => h) q = h q
    cases r with
    | wrap _ _ => rfl
    | ptr b =>
      have hb : b ∉ comps := hf.inline s hs b hr
      exact setReference_other h b q (fun e => hb (e ▸ hq))
  have hbr : ∀ b, b ∉ comps → (h1 b).props = (h0 b).props ∧ (h1 b).alts = [] ∧
      ((h1 b).refTo = none ∨ (h1 b).refTo = (refs b).map Ref.ptr) := by
    intro q hq
    show ((match r with | .ptr b => setReference refs h b | .wrap _ _ => h) q).props = _ ∧
      ((match r with | .ptr b => setReference refs h b | .wrap _ _ => h) q).alts = _ ∧
      (((match r with | .ptr b => setReference refs h b | .wrap _ _ => h) q).refTo = _ ∨
       ((match r with | .ptr b => setReference refs h b | .wrap _ _ => h) q).refTo = _)
    have := hi.branches q hq
    cases r with
    | wrap _ _ => exact this
    | ptr b =>
      simp only
      by_cases hqb : q = b
      · subst hqb
        obtain ⟨e1, e2, e3⟩ := setReference_self (refs := refs) h q
        refine ⟨e1.trans this.1, e2.trans this.2.1, ?_⟩
        rw [e3]
        cases hrb : refs q with
        | some t => exact Or.inr rfl
        | none => rw [hrb] at this; exact this.2.2
      · rw [setReference_other h b q hqb]; exact this
  have hne : ∀ q, q ≠ s → branchStep refs s h r q = h1 q := by intro q hq; rw [hstep]; simp [Heap.set, hq]
  have hself : branchStep refs s h r s = mergeWith h1.look (h s) (h1.look r) := by
    rw [hstep]; simp [Heap.set, hcomp s hs]
  -- the keys that the branch brings are those it should
  have hbring : ∀ k, ((h1.look r).props.get k ≠ none ∨ ∃ q, (h1.look r).refTo = some q ∧ (h1.look q).props.get k ≠ none) →
      Has refs h0 s k := by
    intro k hk
    cases r with
    | ptr b =>
      have hb : b ∉ comps := hf.inline s hs b hr
      have hbb := hbr b hb
      rcases hk with hk | ⟨q, hq, hk⟩
      · exact Has.branch hr (by rw [← hbb.1]; exact hk)
      · rcases hbb.2.2 with e | e
        · have : (h1 b).refTo = some q := hq
          rw [e] at this; cases this
        · have : (h1 b).refTo = some q := hq
          rw [e] at this
          cases hrb : refs b with
          | none => rw [hrb] at this; cases this
          | some t =>
            rw [hrb] at this
            cases this
            have ht := htop b t hr hrb
            have hk' : (h1 t).props.get k ≠ none := hk
            rw [hcomp t (hdc t ht)] at hk'
            exact Has.ref hr hrb ((hi.keys t ht k).mp hk')
    | wrap v req =>
      rcases hk with hk | ⟨q, hq, hk⟩
      · exact absurd rfl hk
      · have hq' : some v = some q := hq
        cases hq'
        cases v with
        | ptr b =>
          have hk' : (h1 b).props.get k ≠ none := hk
          rw [(hbr b hr.1).1] at hk'
          exact hr.2 k hk'
        | wrap _ _ => exact absurd rfl hk
  refine ⟨?_, ?_, ?_, ?_⟩
  · refine ⟨?_, ?_, ?_, ?_⟩
    · intro q hq k
      rw [hne q (fun e => hsd (e ▸ hq)), hcomp q (hdc q hq)]
      exact hi.keys q hq k
    · intro q hq v hv
      rw [hne q (fun e => hsd (e ▸ hq)), hcomp q (hdc q hq)] at hv
      exact hi.good q hq v hv
    · intro q hq hqd hqs
      rw [hne q (fun e => hqs (by rw [e])), hcomp q hq]
      exact hi.same q hq hqd hqs
    · intro b hb
      rw [hne b (fun e => hb (e ▸ hs))]
      exact hbr b hb
  · refine ⟨?_, ?_, ?_, ?_, ?_⟩
    · intro k hk
      rw [hself, merge_keys] at hk
      rcases hk with hk | hk
      · exact hc.sound k hk
      · exact hbring k hk
    · intro k hk
      rw [hself, merge_keys]
      exact Or.inl (hc.own k hk)
    · intro v hv
      rw [hself] at hv
      rcases merge_alts _ _ _ v hv with hv | hv | ⟨q, w, hq, hw, rfl⟩
      · exact hc.good v hv
      · cases r with
        | ptr b =>
          have : v ∈ (h1 b).alts := hv
          rw [(hbr b (hf.inline s hs b hr)).2.1] at this
          cases this
        | wrap _ _ => exact absurd hv (by simp [Heap.look, Sch.alts])
      · cases r with
        | ptr b =>
          have hb : b ∉ comps := hf.inline s hs b hr
          have hq' : (h1 b).refTo = some q := hq
          rcases (hbr b hb).2.2 with e | e
          · rw [e] at hq'; cases hq'
          · rw [e] at hq'
            cases hrb : refs b with
            | none => rw [hrb] at hq'; cases hq'
            | some t =>
              rw [hrb] at hq'
              cases hq'
              have ht := htop b t hr hrb
              have hw' : w ∈ (h1 t).alts := hw
              rw [hcomp t (hdc t ht)] at hw'
              have hg := hi.good t ht w hw'
              cases w with
              | ptr b' =>
                exact ⟨hf.inline t (hdc t ht) b' hg, fun k hk => Has.ref hr hrb (Has.branch hg hk)⟩
              | wrap _ _ => exact trivial
        | wrap v req =>
          have hq' : some v = some q := hq
          cases hq'
          cases q with
          | ptr b =>
            have : w ∈ (h1 b).alts := hw
            rw [(hbr b hr.1).2.1] at this
            cases this
          | wrap _ _ => exact absurd hw (by simp [Heap.look, Sch.alts])
    · intro v hv
      rw [hself]
      exact (mem_mergeAlternatives _ _ _ v).mpr (Or.inl (hc.one v hv))
    · intro v hv
      rw [hself]
      exact (mem_mergeAlternatives _ _ _ v).mpr (Or.inl (hc.all v hv))
  · intro k hk
    rw [hself, merge_keys]
    exact Or.inl hk
  · intro b hrb k hk
    subst hrb
    have hb : b ∉ comps := hf.inline s hs b hr
    rw [hself, merge_keys]
    right
    rcases hk with hk | ⟨t, ht, hk⟩
    · left
      show (h1 b).props.get k ≠ none
      rw [(hbr b hb).1]; exact hk
    · right
      refine ⟨.ptr t, ?_, ?_⟩
      · show (setReference refs h b b).refTo = _
        rw [(setReference_self h b).2.2, ht]
      · show (h1 t).props.get k ≠ none
        have htd := htop b t hr ht
        rw [hcomp t (hdc t htd)]
        exact (hi.keys t htd k).mpr hk

include hf in
theorem loop_spec {done : List Nat} {s : Nat} (hs : s ∈ comps) (hsd : s ∉ done) (hdc : ∀ t ∈ done, t ∈ comps)
    (htop : ∀ b t, Ref.ptr b ∈ (h0 s).alts → refs b = some t → t ∈ done) :
    ∀ (l : List Ref) (h : Heap), Inv refs h0 comps done (some s) h → Cur refs h0 comps s h → (∀ r ∈ l, Good refs h0 comps s r) →
    Inv refs h0 comps done (some s) (l.foldl (branchStep refs s) h) ∧ Cur refs h0 comps s (l.foldl (branchStep refs s) h) ∧
    (∀ k, (h s).props.get k ≠ none → (l.foldl (branchStep refs s) h s).props.get k ≠ none) ∧
    (∀ b, Ref.ptr b ∈ l → Contributed refs h0 s (l.foldl (branchStep refs s) h) b) := by
  intro l
  induction l with
  | nil => intro h hi hc _; exact ⟨hi, hc, fun k hk => hk, fun b hb => by cases hb⟩
  | cons r l ih =>
    intro h hi hc hl
    obtain ⟨hi1, hc1, hm1, hb1⟩ := branchStep_spec hf hs hsd hdc htop hi hc (hl r (by simp))
    obtain ⟨hi2, hc2, hm2, hb2⟩ := ih _ hi1 hc1 (fun x hx => hl x (List.mem_cons_of_mem _ hx))
    refine ⟨hi2, hc2, fun k hk => hm2 k (hm1 k hk), ?_⟩
    intro b hb
    rcases List.mem_cons.mp hb with e | hb
    · exact fun k hk => hm2 k (hb1 b e.symm k hk)
    · exact hb2 b hb

include hf in
theorem setDependencies_spec {done : List Nat} {s : Nat} {h : Heap} (hs : s ∈ comps) (hsd : s ∉ done)
    (hdc : ∀ t ∈ done, t ∈ comps)
    (htop : ∀ b t, Ref.ptr b ∈ (h0 s).alts → refs b = some t → t ∈ done)
    (hi : Inv refs h0 comps done none h) : Inv refs h0 comps (s :: done) none (setDependencies refs h s) := by
  have hsame : h s = h0 s := hi.same s hs hsd (by simp)
  have hgood0 : ∀ r ∈ (h0 s).alts, Good refs h0 comps s r := by
    intro r hr
    obtain ⟨b, rfl⟩ := hf.ptrs s hs r hr
    exact hr
  have hi0 : Inv refs h0 comps done (some s) h :=
    ⟨hi.keys, hi.good, fun q hq hqd _ => hi.same q hq hqd (by simp), hi.branches⟩
  have hc0 : Cur refs h0 comps s h := by
    refine ⟨?_, ?_, ?_, ?_, ?_⟩
    · intro k hk; rw [hsame] at hk; exact Has.own hk
    · intro k hk; rw [hsame]; exact hk
    · intro r hr; rw [hsame] at hr; exact hgood0 r hr
    · intro r hr; rw [hsame]; exact hr
    · intro r hr; rw [hsame]; exact hr
  have hnoref : setReference refs h s = h := by unfold setReference; rw [hf.noRef s hs]
  have L := loop_spec hf hs hsd hdc htop
  unfold setDependencies
  rw [hnoref]
  obtain ⟨hi1, hc1, hm1, hb1⟩ := L (h s).anyOf h hi0 hc0
    (fun r hr => hc0.good r (by simp only [Sch.alts, List.mem_append]; exact Or.inl (Or.inl hr)))
  generalize hg1 : (h s).anyOf.foldl (branchStep refs s) h = h1 at hi1 hc1 hm1 hb1
  obtain ⟨hi2, hc2, hm2, hb2⟩ := L (h1 s).oneOf h1 hi1 hc1
    (fun r hr => hc1.good r (by simp only [Sch.alts, List.mem_append]; exact Or.inl (Or.inr hr)))
  generalize hg2 : (h1 s).oneOf.foldl (branchStep refs s) h1 = h2 at hi2 hc2 hm2 hb2
  obtain ⟨hi3, hc3, hm3, hb3⟩ := L (h2 s).allOf h2 hi2 hc2
    (fun r hr => hc2.good r (by simp only [Sch.alts, List.mem_append]; exact Or.inr hr))
  simp only [hg1, hg2]
  generalize (h2 s).allOf.foldl (branchStep refs s) h2 = h3 at hi3 hc3 hm3 hb3
  have hcontrib : ∀ b, Ref.ptr b ∈ (h0 s).alts → Contributed refs h0 s h3 b := by
    intro b hb k hk
    simp only [Sch.alts, List.mem_append] at hb
    rcases hb with (hb | hb) | hb
    · exact hm3 k (hm2 k (hb1 b (by rw [hsame]; exact hb) k hk))
    · exact hm3 k (hb2 b (hc1.one _ hb) k hk)
    · exact hb3 b (hc2.all _ hb) k hk
  refine ⟨?_, ?_, ?_, hi3.branches⟩
  · intro q hq k
    rcases List.mem_cons.mp hq with rfl | hq
    · refine ⟨hc3.sound k, fun hk => ?_⟩
      cases hk with
      | own h => exact hc3.own k h
      | branch hb h => exact hcontrib _ hb k (Or.inl h)
      | ref hb ht h => exact hcontrib _ hb k (Or.inr ⟨_, ht, h⟩)
    · exact hi3.keys q hq k
  · intro q hq
    rcases List.mem_cons.mp hq with rfl | hq
    · exact hc3.good
    · exact hi3.good q hq
  · intro q hq hqd _
    simp only [List.mem_cons, not_or] at hqd
    exact hi3.same q hq hqd.2 (fun e => hqd.1 (Option.some.inj e))

end Proof

/-- **C67 (partial: components processed after those they reference).** For every flat document and every such
order: each component ends up with exactly the properties it has by composition. Missing: other orders, for
which properties are lost (above). -/
theorem C67_complete_partial (refs : Refs) (h0 : Heap) (order : List Nat) (hf : Flat refs h0 order)
    (ht : Topological refs h0 order) (s : Nat) (hs : s ∈ order) (k : Str) :
    (processAll refs order h0 s).props.get k ≠ none ↔ Has refs h0 s k := by
  have main : ∀ (post pre : List Nat) (h : Heap), order = pre ++ post → Inv refs h0 order pre.reverse none h →
      Inv refs h0 order order.reverse none (post.foldl (setDependencies refs) h) := by
    intro post
    induction post with
    | nil => intro pre h e hi; rw [List.append_nil] at e; rw [e] at hi ⊢; exact hi
    | cons q post ih =>
      intro pre h e hi
      have htq := ht pre q post e
      have hmem : ∀ x ∈ pre.reverse, x ∈ order := by
        intro x hx
        rw [e]
        exact List.mem_append_left _ (List.mem_reverse.mp hx)
      refine ih (pre ++ [q]) (setDependencies refs h q) (by rw [e]; simp) ?_
      rw [List.reverse_append]
      exact setDependencies_spec hf (by rw [e]; simp) (fun hc => htq.1 (List.mem_reverse.mp hc)) hmem
        (fun b t hb hbt => List.mem_reverse.mpr (htq.2 b t hb hbt)) hi
  have hi0 : Inv refs h0 order [] none h0 := by
    refine ⟨by simp, by simp, fun _ _ _ _ => rfl, fun b hb => ?_⟩
    obtain ⟨e1, e2⟩ := hf.flat b hb
    exact ⟨rfl, e1, Or.inl e2⟩
  exact (main order [] h0 rfl hi0).keys s (List.mem_reverse.mpr hs) k

/-- Non-vacuity: the document of `C67_violated_order`, in the right order. -/
example : let refs : Refs := fun p => if p = 10 then some 1 else if p = 11 then some 2 else none
    let h0 : Heap := fun p => if p = 0 then { allOf := [.ptr 10] } else if p = 1 then { allOf := [.ptr 11] }
      else if p = 2 then { props := [(['x'], .ptr 20)] } else {}
    Flat refs h0 [2, 1, 0] ∧ Topological refs h0 [2, 1, 0] := by
  intro refs h0
  refine ⟨⟨by decide, ?_, ?_, ?_⟩, ?_⟩
  · intro s hs r hr
    simp only [List.mem_cons, List.not_mem_nil, or_false] at hs
    rcases hs with rfl | rfl | rfl <;> simp [h0, Sch.alts] at hr <;> exact ⟨_, hr⟩
  · intro s hs b hb
    simp only [List.mem_cons, List.not_mem_nil, or_false] at hs
    rcases hs with rfl | rfl | rfl <;> simp [h0, Sch.alts] at hb <;> subst hb <;> decide
  · intro b hb
    simp only [List.mem_cons, List.not_mem_nil, or_false, not_or] at hb
    simp [h0, hb.1, hb.2.1, hb.2.2, Sch.alts]
  · intro pre s post e
    match pre, e with
    | [], e =>
      cases e
      refine ⟨by simp, fun b t hb => ?_⟩
      simp [h0, Sch.alts] at hb
    | [_], e =>
      cases e
      refine ⟨by decide, fun b t hb ht => ?_⟩
      simp [h0, Sch.alts] at hb
      subst hb
      cases ht
      decide
    | [_, _], e =>
      cases e
      refine ⟨by decide, fun b t hb ht => ?_⟩
      simp [h0, Sch.alts] at hb
      subst hb
      cases ht
      decide
    | _ :: _ :: _ :: pre, e =>
      simp at e

/-! ## Requirements -/

/-- The properties a schema of the document requires by composition: those it requires itself, those its inline
branches require, those required by the schemas its branches reference. -/
inductive Req (refs : Refs) (h0 : Heap) : Nat → Str → Prop
  | own {s k} : k ∈ (h0 s).required → Req refs h0 s k
  | branch {s b k} : Ref.ptr b ∈ (h0 s).alts → refs b = none → k ∈ (h0 b).required → Req refs h0 s k
  | ref {s b t k} : Ref.ptr b ∈ (h0 s).alts → refs b = some t → Req refs h0 t k → Req refs h0 s k

/-- Schemas that only occur as properties. -/
def Stable (h0 : Heap) (comps : List Nat) (p : Nat) : Prop := p ∉ comps ∧ ∀ s ∈ comps, Ref.ptr p ∉ (h0 s).alts

/-- How the document is after `generateMetadata`: properties are schemas of their own, marked when their parent
requires them; nothing is required beside a `$ref`. -/
structure Marked (refs : Refs) (h0 : Heap) (comps : List Nat) : Prop where
  ptrs : ∀ q k v, (h0 q).props.get k = some v → ∃ p, v = .ptr p ∧ Stable h0 comps p
  marks : ∀ q k p, (h0 q).props.get k = some (.ptr p) → (h0 p).isRequired = true → k ∈ (h0 q).required
  siblings : ∀ b t, refs b = some t → (h0 b).required = []

section Requirements

variable {refs : Refs} {h0 : Heap} {comps : List Nat}

/-- References whose mark does not change. -/
def StableRef (h0 : Heap) (comps : List Nat) : Ref → Prop
  | .ptr p => Stable h0 comps p
  | .wrap _ _ => True

/-- The marked properties of a component are required by composition. -/
def MarkedAt (refs : Refs) (h0 : Heap) (comps : List Nat) (s : Nat) (h : Heap) : Prop :=
  ∀ k v, (h s).props.get k = some v → StableRef h0 comps v ∧ ((h0.look v).isRequired = true → Req refs h0 s k)

/-- The alternatives adopted by a component. -/
def Good2 (refs : Refs) (h0 : Heap) (comps : List Nat) (s : Nat) : Ref → Prop
  | .wrap (.ptr b) _ => b ∉ comps ∧ ∀ k ∈ (h0 b).required, Req refs h0 s k
  | _ => True

structure Inv2 (refs : Refs) (h0 : Heap) (comps done : List Nat) (h : Heap) : Prop where
  req : ∀ s ∈ done, ∀ k, k ∈ (h s).required ↔ Req refs h0 s k
  mark : ∀ s ∈ done, MarkedAt refs h0 comps s h
  good : ∀ s ∈ done, ∀ r ∈ (h s).alts, Good2 refs h0 comps s r
  stable : ∀ p, Stable h0 comps p → h p = h0 p
  branch : ∀ b, b ∉ comps → (refs b = none → (h b).required = (h0 b).required) ∧
    ∀ t, refs b = some t → ∀ k ∈ (h b).required, Req refs h0 t k

structure Cur2 (refs : Refs) (h0 : Heap) (comps : List Nat) (s : Nat) (h : Heap) : Prop where
  sound : ∀ k ∈ (h s).required, Req refs h0 s k
  own : ∀ k ∈ (h0 s).required, k ∈ (h s).required
  mark : MarkedAt refs h0 comps s h
  good : ∀ r ∈ (h s).alts, Good2 refs h0 comps s r

/-- The requirements of a branch are there. -/
def Demanded (refs : Refs) (h0 : Heap) (s : Nat) (h : Heap) (b : Nat) : Prop :=
  ∀ k, ((refs b = none ∧ k ∈ (h0 b).required) ∨ ∃ t, refs b = some t ∧ Req refs h0 t k) → k ∈ (h s).required

variable (hf : Flat refs h0 comps) (hm : Marked refs h0 comps)

include hf hm in
theorem branchStep_req {done : List Nat} {s : Nat} {h : Heap} {r : Ref} (hs : s ∈ comps) (hsd : s ∉ done)
    (hdc : ∀ t ∈ done, t ∈ comps)
    (htop : ∀ b t, Ref.ptr b ∈ (h0 s).alts → refs b = some t → t ∈ done)
    (hi : Inv refs h0 comps done (some s) h) (hr : Good refs h0 comps s r)
    (hi2 : Inv2 refs h0 comps done h) (hc2 : Cur2 refs h0 comps s h) (hr2 : Good2 refs h0 comps s r) :
    Inv2 refs h0 comps done (branchStep refs s h r) ∧ Cur2 refs h0 comps s (branchStep refs s h r) ∧
    (∀ k ∈ (h s).required, k ∈ (branchStep refs s h r s).required) ∧
    (∀ b, r = .ptr b → Demanded refs h0 s (branchStep refs s h r) b) := by
  let h1 := match r with
    | .ptr b => setReference refs h b
    | .wrap _ _ => h
  have hstep : branchStep refs s h r = h1.set s (mergeWith h1.look (h1 s) (h1.look r)) := rfl
  have hother : ∀ q, (∀ b, r = .ptr b → q ≠ b) → h1 q = h q := by
    intro q hq
    show (match r with | .ptr b => setReference refs h b | .wrap _ _ => h) q = h q
    cases r with
    | wrap _ _ => rfl
    | ptr b => exact setReference_other h b q (hq b rfl)
  have hbc : ∀ b, r = .ptr b → b ∉ comps := by
    intro b hb; subst hb; exact hf.inline s hs b hr
  have hcomp : ∀ q ∈ comps, h1 q = h q := fun q hq => hother q (fun b hb e => hbc b hb (e ▸ hq))
  have hstab : ∀ p, Stable h0 comps p → h1 p = h0 p := by
    intro p hp
    rw [hother p (fun b hb e => ?_), hi2.stable p hp]
    subst hb; subst e
    exact hp.2 s hs hr
  have hprops : ∀ b, b ∉ comps → (h1 b).props = (h0 b).props ∧
      ((h1 b).refTo = none ∨ (h1 b).refTo = (refs b).map Ref.ptr) := by
    intro q hq
    have := hi.branches q hq
    by_cases hqb : r = .ptr q
    · subst hqb
      obtain ⟨e1, _, e3⟩ := setReference_self (refs := refs) h q
      refine ⟨e1.trans this.1, ?_⟩
      show (setReference refs h q q).refTo = none ∨ (setReference refs h q q).refTo = _
      rw [e3]
      cases hrb : refs q with
      | some t => exact Or.inr rfl
      | none => rw [hrb] at this; exact this.2.2
    · rw [hother q (fun b hb e => hqb (e ▸ hb))]
      exact ⟨this.1, this.2.2⟩
  have hbranch : ∀ b, b ∉ comps → (refs b = none → (h1 b).required = (h0 b).required) ∧
      ∀ t, refs b = some t → ∀ k ∈ (h1 b).required, Req refs h0 t k := by
    intro q hq
    by_cases hqb : r = .ptr q
    · subst hqb
      refine ⟨fun hn => ?_, fun t ht k hk => ?_⟩
      · show (setReference refs h q q).required = _
        unfold setReference
        rw [hn]
        exact (hi2.branch q hq).1 hn
      · have htd := htop q t hr ht
        have hk' : k ∈ (setReference refs h q q).required := hk
        unfold setReference at hk'
        rw [ht] at hk'
        simp only [Heap.set, if_true] at hk'
        split at hk'
        · exact (hi2.req t htd k).mp hk'
        · exact (hi2.branch q hq).2 t ht k hk'
    · rw [hother q (fun b hb e => hqb (e ▸ hb))]
      exact hi2.branch q hq
  have hlook : ∀ v, StableRef h0 comps v → (h1.look v).isRequired = (h0.look v).isRequired := by
    intro v hv
    cases v with
    | wrap _ _ => rfl
    | ptr p => show (h1 p).isRequired = (h0 p).isRequired; rw [hstab p hv]
  have hne : ∀ q, q ≠ s → branchStep refs s h r q = h1 q := by intro q hq; rw [hstep]; simp [Heap.set, hq]
  have hself : branchStep refs s h r s = mergeWith h1.look (h s) (h1.look r) := by
    rw [hstep]; simp [Heap.set, hcomp s hs]
  -- a property of an inline schema
  have hinl : ∀ b, b ∉ comps → ∀ k v, (h1 b).props.get k = some v →
      StableRef h0 comps v ∧ ((h0.look v).isRequired = true → k ∈ (h0 b).required) := by
    intro b hb k v hv
    rw [(hprops b hb).1] at hv
    obtain ⟨p, rfl, hp⟩ := hm.ptrs b k v hv
    exact ⟨hp, hm.marks b k p hv⟩
  -- a property of the schema that the branch references
  have htarget : ∀ q, (h1.look r).refTo = some q → ∀ k v, (h1.look q).props.get k = some v →
      StableRef h0 comps v ∧ ((h0.look v).isRequired = true → Req refs h0 s k) := by
    intro q hq k v hv
    cases r with
    | ptr b =>
      have hq' : (h1 b).refTo = some q := hq
      rcases (hprops b (hbc b rfl)).2 with e | e
      · rw [e] at hq'; cases hq'
      · rw [e] at hq'
        cases hrb : refs b with
        | none => rw [hrb] at hq'; cases hq'
        | some t =>
          rw [hrb] at hq'
          cases hq'
          have htd := htop b t hr hrb
          have hv' : (h1 t).props.get k = some v := hv
          rw [hcomp t (hdc t htd)] at hv'
          obtain ⟨g1, g2⟩ := hi2.mark t htd k v hv'
          exact ⟨g1, fun hx => .ref hr hrb (g2 hx)⟩
    | wrap w req =>
      have hq' : some w = some q := hq
      cases hq'
      cases q with
      | wrap _ _ => cases hv
      | ptr b =>
        obtain ⟨g1, g2⟩ := hinl b hr2.1 k v hv
        exact ⟨g1, fun hx => hr2.2 k (g2 hx)⟩
  -- a property or a requirement of the branch itself
  have hown : ∀ k, k ∈ (h1.look r).required → Req refs h0 s k := by
    intro k hk
    cases r with
    | wrap _ _ => cases hk
    | ptr b =>
      have hk' : k ∈ (h1 b).required := hk
      cases hrb : refs b with
      | none =>
        rw [(hbranch b (hbc b rfl)).1 hrb] at hk'
        exact .branch hr hrb hk'
      | some t => exact .ref hr hrb ((hbranch b (hbc b rfl)).2 t hrb k hk')
  have hprop : ∀ k v, (h1.look r).props.get k = some v →
      StableRef h0 comps v ∧ ((h0.look v).isRequired = true → Req refs h0 s k) := by
    intro k v hv
    cases r with
    | wrap _ _ => cases hv
    | ptr b =>
      obtain ⟨g1, g2⟩ := hinl b (hbc b rfl) k v hv
      refine ⟨g1, fun hx => ?_⟩
      cases hrb : refs b with
      | none => exact .branch hr hrb (g2 hx)
      | some t =>
        have := g2 hx
        rw [hm.siblings b t hrb] at this
        cases this
  have hnew : ∀ k, newlyRequired h1.look (h s) (h1.look r) k → Req refs h0 s k := by
    rintro k ⟨_, _, q, v, hq, hv, hx⟩
    obtain ⟨g1, g2⟩ := htarget q hq k v hv
    exact g2 (by rw [← hlook v g1]; exact hx)
  have hmark : MarkedAt refs h0 comps s (branchStep refs s h r) := by
    intro k v hv
    rw [hself, (C48_properties h1.look (h s) (h1.look r)).2 k] at hv
    cases e1 : (h s).props.get k with
    | some w => rw [e1] at hv; cases hv; exact hc2.mark k _ e1
    | none =>
      rw [e1] at hv
      unfold brings at hv
      cases e2 : (h1.look r).props.get k with
      | some w => rw [e2] at hv; cases hv; exact hprop k _ e2
      | none =>
        rw [e2] at hv
        cases e3 : (h1.look r).refTo with
        | none => rw [e3] at hv; cases hv
        | some q =>
          rw [e3] at hv
          cases e4 : (h1.look q).props.get k with
          | none => simp only [e4] at hv; cases hv
          | some w =>
            simp only [e4] at hv
            have hv' : adopt h1.look w = v := by simpa [orElse] using hv
            subst hv'
            obtain ⟨g1, g2⟩ := htarget q e3 k w e4
            unfold adopt
            split
            · refine ⟨trivial, fun hx => g2 ?_⟩
              rw [← hlook w g1]; exact hx
            · exact ⟨g1, g2⟩
  have hgood : ∀ v ∈ (branchStep refs s h r s).alts, Good2 refs h0 comps s v := by
    intro v hv
    rw [hself] at hv
    rcases merge_alts _ _ _ v hv with hv | hv | ⟨q, w, hq, hw, rfl⟩
    · exact hc2.good v hv
    · cases r with
      | ptr b =>
        by_cases hcs : (h1 b).alts = []
        · have : v ∈ (h1 b).alts := hv
          rw [hcs] at this; cases this
        · exfalso
          apply hcs
          have e := (hi.branches b (hbc b rfl)).2.1
          show (setReference refs h b b).alts = []
          rw [(setReference_self h b).2.1]; exact e
      | wrap _ _ => exact absurd hv (by simp [Heap.look, Sch.alts])
    · cases r with
      | ptr b =>
        have hq' : (h1 b).refTo = some q := hq
        rcases (hprops b (hbc b rfl)).2 with e | e
        · rw [e] at hq'; cases hq'
        · rw [e] at hq'
          cases hrb : refs b with
          | none => rw [hrb] at hq'; cases hq'
          | some t =>
            rw [hrb] at hq'
            cases hq'
            have ht := htop b t hr hrb
            have hw' : w ∈ (h1 t).alts := hw
            rw [hcomp t (hdc t ht)] at hw'
            have hg := hi.good t ht w hw'
            cases w with
            | wrap _ _ => trivial
            | ptr b' =>
              refine ⟨hf.inline t (hdc t ht) b' hg, fun k hk => .ref hr hrb ?_⟩
              cases hrb' : refs b' with
              | none => exact .branch hg hrb' hk
              | some t' => rw [hm.siblings b' t' hrb'] at hk; cases hk
      | wrap w' req =>
        have hq' : some w' = some q := hq
        cases hq'
        cases w with
        | wrap _ _ => trivial
        | ptr b' =>
          exfalso
          cases q with
          | ptr b =>
            have : Ref.ptr b' ∈ (h1 b).alts := hw
            have e := (hi.branches b hr.1).2.1
            have e' : h1 b = h b := rfl
            rw [e', e] at this; cases this
          | wrap _ _ => exact absurd hw (by simp [Heap.look, Sch.alts])
  have hreq : ∀ k, k ∈ (branchStep refs s h r s).required ↔
      k ∈ (h s).required ∨ k ∈ (h1.look r).required ∨ newlyRequired h1.look (h s) (h1.look r) k := by
    intro k; rw [hself]; exact (C48_required _ _ _).2 k
  refine ⟨⟨?_, ?_, ?_, ?_, ?_⟩, ⟨?_, ?_, hmark, hgood⟩, ?_, ?_⟩
  · intro q hq k
    rw [hne q (fun e => hsd (e ▸ hq)), hcomp q (hdc q hq)]
    exact hi2.req q hq k
  · intro q hq k v
    rw [hne q (fun e => hsd (e ▸ hq)), hcomp q (hdc q hq)]
    exact hi2.mark q hq k v
  · intro q hq v
    rw [hne q (fun e => hsd (e ▸ hq)), hcomp q (hdc q hq)]
    exact hi2.good q hq v
  · intro p hp
    rw [hne p (fun e => hp.1 (e ▸ hs))]
    exact hstab p hp
  · intro b hb
    rw [hne b (fun e => hb (e ▸ hs))]
    exact hbranch b hb
  · intro k hk
    rcases (hreq k).mp hk with hk | hk | hk
    · exact hc2.sound k hk
    · exact hown k hk
    · exact hnew k hk
  · exact fun k hk => (hreq k).mpr (.inl (hc2.own k hk))
  · exact fun k hk => (hreq k).mpr (.inl hk)
  · intro b hb k hk
    subst hb
    refine (hreq k).mpr (.inr (.inl ?_))
    show k ∈ (h1 b).required
    rcases hk with ⟨hn, hk⟩ | ⟨t, ht, hk⟩
    · rw [(hbranch b (hbc b rfl)).1 hn]; exact hk
    · have htd := htop b t hr ht
      have hkt := (hi2.req t htd k).mpr hk
      show k ∈ (setReference refs h b b).required
      unfold setReference
      rw [ht]
      simp only [Heap.set, if_true]
      rw [if_pos (List.length_pos_of_mem hkt)]
      exact hkt

include hf hm in
theorem loop_req {done : List Nat} {s : Nat} (hs : s ∈ comps) (hsd : s ∉ done) (hdc : ∀ t ∈ done, t ∈ comps)
    (htop : ∀ b t, Ref.ptr b ∈ (h0 s).alts → refs b = some t → t ∈ done) :
    ∀ (l : List Ref) (h : Heap), Inv refs h0 comps done (some s) h → Cur refs h0 comps s h → (∀ r ∈ l, Good refs h0 comps s r) →
    Inv2 refs h0 comps done h → Cur2 refs h0 comps s h → (∀ r ∈ l, Good2 refs h0 comps s r) →
    Inv2 refs h0 comps done (l.foldl (branchStep refs s) h) ∧ Cur2 refs h0 comps s (l.foldl (branchStep refs s) h) ∧
    (∀ k ∈ (h s).required, k ∈ (l.foldl (branchStep refs s) h s).required) ∧
    (∀ b, Ref.ptr b ∈ l → Demanded refs h0 s (l.foldl (branchStep refs s) h) b) := by
  intro l
  induction l with
  | nil => intro h _ _ _ hi hc _; exact ⟨hi, hc, fun k hk => hk, fun b hb => by cases hb⟩
  | cons r l ih =>
    intro h hi hc hl hi2 hc2 hl2
    obtain ⟨gi, gc, _, _⟩ := branchStep_spec hf hs hsd hdc htop hi hc (hl r (by simp))
    obtain ⟨gi2, gc2, hm1, hb1⟩ := branchStep_req hf hm hs hsd hdc htop hi (hl r (by simp)) hi2 hc2 (hl2 r (by simp))
    obtain ⟨ki2, kc2, hm2, hb2⟩ := ih _ gi gc (fun x hx => hl x (List.mem_cons_of_mem _ hx)) gi2 gc2
      (fun x hx => hl2 x (List.mem_cons_of_mem _ hx))
    refine ⟨ki2, kc2, fun k hk => hm2 k (hm1 k hk), ?_⟩
    intro b hb
    rcases List.mem_cons.mp hb with e | hb
    · exact fun k hk => hm2 k (hb1 b e.symm k hk)
    · exact hb2 b hb

include hf hm in
theorem setDependencies_req {done : List Nat} {s : Nat} {h : Heap} (hs : s ∈ comps) (hsd : s ∉ done)
    (hdc : ∀ t ∈ done, t ∈ comps)
    (htop : ∀ b t, Ref.ptr b ∈ (h0 s).alts → refs b = some t → t ∈ done)
    (hi : Inv refs h0 comps done none h) (hi2 : Inv2 refs h0 comps done h) :
    Inv2 refs h0 comps (s :: done) (setDependencies refs h s) := by
  have hsame : h s = h0 s := hi.same s hs hsd (by simp)
  have hgood0 : ∀ r ∈ (h0 s).alts, Good refs h0 comps s r := by
    intro r hr
    obtain ⟨b, rfl⟩ := hf.ptrs s hs r hr
    exact hr
  have hgood2 : ∀ r ∈ (h0 s).alts, Good2 refs h0 comps s r := by
    intro r hr
    obtain ⟨b, rfl⟩ := hf.ptrs s hs r hr
    trivial
  have hi0 : Inv refs h0 comps done (some s) h :=
    ⟨hi.keys, hi.good, fun q hq hqd _ => hi.same q hq hqd (by simp), hi.branches⟩
  have hc0 : Cur refs h0 comps s h := by
    refine ⟨?_, ?_, ?_, ?_, ?_⟩
    · intro k hk; rw [hsame] at hk; exact Has.own hk
    · intro k hk; rw [hsame]; exact hk
    · intro r hr; rw [hsame] at hr; exact hgood0 r hr
    · intro r hr; rw [hsame]; exact hr
    · intro r hr; rw [hsame]; exact hr
  have hc02 : Cur2 refs h0 comps s h := by
    refine ⟨?_, ?_, ?_, ?_⟩
    · intro k hk; rw [hsame] at hk; exact .own hk
    · intro k hk; rw [hsame]; exact hk
    · intro k v hv
      rw [hsame] at hv
      obtain ⟨p, rfl, hp⟩ := hm.ptrs s k v hv
      exact ⟨hp, fun hx => .own (hm.marks s k p hv hx)⟩
    · intro r hr; rw [hsame] at hr; exact hgood2 r hr
  have hnoref : setReference refs h s = h := by unfold setReference; rw [hf.noRef s hs]
  have L := loop_spec hf hs hsd hdc htop
  have L2 := loop_req hf hm hs hsd hdc htop
  unfold setDependencies
  rw [hnoref]
  have m1 : ∀ (x : Sch), ∀ r ∈ x.anyOf, r ∈ x.alts := fun x r hr => by
    simp only [Sch.alts, List.mem_append]; exact Or.inl (Or.inl hr)
  have m2 : ∀ (x : Sch), ∀ r ∈ x.oneOf, r ∈ x.alts := fun x r hr => by
    simp only [Sch.alts, List.mem_append]; exact Or.inl (Or.inr hr)
  have m3 : ∀ (x : Sch), ∀ r ∈ x.allOf, r ∈ x.alts := fun x r hr => by
    simp only [Sch.alts, List.mem_append]; exact Or.inr hr
  obtain ⟨hi1, hc1, _, _⟩ := L (h s).anyOf h hi0 hc0 (fun r hr => hc0.good r (m1 _ r hr))
  obtain ⟨ji1, jc1, jm1, jb1⟩ := L2 (h s).anyOf h hi0 hc0 (fun r hr => hc0.good r (m1 _ r hr)) hi2 hc02
    (fun r hr => hc02.good r (m1 _ r hr))
  generalize hg1 : (h s).anyOf.foldl (branchStep refs s) h = h1 at hi1 hc1 ji1 jc1 jm1 jb1
  obtain ⟨hi2', hc2', _, _⟩ := L (h1 s).oneOf h1 hi1 hc1 (fun r hr => hc1.good r (m2 _ r hr))
  obtain ⟨ji2, jc2, jm2, jb2⟩ := L2 (h1 s).oneOf h1 hi1 hc1 (fun r hr => hc1.good r (m2 _ r hr)) ji1 jc1
    (fun r hr => jc1.good r (m2 _ r hr))
  generalize hg2 : (h1 s).oneOf.foldl (branchStep refs s) h1 = h2 at hi2' hc2' ji2 jc2 jm2 jb2
  obtain ⟨ji3, jc3, jm3, jb3⟩ := L2 (h2 s).allOf h2 hi2' hc2' (fun r hr => hc2'.good r (m3 _ r hr)) ji2 jc2
    (fun r hr => jc2.good r (m3 _ r hr))
  simp only [hg1, hg2]
  generalize (h2 s).allOf.foldl (branchStep refs s) h2 = h3 at ji3 jc3 jm3 jb3
  have hdem : ∀ b, Ref.ptr b ∈ (h0 s).alts → Demanded refs h0 s h3 b := by
    intro b hb k hk
    simp only [Sch.alts, List.mem_append] at hb
    rcases hb with (hb | hb) | hb
    · exact jm3 k (jm2 k (jb1 b (by rw [hsame]; exact hb) k hk))
    · exact jm3 k (jb2 b (hc1.one _ hb) k hk)
    · exact jb3 b (hc2'.all _ hb) k hk
  refine ⟨?_, ?_, ?_, ji3.stable, ji3.branch⟩
  · intro q hq k
    rcases List.mem_cons.mp hq with rfl | hq
    · refine ⟨jc3.sound k, fun hk => ?_⟩
      cases hk with
      | own h => exact jc3.own k h
      | branch hb hn h => exact hdem _ hb k (Or.inl ⟨hn, h⟩)
      | ref hb ht h => exact hdem _ hb k (Or.inr ⟨_, ht, h⟩)
    · exact ji3.req q hq k
  · intro q hq
    rcases List.mem_cons.mp hq with rfl | hq
    · exact jc3.mark
    · exact ji3.mark q hq
  · intro q hq
    rcases List.mem_cons.mp hq with rfl | hq
    · exact jc3.good
    · exact ji3.good q hq

end Requirements

/-- **C67 (requirements; partial: components processed after those they reference).** For every such document
and order: each component ends up requiring exactly the properties it requires by composition. -/
theorem C67_requirements_partial (refs : Refs) (h0 : Heap) (order : List Nat) (hf : Flat refs h0 order)
    (hm : Marked refs h0 order) (ht : Topological refs h0 order) (s : Nat) (hs : s ∈ order) (k : Str) :
    k ∈ (processAll refs order h0 s).required ↔ Req refs h0 s k := by
  have main : ∀ (post pre : List Nat) (h : Heap), order = pre ++ post → Inv refs h0 order pre.reverse none h →
      Inv2 refs h0 order pre.reverse h →
      Inv2 refs h0 order order.reverse (post.foldl (setDependencies refs) h) := by
    intro post
    induction post with
    | nil => intro pre h e _ hi; rw [List.append_nil] at e; rw [e] at hi ⊢; exact hi
    | cons q post ih =>
      intro pre h e hi hi2
      have htq := ht pre q post e
      have hmem : ∀ x ∈ pre.reverse, x ∈ order := by
        intro x hx
        rw [e]
        exact List.mem_append_left _ (List.mem_reverse.mp hx)
      refine ih (pre ++ [q]) (setDependencies refs h q) (by rw [e]; simp) ?_ ?_
      · rw [List.reverse_append]
        exact setDependencies_spec hf (by rw [e]; simp) (fun hc => htq.1 (List.mem_reverse.mp hc)) hmem
          (fun b t hb hbt => List.mem_reverse.mpr (htq.2 b t hb hbt)) hi
      · rw [List.reverse_append]
        exact setDependencies_req hf hm (by rw [e]; simp) (fun hc => htq.1 (List.mem_reverse.mp hc)) hmem
          (fun b t hb hbt => List.mem_reverse.mpr (htq.2 b t hb hbt)) hi hi2
  have hi0 : Inv refs h0 order [] none h0 := by
    refine ⟨by simp, by simp, fun _ _ _ _ => rfl, fun b hb => ?_⟩
    obtain ⟨e1, e2⟩ := hf.flat b hb
    exact ⟨rfl, e1, Or.inl e2⟩
  have hi2 : Inv2 refs h0 order [] h0 := by
    refine ⟨by simp, by simp, by simp, fun _ _ => rfl, fun b _ => ⟨fun _ => rfl, fun t hbt k hk => ?_⟩⟩
    rw [hm.siblings b t hbt] at hk; cases hk
  exact (main order [] h0 rfl hi0 hi2).req s (List.mem_reverse.mpr hs) k

/-- Non-vacuity: `a` is composed of an inline schema requiring `y` and a reference to `c`, which requires `x`. -/
def reqRefs : Refs := fun p => if p = 10 then some 2 else none
def reqHeap : Heap := fun p => if p = 0 then { allOf := [.ptr 10, .ptr 11] }
  else if p = 2 then { props := [(['x'], .ptr 20)], required := [['x']] }
  else if p = 11 then { props := [(['y'], .ptr 21)], required := [['y']] }
  else if p = 20 then { isRequired := true } else if p = 21 then { isRequired := true } else {}

example : Marked reqRefs reqHeap [2, 0] ∧ Flat reqRefs reqHeap [2, 0] ∧ Req reqRefs reqHeap 0 ['x'] ∧
    Req reqRefs reqHeap 0 ['y'] ∧ (processAll reqRefs [2, 0] reqHeap 0).required = [['x'], ['y']] := by
  have hp : ∀ q k v, (reqHeap q).props.get k = some v → (q = 2 ∧ k = ['x'] ∧ v = .ptr 20) ∨ (q = 11 ∧ k = ['y'] ∧ v = .ptr 21) := by
    intro q k v h
    unfold reqHeap at h
    split at h
    · cases h
    · split at h
      · simp only [GoMap.get_cons] at h
        split at h
        · rename_i hq hk; cases h; exact .inl ⟨hq, hk.symm, rfl⟩
        · cases h
      · split at h
        · simp only [GoMap.get_cons] at h
          split at h
          · rename_i hq hk; cases h; exact .inr ⟨hq, hk.symm, rfl⟩
          · cases h
        · split at h
          · cases h
          · split at h <;> cases h
  have ha : ∀ s r, r ∈ (reqHeap s).alts → s = 0 ∧ (r = .ptr 10 ∨ r = .ptr 11) := by
    intro s r h
    unfold reqHeap Sch.alts at h
    split at h
    · rename_i hs; exact ⟨hs, by simpa using h⟩
    · repeat' split at h
      all_goals simp at h
  refine ⟨⟨?_, ?_, ?_⟩, ⟨by decide, ?_, ?_, ?_⟩, ?_, ?_, by decide⟩
  · intro q k v h
    rcases hp q k v h with ⟨_, _, rfl⟩ | ⟨_, _, rfl⟩ <;> refine ⟨_, rfl, by decide, fun s _ hc => ?_⟩ <;>
      · rcases ha s _ hc with ⟨_, h | h⟩ <;> simp at h
  · intro q k p h _
    rcases hp q k _ h with ⟨rfl, rfl, _⟩ | ⟨rfl, rfl, _⟩ <;> decide
  · intro b t h
    unfold reqRefs at h
    split at h
    · rename_i hb; subst hb; rfl
    · cases h
  · intro s _ r hr
    rcases ha s r hr with ⟨_, h | h⟩ <;> exact ⟨_, h⟩
  · intro s _ b hb
    rcases ha s _ hb with ⟨_, h | h⟩ <;> cases h <;> decide
  · intro b hb
    refine ⟨?_, ?_⟩
    · apply List.eq_nil_iff_forall_not_mem.mpr
      intro r hr
      exact hb (by simp [(ha b r hr).1])
    · unfold reqHeap
      repeat' split
      all_goals rfl
  · exact .ref (b := 10) (t := 2) (by decide) rfl (.own (by decide))
  · exact .branch (b := 11) (by decide) rfl (by decide)

/-- The constraints of a schema, as far as they are kept here. -/
def Shows (x : Sch) (v : Validations.V) : Prop := x.required = v.required ∧ x.isRequired = v.isRequired

/-- The reference step inherits constraints as `Validations.merge` does, so that `C49` applies to it. -/
theorem C67_reference_inherits (refs : Refs) (h : Heap) (b t : Nat) (hr : refs b = some t) (vb vt : Validations.V)
    (hb : Shows (h b) vb) (ht : Shows (h t) vt) :
    (setReference refs h b b).refTo = some (.ptr t) ∧ Shows (setReference refs h b b) (Validations.merge vb vt) := by
  unfold setReference
  rw [hr]
  refine ⟨by simp [Heap.set], ?_, ?_⟩
  · simp only [Heap.set, if_true, Validations.merge]
    rw [ht.1, hb.1]
  · simp only [Heap.set, if_true, Validations.merge]
    rw [ht.2, hb.2]
    cases vt.isRequired <;> simp

end Verif.SchemaMerge
