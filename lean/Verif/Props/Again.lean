import Verif.Model.Again
import Verif.Props.Required

/-! # C107: generating again -/

namespace Verif.Again

open SchemaMerge (Ref Sch Heap)
open Process
open Required

variable {d : Doc} {ord : Heap → Nat → List Ref}

/-- `c` is written in `s`. -/
def Kid (d : Doc) (h0 : Heap) (s c : Nat) : Prop :=
  (∃ k, (k, Ref.ptr c) ∈ (h0 s).props) ∨ c ∈ d.before s ∨ c ∈ d.after s

/-- `q` is `s` or written below it. -/
inductive Under (d : Doc) (h0 : Heap) : Nat → Nat → Prop
  | self {s : Nat} : Under d h0 s s
  | kid {s c q : Nat} : Kid d h0 s c → Under d h0 c q → Under d h0 s q

/-- What processing makes of a schema. -/
def final (d : Doc) (h0 : Heap) (q : Nat) : Sch := setReference d h0 q q

/-- A document in which nothing is composed and references lead to definitions. -/
structure Flat (d : Doc) (h0 : Heap) : Prop where
  comps : ∀ s, comps (h0 s) = []
  direct : ∀ s t, d.refs s = some t → d.refs t = none
  props : ∀ s, ∀ e ∈ (h0 s).props, ∃ c, e.2 = .ptr c

/-- While processing: each schema is as it was or as it will be. -/
def Ok (d : Doc) (h0 : Heap) (R : Nat → Prop) (h : Heap) : Prop :=
  ∀ q, h q = h0 q ∨ (R q ∧ h q = final d h0 q)

theorem final_root {h0 : Heap} {q : Nat} (hq : d.refs q = none) : final d h0 q = h0 q := by
  unfold final setReference; rw [hq]

theorem final_props (h0 : Heap) (q : Nat) : (final d h0 q).props = (h0 q).props := reference_props h0 q q

theorem ok_props {h0 h : Heap} {R : Nat → Prop} (ho : Ok d h0 R h) (q : Nat) : (h q).props = (h0 q).props := by
  rcases ho q with e | ⟨_, e⟩
  · rw [e]
  · rw [e, final_props]

theorem ok_root {h0 h : Heap} {R : Nat → Prop} (ho : Ok d h0 R h) {q : Nat} (hq : d.refs q = none) : h q = h0 q := by
  rcases ho q with e | ⟨_, e⟩
  · exact e
  · rw [e, final_root hq]

theorem pick_nil {α : Type} (l : List α) : pick [] l = l := rfl

theorem pick_pick {α : Type} (a b : List α) : pick a (pick a b) = pick a b := by
  unfold pick; split <;> rfl

theorem alternatives_alternatives (a b : List Ref) : alternatives d a (alternatives d a b) = alternatives d a b := by
  unfold alternatives
  split
  · exact pick_pick a b
  · rfl

theorem comps_nil {s : Sch} (h : comps s = []) : s.anyOf = [] ∧ s.oneOf = [] ∧ s.allOf = [] := by
  unfold comps at h
  simpa [and_assoc] using h

theorem comps_final {h0 : Heap} (hf : Flat d h0) (q : Nat) : comps (final d h0 q) = [] := by
  cases hq : d.refs q with
  | none => rw [final_root hq]; exact hf.comps q
  | some t =>
    unfold final setReference
    rw [hq]
    show comps (Heap.set h0 q _ q) = []
    rw [set_self]
    obtain ⟨a, b, c⟩ := comps_nil (hf.comps q)
    obtain ⟨a', b', c'⟩ := comps_nil (hf.comps t)
    simp [comps, a, b, c, a', b', c', alternatives, pick]

theorem ok_comps {h0 h : Heap} {R : Nat → Prop} (hf : Flat d h0) (ho : Ok d h0 R h) (q : Nat) : comps (h q) = [] := by
  rcases ho q with e | ⟨_, e⟩
  · rw [e]; exact hf.comps q
  · rw [e]; exact comps_final hf q

/-- Resolving a schema, the first time or again. -/
theorem reference_final {h0 h : Heap} {R : Nat → Prop} (hf : Flat d h0) (ho : Ok d h0 R h) (s : Nat) :
    setReference d h s s = final d h0 s := by
  cases hs : d.refs s with
  | none =>
    rw [final_root hs]
    unfold setReference; rw [hs]
    exact ok_root ho hs
  | some t =>
    have ht := ok_root ho (hf.direct s t hs)
    have e0 : final d h0 s = _ := rfl
    unfold final setReference at e0
    rw [hs] at e0
    unfold final setReference
    rw [hs]
    show Heap.set h s _ s = Heap.set h0 s _ s
    rw [set_self, set_self, ht]
    rcases ho s with e | ⟨_, e⟩
    · rw [e]
    · rw [e]
      unfold final setReference
      rw [hs]
      simp only [set_self, pick_pick, alternatives_alternatives, ← Bool.or_assoc, Bool.or_self]

theorem ok_reference {h0 h : Heap} {R : Nat → Prop} (hf : Flat d h0) (ho : Ok d h0 R h) {s : Nat} (hs : R s) :
    Ok d h0 R (setReference d h s) := by
  intro q
  by_cases hq : q = s
  · subst hq; exact .inr ⟨hs, reference_final hf ho q⟩
  · rw [reference_other _ _ _ hq]; exact ho q

/-- What a visit does. -/
def Does (d : Doc) (h0 : Heap) (R : Nat → Prop) (T : Nat → Prop) (h h' : Heap) : Prop :=
  Ok d h0 R h' ∧ (∀ q, h q = final d h0 q → h' q = final d h0 q) ∧ ∀ q, T q → h' q = final d h0 q

theorem visitAll_does {h0 : Heap} {R : Nat → Prop} {visit : Heap → Ref → Option Heap}
    (hv : ∀ h c h', Ok d h0 R h → (∀ q, Under d h0 c q → R q) → visit h (.ptr c) = some h' → Does d h0 R (Under d h0 c) h h') :
    ∀ (cs : List Nat) (h h' : Heap), Ok d h0 R h → (∀ c ∈ cs, ∀ q, Under d h0 c q → R q) →
      visitAll visit h (cs.map Ref.ptr) = some h' → Does d h0 R (fun q => ∃ c ∈ cs, Under d h0 c q) h h'
  | [], h, h', ho, _, e => by
    cases e
    exact ⟨ho, fun _ h => h, fun q ⟨c, hc, _⟩ => by cases hc⟩
  | c :: cs, h, h', ho, hr, e => by
    rw [List.map_cons, visitAll] at e
    cases e1 : visit h (.ptr c) with
    | none => rw [e1] at e; cases e
    | some h1 =>
      rw [e1] at e
      obtain ⟨o1, k1, t1⟩ := hv h c h1 ho (hr c (.head _)) e1
      obtain ⟨o2, k2, t2⟩ := visitAll_does hv cs h1 h' o1 (fun c' hc' => hr c' (.tail _ hc')) e
      refine ⟨o2, fun q hq => k2 q (k1 q hq), ?_⟩
      rintro q ⟨c', hc', hu⟩
      rcases List.mem_cons.1 hc' with rfl | hc'
      · exact k2 q (t1 q hu)
      · exact t2 q ⟨c', hc', hu⟩

/-- The properties of a schema, in the order they are walked. -/
theorem ord_ptrs {h0 h : Heap} {R : Nat → Prop} (hf : Flat d h0) (hor : Ranges ord) (ho : Ok d h0 R h) (s : Nat) :
    ∃ cs : List Nat, ord h s = cs.map Ref.ptr ∧ ∀ c, c ∈ cs ↔ ∃ k, (k, Ref.ptr c) ∈ (h0 s).props := by
  have all : ∀ l : List Ref, (∀ x ∈ l, ∃ c, x = Ref.ptr c) → ∃ cs : List Nat, l = cs.map Ref.ptr := by
    intro l
    induction l with
    | nil => exact fun _ => ⟨[], rfl⟩
    | cons x l ih =>
      intro hl
      obtain ⟨c, rfl⟩ := hl x (.head _)
      obtain ⟨cs, rfl⟩ := ih (fun y hy => hl y (.tail _ hy))
      exact ⟨c :: cs, rfl⟩
  have hp := hor h s
  rw [ok_props ho s] at hp
  obtain ⟨cs, hcs⟩ := all (ord h s) (fun x hx => by
    obtain ⟨e, he, rfl⟩ := List.mem_map.1 (hp.mem_iff.1 hx)
    exact hf.props s e he)
  refine ⟨cs, hcs, fun c => ?_⟩
  have : c ∈ cs ↔ Ref.ptr c ∈ ord h s := by rw [hcs]; simp
  rw [this, hp.mem_iff, List.mem_map]
  constructor
  · rintro ⟨⟨k, v⟩, he, rfl⟩; exact ⟨k, he⟩
  · rintro ⟨k, hk⟩; exact ⟨(k, .ptr c), hk, rfl⟩

theorem visit_does {h0 : Heap} {R : Nat → Prop} (hf : Flat d h0) (hor : Ranges ord) : ∀ (n : Nat) (h : Heap) (s : Nat) (h' : Heap),
    Ok d h0 R h → (∀ q, Under d h0 s q → R q) → setDependencies d ord n h (.ptr s) = some h' →
    Does d h0 R (Under d h0 s) h h'
  | 0, _, _, _, _, _, e => by cases e
  | n + 1, h, s, h', ho, hr, e => by
    have hv := visit_does (R := R) hf hor n
    rw [setDependencies] at e
    obtain ⟨h1, e1, e⟩ := Option.bind_eq_some_iff.1 e
    have o0 := ok_reference hf ho (hr s .self)
    obtain ⟨cs, hcs, hmem⟩ := ord_ptrs hf hor o0 s
    rw [hcs] at e1
    have up : ∀ c, Kid d h0 s c → ∀ q, Under d h0 c q → R q := fun c hk q hu => hr q (.kid hk hu)
    obtain ⟨o1, k1, t1⟩ := visitAll_does hv cs _ _ o0 (fun c hc => up c (.inl ((hmem c).1 hc))) e1
    unfold visitRest at e
    obtain ⟨h2, e2, e⟩ := Option.bind_eq_some_iff.1 e
    obtain ⟨o2, k2, t2⟩ := visitAll_does hv _ _ _ o1 (fun c hc => up c (.inr (.inl hc))) e2
    obtain ⟨c1, c2, c3⟩ := comps_nil (ok_comps hf o2 s)
    rw [c1] at e
    have e : ((visitMerge (setDependencies d ord n) s h2 (h2 s).oneOf).bind fun h =>
      (visitMerge (setDependencies d ord n) s h (h s).allOf).bind fun h =>
        visitAll (setDependencies d ord n) h ((d.after s).map Ref.ptr)) = some h' := e
    rw [c2] at e
    have e : ((visitMerge (setDependencies d ord n) s h2 (h2 s).allOf).bind fun h =>
        visitAll (setDependencies d ord n) h ((d.after s).map Ref.ptr)) = some h' := e
    rw [c3] at e
    have e : visitAll (setDependencies d ord n) h2 ((d.after s).map Ref.ptr) = some h' := e
    obtain ⟨o3, k3, t3⟩ := visitAll_does hv _ _ _ o2 (fun c hc => up c (.inr (.inr hc))) e
    refine ⟨o3, fun q hq => k3 q (k2 q (k1 q ?_)), fun q hu => ?_⟩
    · by_cases hqs : q = s
      · subst hqs; exact reference_final hf ho q
      · rw [reference_other _ _ _ hqs]; exact hq
    · cases hu with
      | self => exact k3 s (k2 s (k1 s (reference_final hf ho s)))
      | kid hk hu =>
        rcases hk with hk | hk | hk
        · exact k3 q (k2 q (t1 q ⟨_, (hmem _).2 hk, hu⟩))
        · exact k3 q (t2 q ⟨_, hk, hu⟩)
        · exact t3 q ⟨_, hk, hu⟩

/-- Processing, exactly: what is below a root is resolved, nothing else changes. -/
theorem processAll_exact {h0 h' : Heap} (hf : Flat d h0) (hor : Ranges ord) {n : Nat} {roots : List Nat}
    (e : processAll d ord n h0 roots = some h') (q : Nat) :
    ((∃ r ∈ roots, Under d h0 r q) → h' q = final d h0 q) ∧ (¬ (∃ r ∈ roots, Under d h0 r q) → h' q = h0 q) := by
  obtain ⟨ho, _, ht⟩ := visitAll_does (R := fun q => ∃ r ∈ roots, Under d h0 r q) (fun h s h' => visit_does hf hor n h s h')
    roots h0 h' (fun q => .inl rfl) (fun r hr q hu => ⟨r, hr, hu⟩) e
  refine ⟨fun hu => ht q hu, fun hu => ?_⟩
  rcases ho q with e | ⟨h, _⟩
  · exact e
  · exact absurd h hu

/-! ## Again -/

/-- The trees hold each schema once, and all references; nothing is written in a reference. -/
structure Written (d : Doc) (ns : List Node) : Prop where
  once : (ns.flatMap ids).Nodup
  all : ∀ s t, d.refs s = some t → s ∈ ns.flatMap ids
  leaf : ∀ n ∈ ns, ∀ m, In n m → m.kids ≠ [] → d.refs m.id = none

theorem flat_same {a b : Heap} (hf : Flat d a) (hs : ∀ q, Required.Same (a q) (b q)) : Flat d b where
  comps s := by rw [← (hs s).comps]; exact hf.comps s
  direct := hf.direct
  props s e he := hf.props s e (by rw [(hs s).props]; exact he)

theorem under_congr {a b : Heap} (hp : ∀ s, (a s).props = (b s).props) {r q : Nat} (hu : Under d a r q) : Under d b r q := by
  induction hu with
  | self => exact .self
  | kid hk _ ih =>
    refine .kid ?_ ih
    rcases hk with ⟨k, hk⟩ | hk
    · exact .inl ⟨k, by rw [← hp]; exact hk⟩
    · exact .inr hk

/-- Marking again gives the marks of the first time. -/
theorem marks_again {h h' : Heap} {ns : List Node} (hw : Written d ns) {R : Nat → Prop} (ho : Ok d (markRoots h ns) R h') (q : Nat) :
    markRoots h' ns q = { h' q with isRequired := (markRoots h ns q).isRequired } := by
  have hsame := markRoots_same ns h' q
  have flag : (markRoots h' ns q).isRequired = (markRoots h ns q).isRequired ∨ q ∉ ns.flatMap ids := by
    by_cases hq : q ∈ ns.flatMap ids
    · refine .inl ?_
      obtain ⟨n, hn, hqn⟩ := List.mem_flatMap.1 hq
      rcases ids_cases n q hqn with rfl | ⟨m, o, c, hin, hc, rfl⟩
      · rw [markRoots_root ns h' hw.once n hn, markRoots_root ns h hw.once n hn]
      · rw [markRoots_child ns h' hw.once n hn m c o hin hc, markRoots_child ns h hw.once n hn m c o hin hc]
        have hm : d.refs m.id = none := hw.leaf n hn m hin (List.ne_nil_of_mem hc)
        rw [ok_root ho hm, ← (markRoots_same ns h m.id).required]
    · exact .inr hq
  rcases flag with hf | hq
  · rw [← hf]; exact hsame.symm
  · have hr : d.refs q = none := by
      cases hr : d.refs q with
      | none => rfl
      | some t => exact absurd (hw.all q t hr) hq
    rw [markRoots_outside ns h' q hq, ok_root ho hr]

theorem again {h h' h'' : Heap} {ns : List Node} (hf : Flat d h) (hw : Written d ns) {a b : Call} (ha : Ranges a.ord)
    (hb : Ranges b.ord) (hab : ∀ r, r ∈ a.roots ↔ r ∈ b.roots) (ea : process d a.ord a.depth ns a.roots h = some h')
    (eb : process d b.ord b.depth ns b.roots h' = some h'') : h'' = h' := by
  unfold process at ea eb
  have hf1 : Flat d (markRoots h ns) := flat_same hf (markRoots_same ns h)
  have ho : Ok d (markRoots h ns) (fun q => ∃ r ∈ a.roots, Under d (markRoots h ns) r q) h' := by
    intro q
    by_cases hu : ∃ r ∈ a.roots, Under d (markRoots h ns) r q
    · exact .inr ⟨hu, (processAll_exact hf1 ha ea q).1 hu⟩
    · exact .inl ((processAll_exact hf1 ha ea q).2 hu)
  have hf2 : Flat d (markRoots h' ns) := flat_same (a := h')
    ⟨fun s => ok_comps hf1 ho s, hf.direct, fun s e he => hf1.props s e (by rw [← ok_props ho]; exact he)⟩ (markRoots_same ns h')
  have hp : ∀ s, (markRoots h ns s).props = (markRoots h' ns s).props := fun s => by
    rw [← (markRoots_same ns h' s).props, ok_props ho]
  have hreach : ∀ q, (∃ r ∈ b.roots, Under d (markRoots h' ns) r q) ↔ ∃ r ∈ a.roots, Under d (markRoots h ns) r q := by
    intro q
    constructor
    · rintro ⟨r, hr, hu⟩; exact ⟨r, (hab r).2 hr, under_congr (fun s => (hp s).symm) hu⟩
    · rintro ⟨r, hr, hu⟩; exact ⟨r, (hab r).1 hr, under_congr hp hu⟩
  have roots2 : ∀ t, d.refs t = none → markRoots h' ns t = markRoots h ns t := by
    intro t ht
    rw [marks_again hw ho t, ok_root ho ht]
  funext q
  by_cases hu : ∃ r ∈ a.roots, Under d (markRoots h ns) r q
  · rw [(processAll_exact hf2 hb eb q).1 ((hreach q).2 hu), (processAll_exact hf1 ha ea q).1 hu]
    cases hq : d.refs q with
    | none => rw [final_root hq, final_root hq, roots2 q hq]
    | some t =>
      have hq' := marks_again hw ho q
      rw [(processAll_exact hf1 ha ea q).1 hu] at hq'
      unfold final setReference at hq' ⊢
      simp only [hq, set_self] at hq' ⊢
      rw [hq', roots2 t (hf.direct q t hq)]
      simp only [pick_pick, alternatives_alternatives]
  · rw [(processAll_exact hf2 hb eb q).2 (fun hu' => hu ((hreach q).1 hu')), marks_again hw ho q]
    rw [(processAll_exact hf1 ha ea q).2 hu]

/-- **C107, documents without composition whose references lead to definitions.** However often code is generated from the
document, and in whatever orders its maps are walked, the schemas are those of the first time. -/
theorem C107_again_partial {h h' : Heap} {ns : List Node} (hf : Flat d h) (hw : Written d ns) (c : Call) (hc : Ranges c.ord)
    (e : process d c.ord c.depth ns c.roots h = some h') :
    ∀ (cs : List Call) (g : Heap), (∀ a ∈ cs, Ranges a.ord ∧ ∀ r, r ∈ c.roots ↔ r ∈ a.roots) → calls d ns cs h' = some g → g = h'
  | [], g, _, eg => by cases eg; rfl
  | a :: cs, g, ha, eg => by
    rw [calls] at eg
    cases e1 : process d a.ord a.depth ns a.roots h' with
    | none => rw [e1] at eg; cases eg
    | some h1 =>
      rw [e1] at eg
      have := again hf hw hc (ha a (.head _)).1 (ha a (.head _)).2 e e1
      subst this
      exact C107_again_partial hf hw c hc e cs g (fun a' ha' => ha a' (.tail _ ha')) eg

/-! ## Violations and examples -/

def kX : Str := ['x']

/-- `A` is all of `B`, which is all of `C`, an object with a property. -/
def abc : Heap := fun p =>
  if p = 0 then { allOf := [.ptr 1] } else if p = 2 then { allOf := [.ptr 3] }
  else if p = 4 then { type := SchemaMerge.object, props := [(kX, .ptr 5)] } else {}

def abcDoc : Doc where
  copies := false
  refs p := if p = 1 then some 2 else if p = 3 then some 4 else none
  before _ := []
  after _ := []

def abcNodes : List Node := [.mk 0 [(none, .mk 1 [])], .mk 2 [(none, .mk 3 [])], .mk 4 [(some kX, .mk 5 [])]]

def inTurn : Call := ⟨inOrder, [0, 2, 4], 9⟩

/-- **C107 is violated**, version 3, by compositions: the second time, in the same order, `A` has the property it lacked the first time. -/
theorem C107_violated_composition :
    (calls abcDoc abcNodes [inTurn] abc).map (fun h => (h 0).props.get kX) = some none ∧
    (calls abcDoc abcNodes [inTurn, inTurn] abc).map (fun h => (h 0).props.get kX) = some (some (.ptr 5)) := by decide

/-- The same in version 2: `A` is all of `B`, a reference to `C`, which is all of an object with a property. -/
def abc2 : Heap := fun p =>
  if p = 0 then { allOf := [.ptr 1] } else if p = 3 then { allOf := [.ptr 4] }
  else if p = 4 then { type := SchemaMerge.object, props := [(kX, .ptr 5)] } else {}

def abc2Doc : Doc where
  copies := true
  refs p := if p = 1 then some 2 else if p = 2 then some 3 else none
  before _ := []
  after _ := []

def abc2Nodes : List Node := [.mk 0 [(none, .mk 1 [])], .mk 2 [], .mk 3 [(none, .mk 4 [(some kX, .mk 5 [])])]]

/-- **C107 is violated**, version 2, by compositions. -/
theorem C107_violated_composition2 :
    (calls abc2Doc abc2Nodes [⟨inOrder, [0, 2, 3], 9⟩] abc2).map (fun h => (h 0).props.get kX) = some none ∧
    (calls abc2Doc abc2Nodes [⟨inOrder, [0, 2, 3], 9⟩, ⟨inOrder, [0, 2, 3], 9⟩] abc2).map (fun h => (h 0).props.get kX) =
      some (some (.ptr 5)) := by decide

/-- `a` refers to `b`, which refers to `c`, an object that requires its property. -/
def chain : Heap := fun p =>
  if p = 2 then { type := SchemaMerge.object, props := [(kX, .ptr 3)], required := [kX] } else {}

def chainDoc (copies : Bool) : Doc where
  copies := copies
  refs p := if p = 0 then some 1 else if p = 1 then some 2 else none
  before _ := []
  after _ := []

def chainNodes : List Node := [.mk 0 [], .mk 1 [], .mk 2 [(some kX, .mk 3 [])]]

/-- **C107 is violated** by references to references: what the first time did not inherit, the second time does. -/
theorem C107_violated_chain (v : Bool) :
    (calls (chainDoc v) chainNodes [⟨inOrder, [0, 1, 2], 9⟩] chain).map (fun h => (h 0).required) = some [] ∧
    (calls (chainDoc v) chainNodes [⟨inOrder, [0, 1, 2], 9⟩, ⟨inOrder, [0, 1, 2], 9⟩] chain).map (fun h => (h 0).required) =
      some [kX] := by cases v <;> decide

/-! An object with two properties that refer to a definition, generated from three times in different orders. -/

def kY : Str := ['y']

def pair : Heap := fun p =>
  if p = 0 then { type := SchemaMerge.object, props := [(kX, .ptr 1), (kY, .ptr 2)], required := [kX] }
  else if p = 3 then { type := SchemaMerge.object, props := [(kX, .ptr 4)], required := [kX] } else {}

def pairDoc (copies : Bool) : Doc where
  copies := copies
  refs p := if p = 1 ∨ p = 2 then some 3 else none
  before _ := []
  after _ := []

def pairNodes : List Node := [.mk 0 [(some kX, .mk 1 []), (some kY, .mk 2 [])], .mk 3 [(some kX, .mk 4 [])]]

def backwards (h : Heap) (s : Nat) : List Ref := ((h s).props.map (·.2)).reverse

theorem pair_flat (v : Bool) : Flat (pairDoc v) pair where
  comps s := by unfold pair; repeat' split
                all_goals rfl
  direct s t h := by
    unfold pairDoc at h ⊢
    dsimp only at h ⊢
    split at h
    · cases h; rfl
    · cases h
  props s e he := by
    unfold pair at he
    repeat' split at he
    · simp at he; rcases he with rfl | rfl
      · exact ⟨1, rfl⟩
      · exact ⟨2, rfl⟩
    · simp at he; subst he; exact ⟨4, rfl⟩
    · cases he

theorem pair_written (v : Bool) : Written (pairDoc v) pairNodes where
  once := by decide
  all s t h := by
    unfold pairDoc at h
    dsimp only at h
    split at h
    · rename_i hs; rcases hs with rfl | rfl <;> decide
    · cases h
  leaf n hn m hm hk := by
    have leaf : ∀ i, In (.mk i []) m → m.kids = [] := by
      intro i hi
      rcases (in_iff _ _).1 hi with rfl | ⟨o, c, hk, _⟩
      · rfl
      · cases hk
    simp only [pairNodes, List.mem_cons, List.not_mem_nil, or_false] at hn
    rcases hn with rfl | rfl <;> rcases (in_iff _ _).1 hm with rfl | ⟨o, c, hkc, hc⟩
    · rfl
    · simp only [Node.kids, List.mem_cons, List.not_mem_nil, or_false, Prod.mk.injEq] at hkc
      rcases hkc with ⟨_, rfl⟩ | ⟨_, rfl⟩ <;> exact absurd (leaf _ hc) hk
    · rfl
    · simp only [Node.kids, List.mem_cons, List.not_mem_nil, or_false, Prod.mk.injEq] at hkc
      rw [hkc.2] at hc; exact absurd (leaf _ hc) hk

example (v : Bool) (h' g : Heap) (e : process (pairDoc v) inOrder 5 pairNodes [0, 3] pair = some h')
    (eg : calls (pairDoc v) pairNodes [⟨backwards, [3, 0], 7⟩, ⟨inOrder, [3, 0], 9⟩] h' = some g) : g = h' := by
  refine C107_again_partial (pair_flat v) (pair_written v) ⟨inOrder, [0, 3], 5⟩ (fun _ _ => .refl _) e _ g ?_ eg
  intro a ha
  simp only [List.mem_cons, List.not_mem_nil, or_false] at ha
  rcases ha with rfl | rfl
  · exact ⟨fun _ _ => List.reverse_perm _, fun r => by simp [or_comm]⟩
  · exact ⟨fun _ _ => .refl _, fun r => by simp [or_comm]⟩

/-- Both succeed, and the required names are inherited once. -/
example (v : Bool) : (calls (pairDoc v) pairNodes [⟨inOrder, [0, 3], 5⟩, ⟨backwards, [3, 0], 7⟩] pair).map
    (fun h => ((h 1).required, (h 1).isRequired, (h 2).isRequired)) = some ([kX], true, false) := by cases v <;> decide

end Verif.Again
