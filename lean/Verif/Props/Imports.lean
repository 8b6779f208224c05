import Verif.Model.Imports

/-!
# C57: custom imports
-/

namespace Verif.Imports

/-! ## Specification -/

/-- The schema declares this import on itself, on a property at any depth, or on items at any depth. -/
inductive Carries : Sch → Import → Prop
  | own (i : Import) (ps : List (Str × Sch)) (it : Option Sch) (os : List Sch) : Carries (.mk (some i) ps it os) i
  | prop {own : Option Import} {ps : List (Str × Sch)} {it : Option Sch} {os : List Sch} {k : Str} {s : Sch}
      {i : Import} (hm : (k, s) ∈ ps) (h : Carries s i) : Carries (.mk own ps it os) i
  | item {own : Option Import} {ps : List (Str × Sch)} {os : List Sch} {s : Sch} {i : Import}
      (h : Carries s i) : Carries (.mk own ps (some s) os) i

/-- The schema declares this import anywhere. -/
inductive Declares : Sch → Import → Prop
  | own (i : Import) (ps : List (Str × Sch)) (it : Option Sch) (os : List Sch) : Declares (.mk (some i) ps it os) i
  | prop {own : Option Import} {ps : List (Str × Sch)} {it : Option Sch} {os : List Sch} {k : Str} {s : Sch}
      {i : Import} (hm : (k, s) ∈ ps) (h : Declares s i) : Declares (.mk own ps it os) i
  | item {own : Option Import} {ps : List (Str × Sch)} {os : List Sch} {s : Sch} {i : Import}
      (h : Declares s i) : Declares (.mk own ps (some s) os) i
  | other {own : Option Import} {ps : List (Str × Sch)} {it : Option Sch} {os : List Sch} {s : Sch}
      {i : Import} (hm : s ∈ os) (h : Declares s i) : Declares (.mk own ps it os) i

/-- The places of a document whose schemas are searched. -/
def Root (d : Doc) (s : Sch) : Prop :=
  (∃ k, (k, s) ∈ d.schemas) ∨ (∃ k g, (k, g) ∈ d.messages ∧ (g.payload = some s ∨ g.headers = some s)) ∨
    (d.v2 = true ∧ ∃ k, (k, some s) ∈ d.params)

/-- All places of a document where schemas are declared. -/
def AnyRoot (d : Doc) (s : Sch) : Prop :=
  (∃ k, (k, s) ∈ d.schemas) ∨ (∃ k g, (k, g) ∈ d.messages ∧ (g.payload = some s ∨ g.headers = some s)) ∨
    (∃ k, (k, some s) ∈ d.params) ∨ (∃ g ∈ d.inline, g.payload = some s ∨ g.headers = some s)

def DocCarries (d : Doc) (i : Import) : Prop := ∃ s, Root d s ∧ Carries s i

def DocDeclares (d : Doc) (i : Import) : Prop := ∃ s, AnyRoot d s ∧ Declares s i

/-- Two names for one path. -/
def Conflict (P : Import → Prop) : Prop := ∃ i j, P i ∧ P j ∧ i.path = j.path ∧ i.name ≠ j.name

/-! ## Proofs -/

/-- What is in the set. -/
def In (m : Set) (i : Import) : Prop := m.get i.path = some i.name

/-- The outcome of adding the imports `P` to a set: exactly these were added, or there is a conflict. -/
def Out (P : Import → Prop) (m : Set) : Option Set → Prop
  | some m' => m'.WF ∧ ∀ i, In m' i ↔ In m i ∨ P i
  | none => Conflict (fun i => In m i ∨ P i)

/-- A pass adds exactly the imports `P`, or fails because of a conflict. -/
def Adds (P : Import → Prop) (f : Set → Option Set) : Prop := ∀ m, m.WF → Out P m (f m)

theorem in_unique {m : Set} {i j : Import} (hi : In m i) (hj : In m j) (h : i.path = j.path) : i.name = j.name := by
  unfold In at hi hj; rw [h] at hi; rw [hi] at hj; exact Option.some.inj hj

theorem out_same {P : Import → Prop} (h : ∀ i, ¬ P i) {m : Set} (hw : m.WF) : Out P m (some m) :=
  ⟨hw, fun i => ⟨Or.inl, fun h' => h'.elim id (fun hp => absurd hp (h i))⟩⟩

/-- One pass after another. -/
theorem out_seq {P Q R : Import → Prop} {r : Option Set} {g : Set → Option Set} {m : Set} (h1 : Out P m r)
    (hg : Adds Q g) (hR : ∀ i, R i ↔ P i ∨ Q i) : Out R m (r.bind g) := by
  cases r with
  | none =>
    obtain ⟨i, j, hi, hj, h⟩ := h1
    exact ⟨i, j, hi.elim Or.inl (fun h => Or.inr ((hR i).2 (Or.inl h))),
      hj.elim Or.inl (fun h => Or.inr ((hR j).2 (Or.inl h))), h⟩
  | some m' =>
    obtain ⟨hw', hin⟩ := h1
    have h2 := hg m' hw'
    rw [Option.bind_some]
    cases hgm : g m' with
    | none =>
      rw [hgm] at h2
      obtain ⟨i, j, hi, hj, h⟩ := h2
      have conv : ∀ i, (In m' i ∨ Q i) → (In m i ∨ R i) := by
        intro i hi
        rcases hi with hi | hi
        · exact ((hin i).1 hi).elim Or.inl (fun h => Or.inr ((hR i).2 (Or.inl h)))
        · exact Or.inr ((hR i).2 (Or.inr hi))
      exact ⟨i, j, conv i hi, conv j hj, h⟩
    | some m'' =>
      rw [hgm] at h2
      refine ⟨h2.1, fun i => ?_⟩
      rw [h2.2 i, hin i, hR i, or_assoc]

theorem out_congr {P Q : Import → Prop} {m : Set} {r : Option Set} (h : Out P m r) (hPQ : ∀ i, P i ↔ Q i) :
    Out Q m r := by
  have : P = Q := funext (fun i => propext (hPQ i))
  rw [← this]; exact h

theorem adds_own (own : Option Import) : Adds (fun i => own = some i) (addOwn own) := by
  intro m hw
  cases own with
  | none => exact out_same (by intro i h; cases h) hw
  | some i =>
    simp only [addOwn]
    cases hg : m.get i.path with
    | none =>
      refine ⟨GoMap.wf_put hw _ _, fun j => ?_⟩
      unfold In
      rw [GoMap.get_put]
      by_cases h : i.path = j.path
      · rw [if_pos h]
        constructor
        · intro h'
          right
          cases i; cases j; simp at h h' ⊢; exact ⟨h', h⟩
        · rintro (h' | h')
          · rw [← h, hg] at h'; cases h'
          · cases h'; rfl
      · rw [if_neg h]
        constructor
        · exact Or.inl
        · rintro (h' | h')
          · exact h'
          · cases h'; exact absurd rfl h
    | some n =>
      simp only
      by_cases hn : n = i.name
      · rw [if_neg (fun h => h hn)]
        refine ⟨hw, fun j => ⟨Or.inl, ?_⟩⟩
        rintro (h | h)
        · exact h
        · cases h; unfold In; rw [hg, hn]
      · rw [if_pos hn]
        exact ⟨⟨n, i.path⟩, i, Or.inl hg, Or.inr rfl, rfl, hn⟩

mutual
theorem adds_visit : ∀ s : Sch, Adds (Carries s) (visit s)
  | .mk own ps it os => by
    intro m hw
    rw [visit]
    refine out_seq (out_seq (adds_visitProps ps m hw) (adds_visitItems it) (fun i => Iff.rfl)) (adds_own own) ?_
    intro i
    constructor
    · intro hc
      cases hc with
      | own => exact Or.inr rfl
      | prop hm h => exact Or.inl (Or.inl ⟨_, _, hm, h⟩)
      | item h => exact Or.inl (Or.inr ⟨_, rfl, h⟩)
    · rintro ((⟨k, s, hm, hc⟩ | ⟨s, rfl, hc⟩) | rfl)
      · exact .prop hm hc
      · exact .item hc
      · exact .own i ps it os
theorem adds_visitProps : ∀ ps : List (Str × Sch), Adds (fun i => ∃ k s, (k, s) ∈ ps ∧ Carries s i) (visitProps ps)
  | [] => by
    intro m hw
    rw [visitProps]
    exact out_same (by rintro i ⟨k, s, hm, _⟩; cases hm) hw
  | (k, s) :: ps => by
    intro m hw
    rw [visitProps]
    refine out_seq (adds_visit s m hw) (adds_visitProps ps) ?_
    intro i
    constructor
    · rintro ⟨k', s', hm, hc⟩
      rcases List.mem_cons.1 hm with he | hm
      · cases he; exact Or.inl hc
      · exact Or.inr ⟨k', s', hm, hc⟩
    · rintro (hc | ⟨k', s', hm, hc⟩)
      · exact ⟨k, s, List.mem_cons_self, hc⟩
      · exact ⟨k', s', List.mem_cons_of_mem _ hm, hc⟩
theorem adds_visitItems : ∀ it : Option Sch, Adds (fun i => ∃ s, it = some s ∧ Carries s i) (visitItems it)
  | none => by
    intro m hw
    rw [visitItems]
    exact out_same (by rintro i ⟨s, h, _⟩; cases h) hw
  | some s => by
    intro m hw
    rw [visitItems]
    refine out_congr (adds_visit s m hw) ?_
    intro i
    constructor
    · exact fun h => ⟨s, rfl, h⟩
    · rintro ⟨s', h, hc⟩; cases h; exact hc
end

theorem adds_visitMsgs (gs : List (Str × Msg)) :
    Adds (fun i => ∃ k g s, (k, g) ∈ gs ∧ (g.payload = some s ∨ g.headers = some s) ∧ Carries s i) (visitMsgs gs) := by
  induction gs with
  | nil =>
    intro m hw
    rw [visitMsgs]
    exact out_same (by rintro i ⟨k, g, s, hm, _⟩; cases hm) hw
  | cons e gs ih =>
    obtain ⟨k, g⟩ := e
    intro m hw
    rw [visitMsgs]
    refine out_seq (out_seq (adds_visitItems g.payload m hw) (adds_visitItems g.headers) (fun i => Iff.rfl)) ih ?_
    intro i
    constructor
    · rintro ⟨k', g', s, hm, hs, hc⟩
      rcases List.mem_cons.1 hm with he | hm
      · cases he
        rcases hs with hs | hs
        · exact Or.inl (Or.inl ⟨s, hs, hc⟩)
        · exact Or.inl (Or.inr ⟨s, hs, hc⟩)
      · exact Or.inr ⟨k', g', s, hm, hs, hc⟩
    · rintro ((⟨s, hs, hc⟩ | ⟨s, hs, hc⟩) | ⟨k', g', s, hm, hs, hc⟩)
      · exact ⟨k, g, s, List.mem_cons_self, Or.inl hs, hc⟩
      · exact ⟨k, g, s, List.mem_cons_self, Or.inr hs, hc⟩
      · exact ⟨k', g', s, List.mem_cons_of_mem _ hm, hs, hc⟩

theorem adds_visitParams (ps : List (Str × Option Sch)) :
    Adds (fun i => ∃ k s, (k, some s) ∈ ps ∧ Carries s i) (visitParams ps) := by
  induction ps with
  | nil =>
    intro m hw
    rw [visitParams]
    exact out_same (by rintro i ⟨k, s, hm, _⟩; cases hm) hw
  | cons e ps ih =>
    obtain ⟨k, p⟩ := e
    intro m hw
    rw [visitParams]
    refine out_seq (adds_visitItems p m hw) ih ?_
    intro i
    constructor
    · rintro ⟨k', s, hm, hc⟩
      rcases List.mem_cons.1 hm with he | hm
      · cases he; exact Or.inl ⟨s, rfl, hc⟩
      · exact Or.inr ⟨k', s, hm, hc⟩
    · rintro (⟨s, rfl, hc⟩ | ⟨k', s, hm, hc⟩)
      · exact ⟨k, s, List.mem_cons_self, hc⟩
      · exact ⟨k', s, List.mem_cons_of_mem _ hm, hc⟩

/-- The set collected from a document, before it is made a list. -/
def collect (d : Doc) : Option Set := ((visitProps d.schemas []).bind (visitMsgs d.messages)).bind (params d)

theorem customImports_eq (d : Doc) : customImports d = (collect d).map toList := rfl

theorem collect_out (d : Doc) : Out (DocCarries d) [] (collect d) := by
  have hp : Adds (fun i => d.v2 = true ∧ ∃ k s, (k, some s) ∈ d.params ∧ Carries s i) (params d) := by
    intro m hw
    unfold params
    cases hv : d.v2 with
    | true => exact out_congr (adds_visitParams d.params m hw) (fun i => by simp)
    | false => exact out_same (by rintro i ⟨h, _⟩; cases h) hw
  refine out_seq (out_seq (adds_visitProps d.schemas [] GoMap.wf_nil) (adds_visitMsgs d.messages) (fun i => Iff.rfl)) hp ?_
  intro i
  constructor
  · rintro ⟨s, (⟨k, hm⟩ | ⟨k, g, hm, hs⟩ | ⟨hv, k, hm⟩), hc⟩
    · exact Or.inl (Or.inl ⟨k, s, hm, hc⟩)
    · exact Or.inl (Or.inr ⟨k, g, s, hm, hs, hc⟩)
    · exact Or.inr ⟨hv, k, s, hm, hc⟩
  · rintro ((⟨k, s, hm, hc⟩ | ⟨k, g, s, hm, hs, hc⟩) | ⟨hv, k, s, hm, hc⟩)
    · exact ⟨s, Or.inl ⟨k, hm⟩, hc⟩
    · exact ⟨s, Or.inr (Or.inl ⟨k, g, hm, hs⟩), hc⟩
    · exact ⟨s, Or.inr (Or.inr ⟨hv, k, hm⟩), hc⟩

theorem not_in_nil (i : Import) : ¬ In ([] : Set) i := by intro h; cases h

theorem collect_some {d : Doc} {m : Set} (h : collect d = some m) : m.WF ∧ ∀ i, In m i ↔ DocCarries d i := by
  have := collect_out d
  rw [h] at this
  exact ⟨this.1, fun i => (this.2 i).trans ⟨fun h => h.resolve_left (not_in_nil i), Or.inr⟩⟩

theorem collect_none {d : Doc} (h : collect d = none) : Conflict (DocCarries d) := by
  have := collect_out d
  rw [h] at this
  obtain ⟨i, j, hi, hj, h⟩ := this
  exact ⟨i, j, hi.resolve_left (not_in_nil i), hj.resolve_left (not_in_nil j), h⟩

/-- The collection fails exactly when two names are given to one path, whatever the order of iteration. -/
theorem C57_conflict (d : Doc) : customImports d = none ↔ Conflict (DocCarries d) := by
  rw [customImports_eq]
  cases hc : collect d with
  | none => exact ⟨fun _ => collect_none hc, fun _ => rfl⟩
  | some m =>
    have h := collect_some hc
    simp only [Option.map_some, reduceCtorEq, false_iff]
    rintro ⟨i, j, hi, hj, hp, hn⟩
    exact hn (in_unique ((h.2 i).2 hi) ((h.2 j).2 hj) hp)

/-- When it succeeds, the imports are those declared in the components, once per path; those without a path
are left out. -/
theorem C57_collected (d : Doc) (l : List Import) (h : customImports d = some l) :
    (∀ i, i ∈ l ↔ DocCarries d i ∧ i.path ≠ []) ∧ (l.map (·.path)).Nodup := by
  rw [customImports_eq] at h
  cases hc : collect d with
  | none => rw [hc] at h; cases h
  | some m =>
    have hs := collect_some hc
    rw [hc] at h
    simp only [Option.map_some, Option.some.injEq] at h
    obtain ⟨hw, hin⟩ := hs
    constructor
    · intro i
      rw [← h, toList, ← hin i]
      simp only [List.mem_map, List.mem_filter, Prod.exists]
      constructor
      · rintro ⟨p, n, ⟨hm, hp⟩, rfl⟩
        exact ⟨GoMap.get_of_mem hw hm, by simpa using hp⟩
      · rintro ⟨hg, hp⟩
        exact ⟨i.path, i.name, ⟨GoMap.mem_of_get hg, by simpa using hp⟩, rfl⟩
    · rw [← h, toList, List.map_map]
      have : ((fun x : Import => x.path) ∘ fun e : Str × Str => (⟨e.2, e.1⟩ : Import)) = (·.1) := rfl
      rw [this]
      exact List.Nodup.sublist (List.filter_sublist.map _) hw

/-- Reordering the maps of a document, at the roots or at any depth, changes neither whether it is refused
nor which imports are collected: both depend only on what is declared. -/
theorem C57_order (d d' : Doc) (h : ∀ i, DocCarries d i ↔ DocCarries d' i) :
    (customImports d = none ↔ customImports d' = none) ∧
      ∀ l l', customImports d = some l → customImports d' = some l' → l.Perm l' := by
  have he : DocCarries d = DocCarries d' := funext (fun i => propext (h i))
  refine ⟨by rw [C57_conflict, C57_conflict, he], ?_⟩
  intro l l' hl hl'
  obtain ⟨h1, h2⟩ := C57_collected d l hl
  obtain ⟨h1', h2'⟩ := C57_collected d' l' hl'
  have nd : ∀ l : List Import, (l.map (·.path)).Nodup → l.Nodup := by
    intro l hn
    induction l with
    | nil => simp
    | cons a l ih =>
      simp only [List.map_cons, List.nodup_cons] at hn ⊢
      exact ⟨fun hm => hn.1 (List.mem_map_of_mem hm), ih hn.2⟩
  exact (List.perm_ext_iff_of_nodup (nd l h2) (nd l' h2')).2 (fun i => by rw [h1, h1', he])

/-- Permuting the properties of a schema is such a reordering. -/
theorem C57_reorder {own : Option Import} {ps ps' : List (Str × Sch)} (hp : ps.Perm ps') (it : Option Sch)
    (os : List Sch) (i : Import) : Carries (.mk own ps it os) i ↔ Carries (.mk own ps' it os) i := by
  constructor
  · intro h
    cases h with
    | own => exact .own ..
    | prop hm h => exact .prop (hp.mem_iff.1 hm) h
    | item h => exact .item h
  · intro h
    cases h with
    | own => exact .own ..
    | prop hm h => exact .prop (hp.mem_iff.2 hm) h
    | item h => exact .item h

/-- The schema holds no schema elsewhere than in properties and items, at any depth. -/
inductive Plain : Sch → Prop
  | mk (own : Option Import) (ps : List (Str × Sch)) (it : Option Sch) (hp : ∀ e ∈ ps, Plain e.2)
      (hi : ∀ s, it = some s → Plain s) : Plain (.mk own ps it [])

theorem carries_of_declares {s : Sch} (hp : Plain s) {i : Import} (h : Declares s i) : Carries s i := by
  induction h with
  | own => exact .own ..
  | prop hm _ ih => cases hp with | mk _ _ _ hp hi => exact .prop hm (ih (hp _ hm))
  | item _ ih => cases hp with | mk _ _ _ hp hi => exact .item (ih (hi _ rfl))
  | other hm _ _ => cases hp; cases hm

theorem declares_of_carries {s : Sch} {i : Import} (h : Carries s i) : Declares s i := by
  induction h with
  | own => exact .own ..
  | prop hm _ ih => exact .prop hm ih
  | item _ ih => exact .item ih

/-- For documents whose schemas are built of properties and items only, without messages declared inside
channels (and for version 3 without parameters): every declared import is collected. -/
theorem C57_every_partial (d : Doc) (hpl : ∀ s, AnyRoot d s → Plain s) (hin : d.inline = [])
    (hpar : d.v2 = true ∨ d.params = []) (i : Import) : DocCarries d i ↔ DocDeclares d i := by
  have hroot : ∀ s, AnyRoot d s → Root d s := by
    rintro s (h | h | ⟨k, h⟩ | ⟨g, h, _⟩)
    · exact Or.inl h
    · exact Or.inr (Or.inl h)
    · rcases hpar with hv | hp
      · exact Or.inr (Or.inr ⟨hv, k, h⟩)
      · rw [hp] at h; cases h
    · rw [hin] at h; cases h
  constructor
  · rintro ⟨s, hr, hc⟩
    refine ⟨s, ?_, declares_of_carries hc⟩
    rcases hr with h | h | ⟨_, h⟩
    · exact Or.inl h
    · exact Or.inr (Or.inl h)
    · exact Or.inr (Or.inr (Or.inl h))
  · rintro ⟨s, hr, hc⟩
    exact ⟨s, hroot s hr, carries_of_declares (hpl s hr) hc⟩

def uuid : Import := ⟨[], ['u']⟩

/-- A document whose only import is on the additional properties of a schema: it is declared and not
collected. -/
theorem C57_violated_additional :
    let d : Doc := ⟨true, [(['A'], .mk none [] none [.mk (some uuid) [] none []])], [], [], []⟩
    DocDeclares d uuid ∧ customImports d = some [] :=
  ⟨⟨.mk none [] none [.mk (some uuid) [] none []], Or.inl ⟨['A'], List.mem_singleton.2 rfl⟩, .other (List.mem_singleton.2 rfl) (.own ..)⟩, rfl⟩

/-- The same with a message declared inside a channel. -/
theorem C57_violated_inline :
    let d : Doc := ⟨false, [], [], [], [⟨some (.mk (some uuid) [] none []), none⟩]⟩
    DocDeclares d uuid ∧ customImports d = some [] :=
  ⟨⟨_, Or.inr (Or.inr (Or.inr ⟨_, List.mem_singleton.2 rfl, Or.inl rfl⟩)), .own ..⟩, rfl⟩

/-- Non-vacuity: two properties, one nested in items, with two paths; and a conflict. -/
example : customImports ⟨false, [(['A'], .mk none [(['p'], .mk (some uuid) [] none []),
    (['q'], .mk none [] (some (.mk (some ⟨['n'], ['t']⟩) [] none [])) [])] none [])], [], [], []⟩ =
    some [⟨['n'], ['t']⟩, uuid] := rfl

example : customImports ⟨false, [(['A'], .mk none [(['p'], .mk (some uuid) [] none []),
    (['q'], .mk (some ⟨['n'], ['u']⟩) [] none [])] none [])], [], [], []⟩ = none := rfl

end Verif.Imports
