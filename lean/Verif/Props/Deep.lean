import Verif.Props.Process
import Verif.Props.Compose

/-! # C67 for documents of any shape: compositions at any depth, in properties and items, recursive types -/

namespace Verif.Process

open SchemaMerge (Ref Sch Heap mergeWith merge_keys)

/-- The properties a schema has by the document: its own, those of the schema it refers to, those of its branches. -/
inductive HasKey (d : Doc) (h0 : Heap) : Nat → Str → Prop
  | own {s : Nat} {k : Str} : (h0 s).props.get k ≠ none → HasKey d h0 s k
  | ref {s t : Nat} {k : Str} : d.refs s = some t → HasKey d h0 t k → HasKey d h0 s k
  | branch {s b : Nat} {k : Str} : Ref.ptr b ∈ comps (h0 s) → HasKey d h0 b k → HasKey d h0 s k

/-- `x` is written inside `s` (or is `s`). -/
inductive Within (d : Doc) (h0 : Heap) : Nat → Nat → Prop
  | self {s : Nat} : Within d h0 s s
  | prop {s c x : Nat} {k : Str} : (k, Ref.ptr c) ∈ (h0 s).props → Within d h0 c x → Within d h0 s x
  | before {s c x : Nat} : c ∈ d.before s → Within d h0 c x → Within d h0 s x
  | after {s c x : Nat} : c ∈ d.after s → Within d h0 c x → Within d h0 s x
  | branch {s c x : Nat} : Ref.ptr c ∈ comps (h0 s) → Within d h0 c x → Within d h0 s x

/-- A branch of the composition `s`, or of a composition that is a branch of it and so on, refers to `t`. -/
inductive Needs (d : Doc) (h0 : Heap) : Nat → Nat → Prop
  | here {s b t : Nat} : Ref.ptr b ∈ comps (h0 s) → d.refs b = some t → Needs d h0 s t
  | deeper {s b t : Nat} : Ref.ptr b ∈ comps (h0 s) → Needs d h0 b t → Needs d h0 s t

/-- A document that has been read: no pointers but those to its schemas; a reference has no alternatives beside it; what is
referred to is no reference. -/
structure Plain (d : Doc) (h0 : Heap) : Prop where
  fresh : Unprocessed h0
  ptrs : ∀ s, ∀ x ∈ comps (h0 s), ∃ b, x = .ptr b
  bare : ∀ s t, d.refs s = some t → comps (h0 s) = []
  direct : ∀ s t, d.refs s = some t → d.refs t = none

/-- The references in the compositions within a root lead to schemas within roots that come earlier. -/
def Earlier (d : Doc) (h0 : Heap) (roots : List Nat) : Prop :=
  ∀ pre r post, roots = pre ++ r :: post → ∀ x, Within d h0 r x → ∀ t, Needs d h0 x t → ∃ q ∈ pre, Within d h0 q t

variable {d : Doc} {h0 : Heap} {ord : Heap → Nat → List Ref}

/-! ## Nothing comes from elsewhere -/

/-- Nothing has properties the document does not give it. -/
structure Sound (d : Doc) (h0 h : Heap) : Prop where
  key : ∀ s k, (h s).props.get k ≠ none → HasKey d h0 s k
  comp : ∀ s, ∀ x ∈ comps (h s), ∀ k, HasKey d h0 (core x) k → HasKey d h0 s k
  target : ∀ s r, (h s).refTo = some r → ∃ t, d.refs s = some t ∧ r = .ptr t

theorem sound_start (hp : Plain d h0) : Sound d h0 h0 where
  key _ _ h := .own h
  comp s x hx k hk := by
    obtain ⟨b, rfl⟩ := hp.ptrs s x hx
    exact .branch hx hk
  target s r hr := by rw [hp.fresh s] at hr; cases hr

theorem sound_reference {h : Heap} (hi : Sound d h0 h) (s : Nat) : Sound d h0 (setReference d h s) := by
  refine ⟨fun q k hk => hi.key q k (by rwa [reference_props] at hk), fun q x hx k hk => ?_, fun q r hq => ?_⟩
  · by_cases hqs : q = s
    · subst hqs
      cases hr : d.refs q with
      | none =>
        have : setReference d h q = h := by unfold setReference; rw [hr]
        rw [this] at hx; exact hi.comp q x hx k hk
      | some t =>
        obtain ⟨f, hf, hx⟩ := (mem_comps _ _).1 hx
        rw [list_reference f hf h q t hr] at hx
        rcases alternatives_mem hx with ⟨_, hx⟩ | hx
        · exact .ref hr (hi.comp t x ((mem_comps _ _).2 ⟨f, hf, hx⟩) k hk)
        · exact hi.comp q x ((mem_comps _ _).2 ⟨f, hf, hx⟩) k hk
    · rw [reference_other h s q hqs] at hx; exact hi.comp q x hx k hk
  · by_cases hqs : q = s
    · subst hqs
      unfold setReference at hq
      cases hr : d.refs q with
      | none => rw [hr] at hq; rw [← hr]; exact hi.target q r hq
      | some t =>
        rw [hr] at hq
        simp only [set_self] at hq
        exact ⟨t, rfl, (Option.some.inj hq).symm⟩
    · rw [reference_other h s q hqs] at hq; exact hi.target q r hq

theorem sound_look {h : Heap} (hi : Sound d h0 h) (v : Ref) (k : Str) (hk : (h.look v).props.get k ≠ none) :
    HasKey d h0 (core v) k := by
  cases v with
  | ptr b => exact hi.key b k hk
  | wrap w req => exact absurd rfl hk

theorem sound_target {h : Heap} (hi : Sound d h0 h) (v r : Ref) (hr : (h.look v).refTo = some r) (k : Str)
    (hk : HasKey d h0 (core r) k) : HasKey d h0 (core v) k := by
  cases v with
  | ptr b =>
    obtain ⟨t, ht, rfl⟩ := hi.target b r hr
    exact .ref ht hk
  | wrap w req =>
    have : w = r := Option.some.inj hr
    subst this; exact hk

theorem sound_merge {h : Heap} (hi : Sound d h0 h) (s : Nat) (v : Ref)
    (hv : ∀ k, HasKey d h0 (core v) k → HasKey d h0 s k) :
    Sound d h0 (h.set s (mergeWith h.look (h s) (h.look v))) := by
  refine ⟨fun q k hk => ?_, fun q x hx k hk => ?_, fun q r hq => ?_⟩
  · by_cases hqs : q = s
    · subst hqs
      rw [set_self] at hk
      rcases (merge_keys _ _ _ _).1 hk with hk | hk | ⟨r, hr, hk⟩
      · exact hi.key q k hk
      · exact hv k (sound_look hi v k hk)
      · exact hv k (sound_target hi v r hr k (sound_look hi r k hk))
    · rw [set_other _ _ _ _ hqs] at hk; exact hi.key q k hk
  · by_cases hqs : q = s
    · subst hqs
      rw [set_self] at hx
      rcases merge_comps h _ _ x hx with hx | hx | ⟨r, hr, x', hx', hc⟩
      · exact hi.comp q x hx k hk
      · cases v with
        | ptr b => exact hv k (hi.comp b x hx k hk)
        | wrap w req => simp [Heap.look, comps] at hx
      · rw [hc] at hk
        refine hv k (sound_target hi v r hr k ?_)
        cases r with
        | ptr t => exact hi.comp t x' hx' k hk
        | wrap w req => simp [Heap.look, comps] at hx'
    · rw [set_other _ _ _ _ hqs] at hx; exact hi.comp q x hx k hk
  · by_cases hqs : q = s
    · subst hqs; rw [set_self, merge_refTo] at hq; exact hi.target q r hq
    · rw [set_other _ _ _ _ hqs] at hq; exact hi.target q r hq

theorem visitMerge_sound {visit : Heap → Ref → Option Heap} (hv : ∀ h v h', Sound d h0 h → visit h v = some h' → Sound d h0 h')
    {s : Nat} : ∀ (vs : List Ref) (h h' : Heap), Sound d h0 h → (∀ v ∈ vs, ∀ k, HasKey d h0 (core v) k → HasKey d h0 s k) →
    visitMerge visit s h vs = some h' → Sound d h0 h'
  | [], h, h', hi, _, e => by cases e; exact hi
  | v :: vs, h, h', hi, hm, e => by
    rw [visitMerge] at e
    cases e1 : visit h v with
    | none => rw [e1] at e; cases e
    | some h1 =>
      rw [e1] at e
      exact visitMerge_sound hv vs _ h' (sound_merge (hv h v h1 hi e1) s v (hm v (.head _))) (fun w hw => hm w (.tail _ hw)) e

theorem visit_sound : ∀ (n : Nat) (h : Heap) (v : Ref) (h' : Heap), Sound d h0 h →
    setDependencies d ord n h v = some h' → Sound d h0 h'
  | 0, _, _, _, _, e => by cases e
  | n + 1, h, .wrap w req, h', hi, e => by cases e; exact hi
  | n + 1, h, .ptr s, h', hi, e => by
    have hv : ∀ h v h', Sound d h0 h → setDependencies d ord n h v = some h' → Sound d h0 h' :=
      fun h v h' => visit_sound n h v h'
    rw [setDependencies] at e
    obtain ⟨h1, e1, e⟩ := Option.bind_eq_some_iff.1 e
    have p1 := visitAll_stable hv _ _ _ (sound_reference hi s) e1
    unfold visitRest at e
    obtain ⟨h2, e2, e⟩ := Option.bind_eq_some_iff.1 e
    obtain ⟨h3, e3, e⟩ := Option.bind_eq_some_iff.1 e
    obtain ⟨h4, e4, e⟩ := Option.bind_eq_some_iff.1 e
    obtain ⟨h5, e5, e⟩ := Option.bind_eq_some_iff.1 e
    have p2 := visitAll_stable hv _ _ _ p1 e2
    have lists : ∀ (f : Sch → List Ref), IsList f → ∀ g g', Sound d h0 g →
        visitMerge (setDependencies d ord n) s g (f (g s)) = some g' → Sound d h0 g' := fun f hf g g' hg eg =>
      visitMerge_sound hv _ _ _ hg (fun v hvm => hg.comp s v ((mem_comps _ _).2 ⟨f, hf, hvm⟩)) eg
    have p3 := lists _ (.inr (.inl rfl)) _ _ p2 e3
    have p4 := lists _ (.inr (.inr rfl)) _ _ p3 e4
    have p5 := lists _ (.inl rfl) _ _ p4 e5
    exact visitAll_stable hv _ _ _ p5 e

/-- **C67** (no property from elsewhere): for every document, every order and every shape of schemas, a schema that was
processed has no property the document does not give it. -/
theorem C67_sound (hp : Plain d h0) (n : Nat) (roots : List Nat) (h' : Heap)
    (e : processAll d ord n h0 roots = some h') (s : Nat) (k : Str) (hk : (h' s).props.get k ≠ none) : HasKey d h0 s k :=
  (visitAll_stable (visit_sound n) _ _ _ (sound_start hp) e).key s k hk

/-! ## Nothing is missing -/

/-- The schema has all its properties. -/
def Done (d : Doc) (h0 h : Heap) (s : Nat) : Prop := ∀ k, HasKey d h0 s k → (h s).props.get k ≠ none

theorem stable_key (s : Nat) (k : Str) : Stable d (fun h => (h s).props.get k ≠ none) := by
  refine ⟨fun h q hn => ?_, fun h q v hn => ?_⟩
  · show (setReference d h q s).props.get k ≠ none
    rw [reference_props]; exact hn
  · show (h.set q _ s).props.get k ≠ none
    by_cases hq : s = q
    · subst hq; rw [set_self]; exact (merge_keys _ _ _ _).2 (.inl hn)
    · rw [set_other _ _ _ _ hq]; exact hn

theorem stable_forall {α : Type} {P : α → Heap → Prop} (hP : ∀ a, Stable d (P a)) : Stable d (fun h => ∀ a, P a h) :=
  ⟨fun h s hp a => (hP a).1 h s (hp a), fun h s v hp a => (hP a).2 h s v (hp a)⟩

theorem stable_imp {A : Prop} {P : Heap → Prop} (hP : Stable d P) : Stable d (fun h => A → P h) :=
  ⟨fun h s hp a => hP.1 h s (hp a), fun h s v hp a => hP.2 h s v (hp a)⟩

theorem stable_done (s : Nat) : Stable d (fun h => Done d h0 h s) :=
  stable_forall fun k => stable_imp (stable_key s k)

theorem stable_points (b t : Nat) (hr : d.refs b = some t) : Stable d (fun h => (h b).refTo = some (.ptr t)) := by
  refine ⟨fun h q hn => ?_, fun h q v hn => ?_⟩
  · show (setReference d h q b).refTo = _
    by_cases hq : b = q
    · subst hq; simp [setReference, hr, set_self]
    · rw [reference_other h q b hq]; exact hn
  · show (h.set q _ b).refTo = _
    by_cases hq : b = q
    · subst hq; rw [set_self, merge_refTo]; exact hn
    · rw [set_other _ _ _ _ hq]; exact hn

/-- One of the visits of a list. -/
theorem visitAll_mem {P : Heap → Prop} (hP : Stable d P) {n : Nat} (x : Ref) : ∀ (vs : List Ref) (h h' : Heap), P h → x ∈ vs →
    visitAll (setDependencies d ord n) h vs = some h' → ∃ g g', P g ∧ setDependencies d ord n g x = some g' ∧
      ∀ Q, Stable d Q → Q g' → Q h'
  | v :: vs, h, h', hp, hm, e => by
    rw [visitAll] at e
    cases e1 : setDependencies d ord n h v with
    | none => rw [e1] at e; cases e
    | some h1 =>
      rw [e1] at e
      rcases List.mem_cons.1 hm with rfl | hm
      · exact ⟨h, h1, hp, e1, fun Q hQ hq => visitAll_stable (fun h v h' => visit_stable hQ n h v h') _ _ _ hq e⟩
      · exact visitAll_mem hP x vs h1 h' (visit_stable hP n h v h1 hp e1) hm e

/-- One of the visits of a list of alternatives, and its merge. -/
theorem visitMerge_mem {P : Heap → Prop} (hP : Stable d P) {n s : Nat} (x : Ref) : ∀ (vs : List Ref) (h h' : Heap), P h →
    x ∈ vs → visitMerge (setDependencies d ord n) s h vs = some h' → ∃ g g', P g ∧ setDependencies d ord n g x = some g' ∧
      ∀ Q, Stable d Q → Q (g'.set s (mergeWith g'.look (g' s) (g'.look x))) → Q h'
  | v :: vs, h, h', hp, hm, e => by
    rw [visitMerge] at e
    cases e1 : setDependencies d ord n h v with
    | none => rw [e1] at e; cases e
    | some h1 =>
      rw [e1] at e
      rcases List.mem_cons.1 hm with rfl | hm
      · exact ⟨h, h1, hp, e1, fun Q hQ hq => visitMerge_stable hQ (fun h v h' => visit_stable hQ n h v h') _ _ _ hq e⟩
      · exact visitMerge_mem hP x vs _ h' (hP.2 h1 s v (visit_stable hP n h v h1 hp e1)) hm e

/-- What a visit of `s` does: it visits the properties, the other schemas inside, and visits and merges the alternatives. -/
theorem visit_parts {P : Heap → Prop} (hP : Stable d P) (hk : ∀ h, P h → Kept d h0 h) (ho : Ranges ord) {n s : Nat} {h h' : Heap} (hp : P h)
    (e : setDependencies d ord (n + 1) h (.ptr s) = some h') :
    (∀ c, (∃ k, (k, Ref.ptr c) ∈ (h0 s).props) ∨ c ∈ d.before s ∨ c ∈ d.after s →
      ∃ g g', P g ∧ setDependencies d ord n g (.ptr c) = some g' ∧ ∀ Q, Stable d Q → Q g' → Q h') ∧
    (d.refs s = none → ∀ b, Ref.ptr b ∈ comps (h0 s) →
      ∃ g g', P g ∧ setDependencies d ord n g (.ptr b) = some g' ∧
        ∀ Q, Stable d Q → Q (g'.set s (mergeWith g'.look (g' s) (g' b))) → Q h') := by
  rw [setDependencies] at e
  obtain ⟨h1, e1, e⟩ := Option.bind_eq_some_iff.1 e
  have hv : ∀ {Q : Heap → Prop}, Stable d Q → ∀ h v h', Q h → setDependencies d ord n h v = some h' → Q h' :=
    fun hQ h v h' => visit_stable hQ n h v h'
  have p0 := hP.1 h s hp
  have p1 := visitAll_stable (hv hP) _ _ _ p0 e1
  unfold visitRest at e
  obtain ⟨h2, e2, e⟩ := Option.bind_eq_some_iff.1 e
  obtain ⟨h3, e3, e⟩ := Option.bind_eq_some_iff.1 e
  obtain ⟨h4, e4, e⟩ := Option.bind_eq_some_iff.1 e
  obtain ⟨h5, e5, e⟩ := Option.bind_eq_some_iff.1 e
  have p2 := visitAll_stable (hv hP) _ _ _ p1 e2
  have p3 := visitMerge_stable hP (hv hP) _ _ _ p2 e3
  have p4 := visitMerge_stable hP (hv hP) _ _ _ p3 e4
  have p5 := visitMerge_stable hP (hv hP) _ _ _ p4 e5
  have q5 : ∀ Q, Stable d Q → Q h5 → Q h' := fun Q hQ q => visitAll_stable (hv hQ) _ _ _ q e
  have q4 : ∀ Q, Stable d Q → Q h4 → Q h' := fun Q hQ q => q5 Q hQ (visitMerge_stable hQ (hv hQ) _ _ _ q e5)
  have q3 : ∀ Q, Stable d Q → Q h3 → Q h' := fun Q hQ q => q4 Q hQ (visitMerge_stable hQ (hv hQ) _ _ _ q e4)
  have q2 : ∀ Q, Stable d Q → Q h2 → Q h' := fun Q hQ q => q3 Q hQ (visitMerge_stable hQ (hv hQ) _ _ _ q e3)
  have q1 : ∀ Q, Stable d Q → Q h1 → Q h' := fun Q hQ q => q2 Q hQ (visitAll_stable (hv hQ) _ _ _ q e2)
  refine ⟨?_, fun hr b hb => ?_⟩
  · rintro c (⟨k, hc⟩ | hc | hc)
    · have hm : Ref.ptr c ∈ ord (setReference d h s) s :=
        (ho _ s).mem_iff.2 (List.mem_map.2 ⟨(k, .ptr c), (hk _ p0).prop s _ hc, rfl⟩)
      obtain ⟨g, g', pg, eg, hq⟩ := visitAll_mem hP _ _ _ _ p0 hm e1
      exact ⟨g, g', pg, eg, fun Q hQ q => q1 Q hQ (hq Q hQ q)⟩
    · obtain ⟨g, g', pg, eg, hq⟩ := visitAll_mem hP _ _ _ _ p1 (List.mem_map_of_mem hc) e2
      exact ⟨g, g', pg, eg, fun Q hQ q => q2 Q hQ (hq Q hQ q)⟩
    · obtain ⟨g, g', pg, eg, hq⟩ := visitAll_mem hP _ _ _ _ p5 (List.mem_map_of_mem hc) e
      exact ⟨g, g', pg, eg, hq⟩
  · obtain ⟨f, hf, hm⟩ := (mem_comps _ _).1 hb
    rcases hf with rfl | rfl | rfl
    · obtain ⟨g, g', pg, eg, hq⟩ := visitMerge_mem hP _ _ _ _ p4 ((hk _ p4).comp _ (.inl rfl) s hr _ hm) e5
      exact ⟨g, g', pg, eg, fun Q hQ q => q5 Q hQ (hq Q hQ q)⟩
    · obtain ⟨g, g', pg, eg, hq⟩ := visitMerge_mem hP _ _ _ _ p2 ((hk _ p2).comp _ (.inr (.inl rfl)) s hr _ hm) e3
      exact ⟨g, g', pg, eg, fun Q hQ q => q3 Q hQ (hq Q hQ q)⟩
    · obtain ⟨g, g', pg, eg, hq⟩ := visitMerge_mem hP _ _ _ _ p3 ((hk _ p3).comp _ (.inr (.inr rfl)) s hr _ hm) e4
      exact ⟨g, g', pg, eg, fun Q hQ q => q4 Q hQ (hq Q hQ q)⟩

/-- A reference that was visited points to its target. -/
theorem visit_points {n : Nat} {h h' : Heap} {b t : Nat} (hr : d.refs b = some t)
    (e : setDependencies d ord n h (.ptr b) = some h') : (h' b).refTo = some (.ptr t) := by
  cases n with
  | zero => cases e
  | succ n =>
    refine visit_after (P := fun h => (h b).refTo = some (.ptr t)) (stable_points b t hr) n
      (fun h v h' => visit_stable (stable_points b t hr) n h v h') h b h' ?_ e
    simp [setReference, hr, set_self]

/-- A schema inside the one that is visited has all its properties after the visit, if those its composition refers to
have. -/
theorem visit_done (hp : Plain d h0) (ho : Ranges ord) : ∀ (n : Nat) (h : Heap) (s : Nat) (h' : Heap),
    setDependencies d ord n h (.ptr s) = some h' → Kept d h0 h → ∀ x, Within d h0 s x → d.refs x = none →
    (∀ t, Needs d h0 x t → Done d h0 h t) → Done d h0 h' x
  | 0, _, _, _, e, _, _, _, _, _ => by cases e
  | n + 1, h, s, h', e, hk, x, hw, hx, hn => by
    have hP : Stable d (fun h => Kept d h0 h ∧ ∀ t, Needs d h0 x t → Done d h0 h t) :=
      stable_and stable_kept (stable_forall fun t => stable_imp (stable_done t))
    obtain ⟨kids, branches⟩ := visit_parts hP (fun h hp => hp.1) ho ⟨hk, hn⟩ e
    have kid : ∀ c, (∃ k, (k, Ref.ptr c) ∈ (h0 s).props) ∨ c ∈ d.before s ∨ c ∈ d.after s → Within d h0 c x →
        Done d h0 h' x := by
      intro c hc hw
      obtain ⟨g, g', pg, eg, hq⟩ := kids c hc
      exact hq _ (stable_done x) (visit_done hp ho n g c g' eg pg.1 x hw hx pg.2)
    cases hw with
    | prop hc hw => exact kid _ (.inl ⟨_, hc⟩) hw
    | before hc hw => exact kid _ (.inr (.inl hc)) hw
    | after hc hw => exact kid _ (.inr (.inr hc)) hw
    | @branch _ c _ hc hw =>
      have hr : d.refs s = none := by
        cases hr : d.refs s with
        | none => rfl
        | some t => rw [hp.bare s t hr] at hc; cases hc
      obtain ⟨g, g', pg, eg, hq⟩ := branches hr c hc
      exact hq _ (stable_done x) ((stable_done x).2 g' s (.ptr c) (visit_done hp ho n g c g' eg pg.1 x hw hx pg.2))
    | self =>
      intro k hh
      cases hh with
      | own ho' => exact visit_stable (stable_key s k) (n + 1) h (.ptr s) h' (by
          cases hg : (h0 s).props.get k with
          | none => exact absurd hg ho'
          | some v => exact SchemaMerge.get_ne_none_of_mem _ (k, v) (hk.prop s _ (GoMap.mem_of_get hg))) e
      | ref hr _ => rw [hx] at hr; cases hr
      | @branch _ b _ hb hh =>
        obtain ⟨g, g', pg, eg, hq⟩ := branches hx b hb
        refine hq _ (stable_key s k) ?_
        show (g'.set s _ s).props.get k ≠ none
        rw [set_self, merge_keys]
        cases hr : d.refs b with
        | none =>
          exact .inr (.inl (visit_done hp ho n g b g' eg pg.1 b .self hr (fun t ht => pg.2 t (.deeper hb ht)) k hh))
        | some t =>
          cases hh with
          | own ho' =>
            have := (visit_stable stable_kept n g (.ptr b) g' pg.1 eg).prop b
            cases hg : (h0 b).props.get k with
            | none => exact absurd hg ho'
            | some v => exact .inr (.inl (SchemaMerge.get_ne_none_of_mem _ (k, v) (this _ (GoMap.mem_of_get hg))))
          | ref hr' hh =>
            rw [hr] at hr'; cases hr'
            exact .inr (.inr ⟨.ptr t, visit_points hr eg, visit_stable (stable_done t) n g (.ptr b) g' (pg.2 t (.here hb hr)) eg k hh⟩)
          | branch hb' _ => rw [hp.bare b t hr] at hb'; cases hb'

theorem needs_ref {x t : Nat} (h : Needs d h0 x t) : ∃ b, d.refs b = some t := by
  induction h with
  | here _ hb => exact ⟨_, hb⟩
  | deeper _ _ ih => exact ih

/-- **C67** (part that holds; documents of any shape): when processing ends (C99) and every reference in a composition leads
to a schema within a root processed earlier, every schema within the roots, at whatever depth, that is no reference ends up
with exactly the properties the document gives it. -/
theorem C67_deep_partial (hp : Plain d h0) (ho : Ranges ord) (n : Nat) (roots : List Nat) (he : Earlier d h0 roots)
    (h' : Heap) (e : processAll d ord n h0 roots = some h') (r : Nat) (hr : r ∈ roots) (x : Nat) (hx : Within d h0 r x)
    (hn : d.refs x = none) (k : Str) : (h' x).props.get k ≠ none ↔ HasKey d h0 x k := by
  refine ⟨C67_sound hp n roots h' e x k, ?_⟩
  have main : ∀ (post pre : List Nat) (h : Heap), roots = pre ++ post → Kept d h0 h →
      (∀ q ∈ pre, ∀ x, Within d h0 q x → d.refs x = none → Done d h0 h x) →
      visitAll (setDependencies d ord n) h (post.map Ref.ptr) = some h' →
      ∀ q ∈ roots, ∀ x, Within d h0 q x → d.refs x = none → Done d h0 h' x := by
    intro post
    induction post with
    | nil =>
      intro pre h hr hk hd e
      cases e
      rw [List.append_nil] at hr
      rw [hr]; exact hd
    | cons s post ih =>
      intro pre h hr hk hd e
      rw [List.map_cons, visitAll] at e
      cases e1 : setDependencies d ord n h (.ptr s) with
      | none => rw [e1] at e; cases e
      | some h1 =>
        rw [e1] at e
        refine ih (pre ++ [s]) h1 (by rw [hr]; simp) (visit_stable stable_kept n h _ h1 hk e1) (fun q hq x hw hx => ?_) e
        rcases List.mem_append.1 hq with hq | hq
        · exact visit_stable (stable_done x) n h _ h1 (hd q hq x hw hx) e1
        · rcases List.mem_singleton.1 hq with rfl
          refine visit_done hp ho n h q h1 e1 hk x hw hx (fun t ht => ?_)
          obtain ⟨p, hpp, hwt⟩ := he pre q post hr x hw t ht
          refine hd p hpp t hwt ?_
          obtain ⟨b, hb⟩ := needs_ref ht
          exact hp.direct b t hb
  exact main roots [] h0 rfl (kept_start hp.fresh) (fun _ h => nomatch h) e r hr x hx hn k

/-! Non-vacuity: 0 is an object with a property 8 and a property 9 that refers to it; 1 is the composition of 2, itself a
composition of a reference 3 to 0 and an object 4, and of an object 5 whose property 6 is the composition of a reference
7 to 0. -/

def deepDoc (copies : Bool) : Doc where
  copies := copies
  refs s := if s = 3 ∨ s = 7 ∨ s = 9 then some 0 else none
  before _ := []
  after _ := []

def deepHeap : Heap := fun s =>
  if s = 0 then { props := [(['a'], .ptr 8), (['n'], .ptr 9)] } else if s = 1 then { allOf := [.ptr 2, .ptr 5] }
  else if s = 2 then { anyOf := [.ptr 3, .ptr 4] } else if s = 4 then { props := [(['b'], .ptr 10)] }
  else if s = 5 then { props := [(['c'], .ptr 6)] } else if s = 6 then { oneOf := [.ptr 7] } else {}

theorem deep_comps (s b : Nat) : Ref.ptr b ∈ comps (deepHeap s) ↔
    s = 1 ∧ (b = 2 ∨ b = 5) ∨ s = 2 ∧ (b = 3 ∨ b = 4) ∨ s = 6 ∧ b = 7 := by
  unfold deepHeap
  repeat' split
  all_goals simp_all [comps]

theorem deep_plain (v : Bool) : Plain (deepDoc v) deepHeap where
  fresh s := by
    unfold deepHeap
    repeat' split
    all_goals rfl
  ptrs s x hx := by
    cases x with
    | ptr b => exact ⟨b, rfl⟩
    | wrap w req =>
      unfold deepHeap at hx
      repeat' split at hx
      all_goals simp [comps] at hx
  bare s t h := by
    unfold deepDoc at h
    simp only at h
    split at h
    · rename_i hs; rcases hs with rfl | rfl | rfl <;> rfl
    · cases h
  direct s t h := by
    unfold deepDoc at h
    simp only at h
    split at h
    · cases h; rfl
    · cases h

theorem deep_needs {v : Bool} {x t : Nat} (h : Needs (deepDoc v) deepHeap x t) : t = 0 ∧ (x = 1 ∨ x = 2 ∨ x = 6) := by
  induction h with
  | @here s b t hb hr =>
    refine ⟨?_, ?_⟩
    · unfold deepDoc at hr
      simp only at hr
      split at hr
      · exact (Option.some.inj hr).symm
      · cases hr
    · rcases (deep_comps s b).1 hb with h | h | h
      · exact .inl h.1
      · exact .inr (.inl h.1)
      · exact .inr (.inr h.1)
  | @deeper s b t hb _ ih =>
    refine ⟨ih.1, ?_⟩
    rcases (deep_comps s b).1 hb with h | h | h
    · exact .inl h.1
    · exact .inr (.inl h.1)
    · exact .inr (.inr h.1)

theorem deep_within {v : Bool} {s x : Nat} (h : Within (deepDoc v) deepHeap s x) : (s = 0 ∨ s = 8 ∨ s = 9) → (x = 0 ∨ x = 8 ∨ x = 9) := by
  induction h with
  | self => exact id
  | @prop s c x k hc _ ih =>
    intro hs
    apply ih
    rcases hs with rfl | rfl | rfl
    · simp [deepHeap] at hc; omega
    · simp [deepHeap] at hc
    · simp [deepHeap] at hc
  | before hc => cases hc
  | after hc => cases hc
  | @branch s c x hc _ ih =>
    intro hs
    have := (deep_comps s c).1 hc
    omega

theorem deep_earlier (v : Bool) : Earlier (deepDoc v) deepHeap [0, 1] := by
  intro pre r post e x hw t ht
  obtain ⟨rfl, hx⟩ := deep_needs ht
  match pre, e with
  | [], e =>
    simp only [List.nil_append, List.cons.injEq] at e
    have := deep_within hw (.inl e.1.symm)
    omega
  | q :: pre, e =>
    simp only [List.cons_append, List.cons.injEq] at e
    exact ⟨q, .head _, e.1 ▸ .self⟩

/-- The composition has the properties of the reference inside the composition inside it, and the property of its property
those of its own reference. -/
example (v : Bool) : ∃ h', processAll (deepDoc v) plainOrd 9 deepHeap [0, 1] = some h' ∧ (h' 1).props.get ['n'] ≠ none ∧
    (h' 1).props.get ['b'] ≠ none ∧ (h' 1).props.get ['c'] ≠ none ∧ (h' 6).props.get ['a'] ≠ none ∧
    (h' 6).props.get ['b'] = none := by
  have hs : (processAll (deepDoc v) plainOrd 9 deepHeap [0, 1]).isSome = true := by cases v <;> decide
  obtain ⟨h', e⟩ := Option.isSome_iff_exists.1 hs
  have c := fun x hx hn k => C67_deep_partial (deep_plain v) plainOrd_ranges 9 [0, 1] (deep_earlier v) h' e 1 (.tail _ (.head _)) x hx hn k
  have w6 : Within (deepDoc v) deepHeap 1 6 := .branch (c := 5) (by decide) (.prop (c := 6) (k := ['c']) (by decide) .self)
  refine ⟨h', e, (c 1 .self rfl _).2 ?_, (c 1 .self rfl _).2 ?_, (c 1 .self rfl _).2 ?_, (c 6 w6 rfl _).2 ?_, ?_⟩
  · exact .branch (b := 2) (by decide) (.branch (b := 3) (by decide) (.ref (t := 0) rfl (.own (by decide))))
  · exact .branch (b := 2) (by decide) (.branch (b := 4) (by decide) (.own (by decide)))
  · exact .branch (b := 5) (by decide) (.own (by decide))
  · exact .branch (b := 7) (by decide) (.ref (t := 0) rfl (.own (by decide)))
  · refine Decidable.of_not_not fun hne => ?_
    have hk := (c 6 w6 rfl _).1 hne
    cases hk with
    | own h => exact h (by decide)
    | ref h _ => cases h
    | @branch _ b _ hb hk =>
      have : b = 7 := by have := (deep_comps 6 b).1 hb; omega
      subst this
      cases hk with
      | own h => exact h (by decide)
      | @ref _ t _ hr hk =>
        cases hr
        cases hk with
        | own h => exact h (by decide)
        | ref h _ => cases h
        | @branch _ b _ hb _ => have := (deep_comps 0 b).1 hb; omega
      | @branch _ b _ hb _ => have := (deep_comps 7 b).1 hb; omega

end Verif.Process
