import Verif.Model.Process
import Verif.Props.SchemaMerge

/-! # C99: processing a document ends -/

namespace Verif.Process

open SchemaMerge (Ref Sch Heap mergeWith addProps addRefProps adopt mergeAlternatives mem_mergeAlternatives object)

/-! ## What may be visited -/

/-- The schema a pointer is about. -/
def core : Ref → Nat
  | .ptr p => p
  | .wrap r _ => core r

/-- The alternatives of a schema. -/
def comps (s : Sch) : List Ref := s.anyOf ++ s.oneOf ++ s.allOf

/-- The document says that `x` is an alternative of `s`: its own, one of an alternative or of the schema an alternative
refers to, or (version 2) one of the schema it refers to. -/
inductive CompIn (d : Doc) (h0 : Heap) : Nat → Nat → Prop
  | own {s : Nat} {x : Ref} : x ∈ comps (h0 s) → CompIn d h0 s (core x)
  | inherit {s t x : Nat} : d.copies = true → d.refs s = some t → CompIn d h0 t x → CompIn d h0 s x
  | nest {s b x : Nat} : CompIn d h0 s b → CompIn d h0 b x → CompIn d h0 s x
  | behind {s b t x : Nat} : CompIn d h0 s b → d.refs b = some t → CompIn d h0 t x → CompIn d h0 s x

/-- The document says that `x` is a property of `s`: its own, one of an alternative, or one of the schema an alternative
refers to. -/
inductive PropIn (d : Doc) (h0 : Heap) : Nat → Nat → Prop
  | own {s : Nat} {e : Str × Ref} : e ∈ (h0 s).props → PropIn d h0 s (core e.2)
  | branch {s b x : Nat} : CompIn d h0 s b → PropIn d h0 b x → PropIn d h0 s x
  | target {s b t x : Nat} : CompIn d h0 s b → d.refs b = some t → PropIn d h0 t x → PropIn d h0 s x

/-- `x` is below `s`. -/
inductive Below (d : Doc) (h0 : Heap) (s x : Nat) : Prop
  | comp : CompIn d h0 s x → Below d h0 s x
  | prop : PropIn d h0 s x → Below d h0 s x
  | before : x ∈ d.before s → Below d h0 s x
  | after : x ∈ d.after s → Below d h0 s x

/-- No schema is below itself: the schemas have depths. -/
def Grounded (d : Doc) (h0 : Heap) (depth : Nat → Nat) : Prop := ∀ s x, Below d h0 s x → depth x < depth s

/-- Go ranges over all properties, in any order. -/
def Ranges (ord : Heap → Nat → List Ref) : Prop := ∀ h s, (ord h s).Perm ((h s).props.map (·.2))

/-- A document that has been read, not yet processed. -/
def Unprocessed (h0 : Heap) : Prop := ∀ s, (h0 s).refTo = none

/-! ## Merging -/

theorem mem_del {m : GoMap Str Ref} {k : Str} {e : Str × Ref} (h : e ∈ GoMap.del m k) : e ∈ m := (List.mem_filter.1 h).1

theorem mem_addProps : ∀ (add : List (Str × Ref)) (props : GoMap Str Ref) (e : Str × Ref), e ∈ addProps props add →
    e ∈ props ∨ e ∈ add
  | [], _, _, h => .inl h
  | (k, v) :: rest, props, e, h => by
    rw [addProps] at h
    cases hg : GoMap.get props k with
    | some w =>
      rw [hg] at h
      exact (mem_addProps rest props e h).imp id (.tail _)
    | none =>
      rw [hg] at h
      rcases mem_addProps rest _ e h with h | h
      · rcases List.mem_cons.1 h with rfl | h
        · exact .inr (.head _)
        · exact .inl (mem_del h)
      · exact .inr (.tail _ h)

theorem core_adopt (look : Ref → Sch) (v : Ref) : core (adopt look v) = core v := by
  unfold adopt; split <;> rfl

theorem mem_addRefProps (look : Ref → Sch) : ∀ (add : List (Str × Ref)) (props : GoMap Str Ref) (req : List Str) (e : Str × Ref),
    e ∈ (addRefProps look props req add).1 → e ∈ props ∨ ∃ e' ∈ add, core e.2 = core e'.2
  | [], _, _, _, h => .inl h
  | (k, v) :: rest, props, req, e, h => by
    rw [addRefProps] at h
    cases hg : GoMap.get props k with
    | some w =>
      rw [hg] at h
      exact (mem_addRefProps look rest props req e h).imp id (fun ⟨e', h1, h2⟩ => ⟨e', .tail _ h1, h2⟩)
    | none =>
      rw [hg] at h
      rcases mem_addRefProps look rest _ _ e h with h | ⟨e', h1, h2⟩
      · rcases List.mem_cons.1 h with rfl | h
        · exact .inr ⟨_, .head _, core_adopt look v⟩
        · exact .inl (mem_del h)
      · exact .inr ⟨e', .tail _ h1, h2⟩

/-- Where the properties of a merged schema come from. -/
theorem merge_props (look : Ref → Sch) (s s2 : Sch) (e : Str × Ref) (h : e ∈ (mergeWith look s s2).props) :
    e ∈ s.props ∨ e ∈ s2.props ∨ ∃ r, s2.refTo = some r ∧ ∃ e' ∈ (look r).props, core e.2 = core e'.2 := by
  unfold mergeWith at h
  simp only at h
  cases hr : s2.refTo with
  | none =>
    rw [hr] at h
    rcases mem_addProps _ _ _ h with h | h
    · exact .inl h
    · exact .inr (.inl h)
  | some r =>
    rw [hr] at h
    rcases mem_addRefProps look _ _ _ e h with h | h
    · rcases mem_addProps _ _ _ h with h | h
      · exact .inl h
      · exact .inr (.inl h)
    · exact .inr (.inr ⟨r, rfl, h⟩)

/-- One of the three lists. -/
def IsList (f : Sch → List Ref) : Prop := f = Sch.allOf ∨ f = Sch.anyOf ∨ f = Sch.oneOf

theorem mem_comps (s : Sch) (x : Ref) : x ∈ comps s ↔ ∃ f, IsList f ∧ x ∈ f s := by
  unfold comps
  rw [List.mem_append, List.mem_append]
  constructor
  · rintro ((h | h) | h)
    · exact ⟨_, .inr (.inl rfl), h⟩
    · exact ⟨_, .inr (.inr rfl), h⟩
    · exact ⟨_, .inl rfl, h⟩
  · rintro ⟨f, rfl | rfl | rfl, h⟩
    · exact .inr h
    · exact .inl (.inl h)
    · exact .inl (.inr h)

/-- Where the alternatives of a merged schema come from. -/
theorem merge_comps (h : Heap) (s s2 : Sch) (x : Ref) (hx : x ∈ comps (mergeWith h.look s s2)) :
    x ∈ comps s ∨ x ∈ comps s2 ∨ ∃ r, s2.refTo = some r ∧ ∃ x' ∈ comps (h.look r), core x = core x' := by
  obtain ⟨f, hf, hx⟩ := (mem_comps _ _).1 hx
  rcases (SchemaMerge.C48_alternatives h s s2 f hf x).1 hx with hx | hx | ⟨t, v, h1, h2, rfl⟩
  · exact .inl ((mem_comps _ _).2 ⟨f, hf, hx⟩)
  · exact .inr (.inl ((mem_comps _ _).2 ⟨f, hf, hx⟩))
  · exact .inr (.inr ⟨t, h1, v, (mem_comps _ _).2 ⟨f, hf, h2⟩, rfl⟩)

theorem merge_refTo (look : Ref → Sch) (s s2 : Sch) : (mergeWith look s s2).refTo = s.refTo := rfl

theorem set_self (h : Heap) (s : Nat) (x : Sch) : h.set s x s = x := by simp [Heap.set]
theorem set_other (h : Heap) (s q : Nat) (x : Sch) (hq : q ≠ s) : h.set s x q = h q := by simp [Heap.set, hq]

/-! ## Processing stays within the document -/

/-- Nothing has alternatives, properties or a target that the document does not give it. -/
structure Inside (d : Doc) (h0 h : Heap) : Prop where
  comp : ∀ s, ∀ x ∈ comps (h s), CompIn d h0 s (core x)
  prop : ∀ s, ∀ e ∈ (h s).props, PropIn d h0 s (core e.2)
  target : ∀ s r, (h s).refTo = some r → ∃ t, d.refs s = some t ∧ r = .ptr t

variable {d : Doc} {h0 : Heap} {ord : Heap → Nat → List Ref}

theorem inside_start (hu : Unprocessed h0) : Inside d h0 h0 where
  comp _ _ hx := .own hx
  prop _ _ he := .own he
  target s r hr := by rw [hu s] at hr; cases hr

theorem pick_mem {α : Type} {a b : List α} {x : α} (h : x ∈ pick a b) : x ∈ a ∨ x ∈ b := by
  unfold pick at h
  split at h
  · exact .inl h
  · exact .inr h

theorem alternatives_mem {a b : List Ref} {x : Ref} (h : x ∈ alternatives d a b) : (d.copies = true ∧ x ∈ a) ∨ x ∈ b := by
  unfold alternatives at h
  cases hc : d.copies with
  | false => rw [hc] at h; exact .inr h
  | true =>
    rw [hc] at h
    exact (pick_mem h).imp (fun h => ⟨rfl, h⟩) id

theorem inside_reference {h : Heap} (hi : Inside d h0 h) (s : Nat) : Inside d h0 (setReference d h s) := by
  unfold setReference
  cases hr : d.refs s with
  | none => exact hi
  | some t =>
    simp only
    refine ⟨fun q x hx => ?_, fun q e he => ?_, fun q r hq => ?_⟩
    · by_cases hqs : q = s
      · subst hqs
        rw [set_self] at hx
        unfold comps at hx
        simp only [List.mem_append] at hx
        have key : ∀ (f : Sch → List Ref), IsList f → x ∈ alternatives d (f (h t)) (f (h q)) → CompIn d h0 q (core x) := by
          intro f hf hp
          rcases alternatives_mem hp with ⟨hc, hp⟩ | hp
          · exact .inherit hc hr (hi.comp t x ((mem_comps _ _).2 ⟨f, hf, hp⟩))
          · exact hi.comp q x ((mem_comps _ _).2 ⟨f, hf, hp⟩)
        rcases hx with (hx | hx) | hx
        · exact key Sch.anyOf (.inr (.inl rfl)) hx
        · exact key Sch.oneOf (.inr (.inr rfl)) hx
        · exact key Sch.allOf (.inl rfl) hx
      · rw [set_other _ _ _ _ hqs] at hx; exact hi.comp q x hx
    · by_cases hqs : q = s
      · subst hqs; rw [set_self] at he; exact hi.prop q e he
      · rw [set_other _ _ _ _ hqs] at he; exact hi.prop q e he
    · by_cases hqs : q = s
      · subst hqs
        rw [set_self] at hq
        exact ⟨t, hr, (Option.some.inj hq).symm⟩
      · rw [set_other _ _ _ _ hqs] at hq; exact hi.target q r hq

theorem inside_merge {h : Heap} (hi : Inside d h0 h) (s : Nat) (v : Ref) (hv : CompIn d h0 s (core v)) :
    Inside d h0 (h.set s (mergeWith h.look (h s) (h.look v))) := by
  refine ⟨fun q x hx => ?_, fun q e he => ?_, fun q r hq => ?_⟩
  · by_cases hqs : q = s
    · subst hqs
      rw [set_self] at hx
      rcases merge_comps h _ _ x hx with hx | hx | ⟨r, hr, x', hx', hc⟩
      · exact hi.comp q x hx
      · cases v with
        | ptr b => exact .nest hv (hi.comp b x hx)
        | wrap w req => simp [Heap.look, comps] at hx
      · rw [hc]
        cases v with
        | ptr b =>
          obtain ⟨t, ht, rfl⟩ := hi.target b r hr
          exact .behind hv ht (hi.comp t x' hx')
        | wrap w req =>
          have : w = r := Option.some.inj hr
          subst this
          cases w with
          | ptr p => exact .nest hv (hi.comp p x' hx')
          | wrap w' req' => simp [Heap.look, comps] at hx'
    · rw [set_other _ _ _ _ hqs] at hx; exact hi.comp q x hx
  · by_cases hqs : q = s
    · subst hqs
      rw [set_self] at he
      rcases merge_props h.look _ _ e he with he | he | ⟨r, hr, e', he', hc⟩
      · exact hi.prop q e he
      · cases v with
        | ptr b => exact .branch hv (hi.prop b e he)
        | wrap w req => simp [Heap.look] at he
      · rw [hc]
        cases v with
        | ptr b =>
          obtain ⟨t, ht, rfl⟩ := hi.target b r hr
          exact .target hv ht (hi.prop t e' he')
        | wrap w req =>
          have : w = r := Option.some.inj hr
          subst this
          cases w with
          | ptr p => exact .branch hv (hi.prop p e' he')
          | wrap w' req' => simp [Heap.look] at he'
    · rw [set_other _ _ _ _ hqs] at he; exact hi.prop q e he
  · by_cases hqs : q = s
    · subst hqs; rw [set_self, merge_refTo] at hq; exact hi.target q r hq
    · rw [set_other _ _ _ _ hqs] at hq; exact hi.target q r hq

/-- A visit that ends, from any heap within the document. -/
def Ends (d : Doc) (h0 : Heap) (visit : Heap → Ref → Option Heap) (v : Ref) : Prop :=
  ∀ h, Inside d h0 h → ∃ h', visit h v = some h' ∧ Inside d h0 h'

theorem visitAll_ends {visit : Heap → Ref → Option Heap} : ∀ (vs : List Ref) (h : Heap), Inside d h0 h →
    (∀ v ∈ vs, Ends d h0 visit v) → ∃ h', visitAll visit h vs = some h' ∧ Inside d h0 h'
  | [], h, hi, _ => ⟨h, rfl, hi⟩
  | v :: vs, h, hi, hv => by
    obtain ⟨h1, e1, hi1⟩ := hv v (.head _) h hi
    obtain ⟨h2, e2, hi2⟩ := visitAll_ends vs h1 hi1 (fun w hw => hv w (.tail _ hw))
    exact ⟨h2, by rw [visitAll, e1]; exact e2, hi2⟩

theorem visitMerge_ends {visit : Heap → Ref → Option Heap} {s : Nat} : ∀ (vs : List Ref) (h : Heap), Inside d h0 h →
    (∀ v ∈ vs, Ends d h0 visit v ∧ CompIn d h0 s (core v)) → ∃ h', visitMerge visit s h vs = some h' ∧ Inside d h0 h'
  | [], h, hi, _ => ⟨h, rfl, hi⟩
  | v :: vs, h, hi, hv => by
    obtain ⟨h1, e1, hi1⟩ := (hv v (.head _)).1 h hi
    obtain ⟨h2, e2, hi2⟩ := visitMerge_ends vs _ (inside_merge hi1 s v (hv v (.head _)).2) (fun w hw => hv w (.tail _ hw))
    exact ⟨h2, by rw [visitMerge, e1]; exact e2, hi2⟩

/-- Visits nested as deep as the schema is. -/
theorem ends_of_depth {depth : Nat → Nat} (hg : Grounded d h0 depth) (ho : Ranges ord) :
    ∀ (n : Nat) (v : Ref), depth (core v) < n → Ends d h0 (setDependencies d ord n) v
  | 0, _, hn => absurd hn (Nat.not_lt_zero _)
  | n + 1, .wrap w req, _ => fun h hi => ⟨h, rfl, hi⟩
  | n + 1, .ptr s, hn => by
    intro h hi
    have below : ∀ x, Below d h0 s (core x) → Ends d h0 (setDependencies d ord n) x := fun x hx =>
      ends_of_depth hg ho n x (by have := hg s _ hx; simp only [core] at hn; omega)
    have hi1 := inside_reference hi s
    obtain ⟨h2, e2, hi2⟩ := visitAll_ends (ord (setReference d h s) s) _ hi1 (fun v hv => by
      have hm := (ho (setReference d h s) s).mem_iff.1 hv
      obtain ⟨e, he, rfl⟩ := List.mem_map.1 hm
      exact below _ (.prop (hi1.prop s e he)))
    obtain ⟨h3, e3, hi3⟩ := visitAll_ends ((d.before s).map Ref.ptr) h2 hi2 (fun v hv => by
      obtain ⟨x, hx, rfl⟩ := List.mem_map.1 hv
      exact below _ (.before hx))
    have lists : ∀ (f : Sch → List Ref), IsList f → ∀ h', Inside d h0 h' →
        ∃ h'', visitMerge (setDependencies d ord n) s h' (f (h' s)) = some h'' ∧ Inside d h0 h'' := by
      intro f hf h' hi'
      refine visitMerge_ends _ h' hi' (fun v hv => ?_)
      have := hi'.comp s v ((mem_comps _ _).2 ⟨f, hf, hv⟩)
      exact ⟨below _ (.comp this), this⟩
    obtain ⟨h4, e4, hi4⟩ := lists Sch.anyOf (.inr (.inl rfl)) h3 hi3
    obtain ⟨h5, e5, hi5⟩ := lists Sch.oneOf (.inr (.inr rfl)) h4 hi4
    obtain ⟨h6, e6, hi6⟩ := lists Sch.allOf (.inl rfl) h5 hi5
    obtain ⟨h7, e7, hi7⟩ := visitAll_ends ((d.after s).map Ref.ptr) h6 hi6 (fun v hv => by
      obtain ⟨x, hx, rfl⟩ := List.mem_map.1 hv
      exact below _ (.after hx))
    refine ⟨h7, ?_, hi7⟩
    rw [setDependencies, e2]
    simp only [Option.bind_some]
    unfold visitRest
    simp only [e3, e4, e5, e6, e7, Option.bind_some]

/-- **C99** (part that holds): a document in which no schema is below itself, compositions and references in compositions
followed, is processed with calls nested at most as deep as its schemas, whatever the order; other references do not
matter. -/
theorem C99_ends_partial (hu : Unprocessed h0) (ho : Ranges ord) (depth : Nat → Nat) (hg : Grounded d h0 depth)
    (roots : List Nat) (n : Nat) (hn : ∀ s ∈ roots, depth s < n) :
    ∃ h', processAll d ord n h0 roots = some h' ∧ Inside d h0 h' :=
  visitAll_ends _ _ (inside_start hu) (fun v hv => by
    obtain ⟨s, hs, rfl⟩ := List.mem_map.1 hv
    exact ends_of_depth hg ho n _ (hn s hs))

/-- A schema directly below another. -/
def Child (d : Doc) (h0 : Heap) (s x : Nat) : Prop :=
  (∃ e ∈ (h0 s).props, core e.2 = x) ∨ x ∈ d.before s ∨ x ∈ d.after s

/-- **C99** (part that holds): a document without compositions is processed, whatever its references, also when they lead
back to the schemas that contain them. -/
theorem C99_plain_partial (hu : Unprocessed h0) (ho : Ranges ord) (hc : ∀ s, comps (h0 s) = []) (depth : Nat → Nat)
    (ht : ∀ s x, Child d h0 s x → depth x < depth s) (roots : List Nat) :
    ∃ n h', processAll d ord n h0 roots = some h' := by
  have hno : ∀ {s x}, ¬ CompIn d h0 s x := by
    intro s x h
    induction h with
    | own h => rw [hc] at h; cases h
    | inherit _ _ _ ih => exact ih
    | nest _ _ ih _ => exact ih
    | behind _ _ _ ih _ => exact ih
  have hg : Grounded d h0 depth := by
    intro s x hb
    apply ht
    cases hb with
    | comp h => exact (hno h).elim
    | prop h =>
      cases h with
      | own h => exact .inl ⟨_, h, rfl⟩
      | branch h _ => exact (hno h).elim
      | target h _ _ => exact (hno h).elim
    | before h => exact .inr (.inl h)
    | after h => exact .inr (.inr h)
  have hmax : ∃ n, ∀ s ∈ roots, depth s < n := by
    induction roots with
    | nil => exact ⟨0, fun _ h => nomatch h⟩
    | cons r rs ih =>
      obtain ⟨n, hn⟩ := ih
      refine ⟨n + depth r + 1, fun s hs => ?_⟩
      rcases List.mem_cons.1 hs with rfl | hs
      · omega
      · have := hn s hs; omega
  obtain ⟨n, hn⟩ := hmax
  obtain ⟨h', e, _⟩ := C99_ends_partial hu ho depth hg roots n hn
  exact ⟨n, h', e⟩

/-! ## Processing that does not end -/

theorem mem_addProps_old : ∀ (add : List (Str × Ref)) (props : GoMap Str Ref) (e : Str × Ref), e ∈ props → e ∈ addProps props add
  | [], _, _, h => h
  | (k, v) :: rest, props, e, h => by
    rw [addProps]
    cases hg : GoMap.get props k with
    | some w => exact mem_addProps_old rest props e h
    | none =>
      refine mem_addProps_old rest _ e (.tail _ (List.mem_filter.2 ⟨h, ?_⟩))
      simp only [Bool.not_eq_true', decide_eq_false_iff_not]
      intro he
      exact (GoMap.get_eq_none_iff props k).1 hg (he ▸ List.mem_map_of_mem h)

theorem mem_addRefProps_old (look : Ref → Sch) : ∀ (add : List (Str × Ref)) (props : GoMap Str Ref) (req : List Str)
    (e : Str × Ref), e ∈ props → e ∈ (addRefProps look props req add).1
  | [], _, _, _, h => h
  | (k, v) :: rest, props, req, e, h => by
    rw [addRefProps]
    cases hg : GoMap.get props k with
    | some w => exact mem_addRefProps_old look rest props req e h
    | none =>
      refine mem_addRefProps_old look rest _ _ e (.tail _ (List.mem_filter.2 ⟨h, ?_⟩))
      simp only [Bool.not_eq_true', decide_eq_false_iff_not]
      intro he
      exact (GoMap.get_eq_none_iff props k).1 hg (he ▸ List.mem_map_of_mem h)

theorem merge_props_old (look : Ref → Sch) (s s2 : Sch) (e : Str × Ref) (h : e ∈ s.props) : e ∈ (mergeWith look s s2).props := by
  unfold mergeWith
  simp only
  cases hr : s2.refTo with
  | none => exact mem_addProps_old _ _ _ h
  | some r => exact mem_addRefProps_old look _ _ _ _ (mem_addProps_old _ _ _ h)

/-- What the document gives is not lost: the properties of all schemas, the alternatives of schemas that are no
references, and (version 2) those of their targets for references that have been followed. -/
structure Kept (d : Doc) (h0 h : Heap) : Prop where
  prop : ∀ s, ∀ e ∈ (h0 s).props, e ∈ (h s).props
  comp : ∀ f, IsList f → ∀ s, d.refs s = none → ∀ x ∈ f (h0 s), x ∈ f (h s)
  copied : d.copies = true → ∀ f, IsList f → ∀ s t, d.refs s = some t → d.refs t = none → (h s).refTo ≠ none → ∀ x ∈ f (h0 t), x ∈ f (h s)

theorem kept_start (hu : Unprocessed h0) : Kept d h0 h0 where
  prop _ _ h := h
  comp _ _ _ _ _ h := h
  copied _ _ _ s _ _ _ hr := absurd (hu s) hr

theorem mem_pick {α : Type} {a b : List α} {x : α} (h : x ∈ a) : x ∈ pick a b := by
  unfold pick
  rw [if_pos (List.length_pos_of_mem h)]
  exact h

theorem mem_alternatives (hc : d.copies = true) {a b : List Ref} {x : Ref} (h : x ∈ a) : x ∈ alternatives d a b := by
  unfold alternatives
  rw [hc]
  exact mem_pick h

/-- The lists of a schema after its reference was followed. -/
theorem list_reference (f : Sch → List Ref) (hf : IsList f) (h : Heap) (s t : Nat) (hr : d.refs s = some t) :
    f (setReference d h s s) = alternatives d (f (h t)) (f (h s)) := by
  unfold setReference
  rw [hr]
  simp only [set_self]
  rcases hf with rfl | rfl | rfl <;> rfl

theorem reference_other (h : Heap) (s q : Nat) (hq : q ≠ s) : setReference d h s q = h q := by
  unfold setReference
  cases d.refs s with
  | none => rfl
  | some t => exact set_other _ _ _ _ hq

theorem reference_props (h : Heap) (s q : Nat) : (setReference d h s q).props = (h q).props := by
  by_cases hq : q = s
  · subst hq
    unfold setReference
    cases d.refs q with
    | none => rfl
    | some t => simp only [set_self]
  · rw [reference_other h s q hq]

theorem kept_reference {h : Heap} (hk : Kept d h0 h) (s : Nat) : Kept d h0 (setReference d h s) := by
  refine ⟨fun q e he => by rw [reference_props]; exact hk.prop q e he, fun f hf q hq x hx => ?_, fun hc f hf q t hq ht hr x hx => ?_⟩
  · by_cases hqs : q = s
    · subst hqs
      have : setReference d h q = h := by unfold setReference; rw [hq]
      rw [this]; exact hk.comp f hf q hq x hx
    · rw [reference_other h s q hqs]; exact hk.comp f hf q hq x hx
  · by_cases hqs : q = s
    · subst hqs
      rw [list_reference f hf h q t hq]
      exact mem_alternatives hc (hk.comp f hf t ht x hx)
    · rw [reference_other h s q hqs] at hr ⊢; exact hk.copied hc f hf q t hq ht hr x hx

theorem kept_merge {h : Heap} (hk : Kept d h0 h) (s : Nat) (v : Ref) :
    Kept d h0 (h.set s (mergeWith h.look (h s) (h.look v))) := by
  refine ⟨fun q e he => ?_, fun f hf q hq x hx => ?_, fun hc f hf q t hq ht hr x hx => ?_⟩
  · by_cases hqs : q = s
    · subst hqs; rw [set_self]; exact merge_props_old _ _ _ _ (hk.prop q e he)
    · rw [set_other _ _ _ _ hqs]; exact hk.prop q e he
  · by_cases hqs : q = s
    · subst hqs; rw [set_self]
      exact (SchemaMerge.C48_alternatives h _ _ f hf x).2 (.inl (hk.comp f hf q hq x hx))
    · rw [set_other _ _ _ _ hqs]; exact hk.comp f hf q hq x hx
  · by_cases hqs : q = s
    · subst hqs
      rw [set_self, merge_refTo] at hr
      rw [set_self]
      exact (SchemaMerge.C48_alternatives h _ _ f hf x).2 (.inl (hk.copied hc f hf q t hq ht hr x hx))
    · rw [set_other _ _ _ _ hqs] at hr ⊢; exact hk.copied hc f hf q t hq ht hr x hx

/-- The heap can only change in these two ways. -/
def Stable (d : Doc) (P : Heap → Prop) : Prop :=
  (∀ h s, P h → P (setReference d h s)) ∧ ∀ (h : Heap) s v, P h → P (h.set s (mergeWith h.look (h s) (h.look v)))

theorem visitAll_stable {P : Heap → Prop} {visit : Heap → Ref → Option Heap} (hv : ∀ h v h', P h → visit h v = some h' → P h') :
    ∀ (vs : List Ref) (h h' : Heap), P h → visitAll visit h vs = some h' → P h'
  | [], h, h', hp, e => by cases e; exact hp
  | v :: vs, h, h', hp, e => by
    rw [visitAll] at e
    cases e1 : visit h v with
    | none => rw [e1] at e; cases e
    | some h1 => rw [e1] at e; exact visitAll_stable hv vs h1 h' (hv h v h1 hp e1) e

theorem visitMerge_stable {P : Heap → Prop} {visit : Heap → Ref → Option Heap} {s : Nat} (hs : Stable d P)
    (hv : ∀ h v h', P h → visit h v = some h' → P h') :
    ∀ (vs : List Ref) (h h' : Heap), P h → visitMerge visit s h vs = some h' → P h'
  | [], h, h', hp, e => by cases e; exact hp
  | v :: vs, h, h', hp, e => by
    rw [visitMerge] at e
    cases e1 : visit h v with
    | none => rw [e1] at e; cases e
    | some h1 => rw [e1] at e; exact visitMerge_stable hs hv vs _ h' (hs.2 h1 s v (hv h v h1 hp e1)) e

/-- What holds once the reference is followed and is stable holds after the visit. -/
theorem visit_after {P : Heap → Prop} (hs : Stable d P) (n : Nat)
    (hv : ∀ h v h', P h → setDependencies d ord n h v = some h' → P h') (h : Heap) (s : Nat) (h' : Heap)
    (hp : P (setReference d h s)) (e : setDependencies d ord (n + 1) h (.ptr s) = some h') : P h' := by
  rw [setDependencies] at e
  obtain ⟨h1, e1, e⟩ := Option.bind_eq_some_iff.1 e
  have p1 := visitAll_stable hv _ _ _ hp e1
  unfold visitRest at e
  obtain ⟨h2, e2, e⟩ := Option.bind_eq_some_iff.1 e
  obtain ⟨h3, e3, e⟩ := Option.bind_eq_some_iff.1 e
  obtain ⟨h4, e4, e⟩ := Option.bind_eq_some_iff.1 e
  obtain ⟨h5, e5, e⟩ := Option.bind_eq_some_iff.1 e
  exact visitAll_stable hv _ _ _ (visitMerge_stable hs hv _ _ _ (visitMerge_stable hs hv _ _ _
    (visitMerge_stable hs hv _ _ _ (visitAll_stable hv _ _ _ p1 e2) e3) e4) e5) e

theorem visit_stable {P : Heap → Prop} (hs : Stable d P) : ∀ (n : Nat) (h : Heap) (v : Ref) (h' : Heap), P h →
    setDependencies d ord n h v = some h' → P h'
  | 0, _, _, _, _, e => by cases e
  | n + 1, h, .wrap w req, h', hp, e => by cases e; exact hp
  | n + 1, h, .ptr s, h', hp, e => visit_after hs n (fun h v h' => visit_stable hs n h v h') h s h' (hs.1 h s hp) e

theorem visitAll_none {P : Heap → Prop} {visit : Heap → Ref → Option Heap} (hv : ∀ h v h', P h → visit h v = some h' → P h')
    (x : Ref) (hx : ∀ h, P h → visit h x = none) : ∀ (vs : List Ref) (h : Heap), P h → x ∈ vs → visitAll visit h vs = none
  | v :: vs, h, hp, hm => by
    rw [visitAll]
    cases e1 : visit h v with
    | none => rfl
    | some h1 =>
      rcases List.mem_cons.1 hm with rfl | hm
      · rw [hx h hp] at e1; cases e1
      · exact visitAll_none hv x hx vs h1 (hv h v h1 hp e1) hm

theorem visitMerge_none {P : Heap → Prop} {visit : Heap → Ref → Option Heap} {s : Nat} (hs : Stable d P)
    (hv : ∀ h v h', P h → visit h v = some h' → P h')
    (x : Ref) (hx : ∀ h, P h → visit h x = none) : ∀ (vs : List Ref) (h : Heap), P h → x ∈ vs → visitMerge visit s h vs = none
  | v :: vs, h, hp, hm => by
    rw [visitMerge]
    cases e1 : visit h v with
    | none => rfl
    | some h1 =>
      rcases List.mem_cons.1 hm with rfl | hm
      · rw [hx h hp] at e1; cases e1
      · exact visitMerge_none hs hv x hx vs _ (hs.2 h1 s v (hv h v h1 hp e1)) hm

/-- A visit that meets `x` does not end when that of `x` does not. -/
theorem visit_none {P : Heap → Prop} (hP : Stable d P) (ho : Ranges ord) (n s x : Nat) (h : Heap)
    (p0 : P (setReference d h s)) (hxn : ∀ h, P h → setDependencies d ord n h (.ptr x) = none)
    (hx : (∀ h, P h → ∃ k, (k, Ref.ptr x) ∈ (h s).props) ∨ x ∈ d.before s ∨ x ∈ d.after s ∨
      ∃ f, IsList f ∧ ∀ h, P h → Ref.ptr x ∈ f (h s)) :
    setDependencies d ord (n + 1) h (.ptr s) = none := by
  have hv : ∀ h v h', P h → setDependencies d ord n h v = some h' → P h' := fun h v h' => visit_stable hP n h v h'
  rw [setDependencies]
  cases e1 : visitAll (setDependencies d ord n) (setReference d h s) (ord (setReference d h s) s) with
  | none => rfl
  | some h1 =>
    have p1 := visitAll_stable hv _ _ _ p0 e1
    simp only [Option.bind_some]
    unfold visitRest
    cases e2 : visitAll (setDependencies d ord n) h1 ((d.before s).map Ref.ptr) with
    | none => rfl
    | some h2 =>
      have p2 := visitAll_stable hv _ _ _ p1 e2
      simp only [Option.bind_some]
      cases e3 : visitMerge (setDependencies d ord n) s h2 (h2 s).anyOf with
      | none => rfl
      | some h3 =>
        have p3 := visitMerge_stable hP hv _ _ _ p2 e3
        simp only [Option.bind_some]
        cases e4 : visitMerge (setDependencies d ord n) s h3 (h3 s).oneOf with
        | none => rfl
        | some h4 =>
          have p4 := visitMerge_stable hP hv _ _ _ p3 e4
          simp only [Option.bind_some]
          cases e5 : visitMerge (setDependencies d ord n) s h4 (h4 s).allOf with
          | none => rfl
          | some h5 =>
            have p5 := visitMerge_stable hP hv _ _ _ p4 e5
            simp only [Option.bind_some]
            rcases hx with hk | hb | ha | ⟨f, hf, hm⟩
            · obtain ⟨k, hk⟩ := hk _ p0
              have : Ref.ptr x ∈ ord (setReference d h s) s := (ho _ s).mem_iff.2 (List.mem_map.2 ⟨(k, .ptr x), hk, rfl⟩)
              rw [visitAll_none hv _ hxn _ _ p0 this] at e1; cases e1
            · rw [visitAll_none hv _ hxn _ _ p1 (List.mem_map_of_mem hb)] at e2; cases e2
            · exact visitAll_none hv _ hxn _ _ p5 (List.mem_map_of_mem ha)
            · rcases hf with rfl | rfl | rfl
              · rw [visitMerge_none hP hv _ hxn _ _ p4 (hm h4 p4)] at e5; cases e5
              · rw [visitMerge_none hP hv _ hxn _ _ p2 (hm h2 p2)] at e3; cases e3
              · rw [visitMerge_none hP hv _ hxn _ _ p3 (hm h3 p3)] at e4; cases e4

/-- `x` is visited whenever `s` is, in all heaps with `P`. -/
def Surely (d : Doc) (P : Heap → Prop) (s x : Nat) : Prop :=
  (∀ h, P h → ∃ k, (k, Ref.ptr x) ∈ (h s).props) ∨ x ∈ d.before s ∨ x ∈ d.after s ∨
  ∃ (f : Sch → List Ref) (Q : Heap → Prop), IsList f ∧ Stable d (fun h => P h ∧ Q h) ∧ (∀ h, P h → Q (setReference d h s)) ∧
    ∀ h, P h → Q h → Ref.ptr x ∈ f (h s)

theorem circle {P : Heap → Prop} (hP : Stable d P) (ho : Ranges ord) (L : Nat → Prop)
    (hL : ∀ s, L s → ∃ x, L x ∧ Surely d P s x) :
    ∀ (n s : Nat), L s → ∀ h, P h → setDependencies d ord n h (.ptr s) = none
  | 0, _, _, _, _ => rfl
  | n + 1, s, hl, h, hp => by
    obtain ⟨x, hlx, hx⟩ := hL s hl
    have hxn : ∀ h, P h → setDependencies d ord n h (.ptr x) = none := fun h hp => circle hP ho L hL n x hlx h hp
    rcases hx with h1 | h1 | h1 | ⟨f, Q, hf, hQ, hr, hm⟩
    · exact visit_none hP ho n s x h (hP.1 h s hp) hxn (.inl h1)
    · exact visit_none hP ho n s x h (hP.1 h s hp) hxn (.inr (.inl h1))
    · exact visit_none hP ho n s x h (hP.1 h s hp) hxn (.inr (.inr (.inl h1)))
    · exact visit_none hQ ho n s x h ⟨hP.1 h s hp, hr h hp⟩ (fun h hp => hxn h hp.1)
        (.inr (.inr (.inr ⟨f, hf, fun h hp => hm h hp.1 hp.2⟩)))

/-- The document says that `x` is visited when `s` is: it is a property, an item, … of `s`, an alternative of `s` (which is no
reference), or (version 2) an alternative of the target of `s` (which is no reference). -/
def Visited (d : Doc) (h0 : Heap) (s x : Nat) : Prop :=
  (∃ k, (k, Ref.ptr x) ∈ (h0 s).props) ∨ x ∈ d.before s ∨ x ∈ d.after s ∨
  (d.refs s = none ∧ Ref.ptr x ∈ comps (h0 s)) ∨ (d.copies = true ∧ ∃ t, d.refs s = some t ∧ d.refs t = none ∧ Ref.ptr x ∈ comps (h0 t))

/-- A followed reference stays. -/
theorem stable_refTo (s : Nat) : Stable d (fun h => (h s).refTo ≠ none) := by
  refine ⟨fun h q hn => ?_, fun h q v hn => ?_⟩
  · by_cases hq : s = q
    · subst hq
      unfold setReference
      cases hr : d.refs s with
      | none => exact hn
      | some t => simp [set_self]
    · show (setReference d h q s).refTo ≠ none
      rw [reference_other h q s hq]; exact hn
  · show (h.set q _ s).refTo ≠ none
    by_cases hq : s = q
    · subst hq; rw [set_self, merge_refTo]; exact hn
    · rw [set_other _ _ _ _ hq]; exact hn

theorem stable_and {P Q : Heap → Prop} (hP : Stable d P) (hQ : Stable d Q) : Stable d (fun h => P h ∧ Q h) :=
  ⟨fun h s hp => ⟨hP.1 h s hp.1, hQ.1 h s hp.2⟩, fun h s v hp => ⟨hP.2 h s v hp.1, hQ.2 h s v hp.2⟩⟩

theorem stable_true {P : Heap → Prop} (hP : Stable d P) : Stable d (fun h => P h ∧ True) :=
  stable_and hP ⟨fun _ _ _ => trivial, fun _ _ _ _ => trivial⟩

theorem stable_kept : Stable d (Kept d h0) := ⟨fun _ s hk => kept_reference hk s, fun _ s v hk => kept_merge hk s v⟩

theorem surely_of_visited (s x : Nat) (hx : Visited d h0 s x) : Surely d (Kept d h0) s x := by
  rcases hx with ⟨k, hk⟩ | hb | ha | ⟨h1, h2⟩ | ⟨hc, t, h1, h2, h3⟩
  · exact .inl fun h hp => ⟨k, hp.prop s _ hk⟩
  · exact .inr (.inl hb)
  · exact .inr (.inr (.inl ha))
  · obtain ⟨f, hf, hm⟩ := (mem_comps _ _).1 h2
    exact .inr (.inr (.inr ⟨f, fun _ => True, hf, stable_true stable_kept, fun _ _ => trivial,
      fun h hp _ => hp.comp f hf s h1 _ hm⟩))
  · obtain ⟨f, hf, hm⟩ := (mem_comps _ _).1 h3
    refine .inr (.inr (.inr ⟨f, fun h => (h s).refTo ≠ none, hf, stable_and stable_kept (stable_refTo s), fun h _ => ?_,
      fun h hp hr => hp.copied hc f hf s t h1 h2 hr _ hm⟩))
    simp [setReference, h1, set_self]

/-- **C99** violated: when schemas are visited in a circle, processing any of them does not end (the Go program dies of a
stack overflow), whatever was processed before and in whatever order. -/
theorem C99_violated_circle (hu : Unprocessed h0) (ho : Ranges ord) (L : Nat → Prop)
    (hL : ∀ s, L s → ∃ x, L x ∧ Visited d h0 s x) (roots : List Nat) (s : Nat) (hs : s ∈ roots) (hl : L s) (n : Nat) :
    processAll d ord n h0 roots = none :=
  visitAll_none (fun h v h' => visit_stable stable_kept n h v h') (.ptr s)
    (fun h hk => circle stable_kept ho L (fun s hl => let ⟨x, h1, h2⟩ := hL s hl; ⟨x, h1, surely_of_visited s x h2⟩) n s hl h hk)
    _ h0 (kept_start hu) (List.mem_map_of_mem hs)

/-! ## Documents -/

/-- Ranging in the order of the list. -/
def plainOrd (h : Heap) (s : Nat) : List Ref := (h s).props.map (·.2)

theorem plainOrd_ranges : Ranges plainOrd := fun _ _ => .refl _

/-- A tree of nodes, described with `allOf`: `Tree: {allOf: [{properties: {child: {$ref: Tree}}}]}`. -/
def treeDoc : Doc where
  copies := true
  refs s := if s = 2 then some 0 else none
  before _ := []
  after _ := []

/-- Its schemas: 0 is `Tree`, 1 the object in `allOf`, 2 the property. -/
def treeHeap : Heap := fun s =>
  if s = 0 then { allOf := [.ptr 1] } else if s = 1 then { type := object, props := [(['c'], .ptr 2)] } else {}

/-- **C99** violated, version 2, by a recursive type described with `allOf`. -/
theorem C99_violated_tree (ho : Ranges ord) (n : Nat) : processAll treeDoc ord n treeHeap [0] = none := by
  refine C99_violated_circle (fun s => ?_) ho (fun s => s = 0 ∨ s = 1 ∨ s = 2) ?_ [0] 0 (.head _) (.inl rfl) n
  · unfold treeHeap; split
    · rfl
    · split <;> rfl
  · rintro s (rfl | rfl | rfl)
    · exact ⟨1, .inr (.inl rfl), .inr (.inr (.inr (.inl ⟨rfl, by simp [treeHeap, comps]⟩)))⟩
    · exact ⟨2, .inr (.inr rfl), .inl ⟨['c'], by simp [treeHeap]⟩⟩
    · exact ⟨1, .inr (.inl rfl), .inr (.inr (.inr (.inr ⟨rfl, 0, rfl, rfl, by simp [treeHeap, comps]⟩)))⟩

/-- The same type described without `allOf`: 0 is the type, 1 its property. -/
def listHeap : Heap := fun s => if s = 0 then { type := object, props := [(['c'], .ptr 1)] } else {}

def listDoc (copies : Bool) : Doc where
  copies := copies
  refs s := if s = 1 then some 0 else none
  before _ := []
  after _ := []

example (c : Bool) : ∃ n h', processAll (listDoc c) plainOrd n listHeap [0] = some h' :=
  C99_plain_partial (fun s => by unfold listHeap; split <;> rfl) plainOrd_ranges
    (fun s => by unfold listHeap; split <;> rfl) (fun s => if s = 0 then 1 else 0)
    (by
      rintro s x (⟨e, he, rfl⟩ | h | h)
      · unfold listHeap at he
        split at he
        · rename_i hs; subst hs
          rcases List.mem_singleton.1 he with rfl
          decide
        · cases he
      · cases h
      · cases h) [0]

/-- A composition of a reference and an object: 0 is `{allOf: [1, 3]}`, 1 refers to 2, 2 has the property 5, 3 the
property 4, and 5 refers to 2 again. -/
def baseDoc (copies : Bool) : Doc where
  copies := copies
  refs s := if s = 1 ∨ s = 5 then some 2 else none
  before _ := []
  after _ := []

def baseHeap : Heap := fun s =>
  if s = 0 then { allOf := [.ptr 1, .ptr 3] } else if s = 2 then { type := object, props := [(['a'], .ptr 5)] }
  else if s = 3 then { type := object, props := [(['b'], .ptr 4)] } else {}

theorem base_comp {c : Bool} {s x : Nat} (h : CompIn (baseDoc c) baseHeap s x) : s = 0 ∧ (x = 1 ∨ x = 3) := by
  induction h with
  | @own s x h =>
    unfold baseHeap at h
    split at h
    · rename_i hs
      simp only [comps, List.nil_append, List.mem_cons, List.not_mem_nil, or_false] at h
      rcases h with rfl | rfl
      · exact ⟨hs, .inl rfl⟩
      · exact ⟨hs, .inr rfl⟩
    · split at h
      · simp [comps] at h
      · split at h <;> simp [comps] at h
  | @inherit s t x _ hr _ ih =>
    unfold baseDoc at hr
    simp only at hr
    split at hr
    · cases hr; exact absurd ih.1 (by decide)
    · cases hr
  | nest _ _ ih1 ih2 => rcases ih1.2 with h | h <;> rw [ih2.1] at h <;> cases h
  | @behind s b t x _ hr _ _ ih =>
    unfold baseDoc at hr
    simp only at hr
    split at hr
    · cases hr; exact absurd ih.1 (by decide)
    · cases hr

theorem base_prop {c : Bool} {s x : Nat} (h : PropIn (baseDoc c) baseHeap s x) : (s = 0 ∨ s = 2 ∨ s = 3) ∧ (x = 4 ∨ x = 5) := by
  induction h with
  | @own s e h =>
    unfold baseHeap at h
    split at h
    · cases h
    · split at h
      · rename_i hs; rcases List.mem_singleton.1 h with rfl; exact ⟨.inr (.inl hs), .inr rfl⟩
      · split at h
        · rename_i hs; rcases List.mem_singleton.1 h with rfl; exact ⟨.inr (.inr hs), .inl rfl⟩
        · cases h
  | branch hc _ ih => exact ⟨.inl (base_comp hc).1, ih.2⟩
  | target hc _ _ ih => exact ⟨.inl (base_comp hc).1, ih.2⟩

example (c : Bool) : ∃ h', processAll (baseDoc c) plainOrd 3 baseHeap [0, 2] = some h' ∧ Inside (baseDoc c) baseHeap h' := by
  refine C99_ends_partial (fun s => ?_) plainOrd_ranges (fun s => if s = 0 then 2 else if s = 4 ∨ s = 5 then 0 else 1) ?_ [0, 2] 3
    (by decide)
  · unfold baseHeap; split
    · rfl
    · split
      · rfl
      · split <;> rfl
  · intro s x h
    cases h with
    | comp h => obtain ⟨rfl, rfl | rfl⟩ := base_comp h <;> decide
    | prop h => obtain ⟨rfl | rfl | rfl, rfl | rfl⟩ := base_prop h <;> decide
    | before h => cases h
    | after h => cases h

/-- A chain of references into a composition: 0 and 1 are components referring to the next one, 2 has an alternative 3 whose
property 4 refers to 0. -/
def chainDoc : Doc where
  copies := true
  refs s := if s = 0 then some 1 else if s = 1 then some 2 else if s = 4 then some 0 else none
  before _ := []
  after _ := []

def chainHeap : Heap := fun s =>
  if s = 2 then { allOf := [.ptr 3] } else if s = 3 then { type := object, props := [(['p'], .ptr 4)] } else {}

/-- What holds from the moment 1 has been processed. -/
def ChainInv (h : Heap) : Prop := Ref.ptr 3 ∈ (h 2).allOf ∧ Ref.ptr 3 ∈ (h 1).allOf ∧ (['p'], Ref.ptr 4) ∈ (h 3).props

/-- Alternatives of schemas that are no references stay. -/
theorem allOf_merge (h : Heap) (q s : Nat) (v x : Ref) (hx : x ∈ (h q).allOf) :
    x ∈ (h.set s (mergeWith h.look (h s) (h.look v)) q).allOf := by
  by_cases hq : q = s
  · subst hq; rw [set_self]
    exact (SchemaMerge.C48_alternatives h _ _ Sch.allOf (.inl rfl) x).2 (.inl hx)
  · rw [set_other _ _ _ _ hq]; exact hx

theorem props_merge (h : Heap) (q s : Nat) (v : Ref) (e : Str × Ref) (he : e ∈ (h q).props) :
    e ∈ (h.set s (mergeWith h.look (h s) (h.look v)) q).props := by
  by_cases hq : q = s
  · subst hq; rw [set_self]; exact merge_props_old _ _ _ _ he
  · rw [set_other _ _ _ _ hq]; exact he

theorem chain_ref (h : Heap) (s : Nat) (hx : Ref.ptr 3 ∈ (h 1).allOf) (h2 : Ref.ptr 3 ∈ (h 2).allOf) :
    Ref.ptr 3 ∈ (setReference chainDoc h s 1).allOf := by
  by_cases hs : 1 = s
  · subst hs
    rw [list_reference Sch.allOf (.inl rfl) h 1 2 rfl]
    exact mem_alternatives rfl h2
  · rw [reference_other h s 1 hs]; exact hx

theorem chain_stable : Stable chainDoc ChainInv := by
  refine ⟨fun h s hp => ⟨?_, chain_ref h s hp.2.1 hp.1, by rw [reference_props]; exact hp.2.2⟩, fun h s v hp =>
    ⟨allOf_merge h 2 s v _ hp.1, allOf_merge h 1 s v _ hp.2.1, props_merge h 3 s v _ hp.2.2⟩⟩
  by_cases hs : 2 = s
  · subst hs; exact hp.1
  · rw [reference_other h s 2 hs]; exact hp.1

/-- 0 has been processed too. -/
def ChainInv0 (h : Heap) : Prop := ChainInv h ∧ Ref.ptr 3 ∈ (h 0).allOf

theorem chain_stable0 : Stable chainDoc ChainInv0 := by
  refine ⟨fun h s hp => ⟨chain_stable.1 h s hp.1, ?_⟩, fun h s v hp => ⟨chain_stable.2 h s v hp.1, allOf_merge h 0 s v _ hp.2⟩⟩
  by_cases hs : 0 = s
  · subst hs
    rw [list_reference Sch.allOf (.inl rfl) h 0 1 rfl]
    exact mem_alternatives rfl hp.1.2.1
  · rw [reference_other h s 0 hs]; exact hp.2

/-- **C99** violated, version 2: whether processing ends may depend on the order in which Go ranges over the components. -/
theorem C99_violated_order : (∃ h', processAll chainDoc plainOrd 9 chainHeap [2, 0, 1] = some h') ∧
    ∀ n, processAll chainDoc plainOrd n chainHeap [1, 0, 2] = none := by
  refine ⟨⟨_, rfl⟩, fun n => ?_⟩
  -- the alternative and its property visit each other once 0 is processed
  have hloop : ∀ n h, ChainInv0 h → setDependencies chainDoc plainOrd n h (.ptr 3) = none := by
    intro n h hp
    refine circle chain_stable0 plainOrd_ranges (fun s => s = 3 ∨ s = 4) ?_ n 3 (.inl rfl) h hp
    rintro s (rfl | rfl)
    · exact ⟨4, .inr rfl, .inl fun h hp => ⟨_, hp.1.2.2⟩⟩
    · refine ⟨3, .inl rfl, .inr (.inr (.inr ⟨Sch.allOf, fun h => Ref.ptr 3 ∈ (h 4).allOf, .inl rfl, ?_, ?_, fun _ _ h => h⟩))⟩
      · refine ⟨fun h s hp => ⟨chain_stable0.1 h s hp.1, ?_⟩, fun h s v hp => ⟨chain_stable0.2 h s v hp.1, allOf_merge h 4 s v _ hp.2⟩⟩
        show Ref.ptr 3 ∈ (setReference chainDoc h s 4).allOf
        by_cases hs : 4 = s
        · subst hs
          rw [list_reference Sch.allOf (.inl rfl) h 4 0 rfl]
          exact mem_alternatives rfl hp.1.2
        · rw [reference_other h s 4 hs]; exact hp.2
      · intro h hp
        show Ref.ptr 3 ∈ (setReference chainDoc h 4 4).allOf
        rw [list_reference Sch.allOf (.inl rfl) h 4 0 rfl]
        exact mem_alternatives rfl hp.2
  have h0' : ∀ n h, ChainInv h → setDependencies chainDoc plainOrd n h (.ptr 0) = none := by
    intro n h hp
    cases n with
    | zero => rfl
    | succ n =>
      refine visit_none chain_stable0 plainOrd_ranges n 0 3 h ⟨chain_stable.1 h 0 hp, ?_⟩ (hloop n)
        (.inr (.inr (.inr ⟨Sch.allOf, .inl rfl, fun h hp => hp.2⟩)))
      rw [list_reference Sch.allOf (.inl rfl) h 0 1 rfl]
      exact mem_alternatives rfl hp.2.1
  unfold processAll
  simp only [List.map_cons]
  rw [visitAll]
  cases e : setDependencies chainDoc plainOrd n chainHeap (.ptr 1) with
  | none => rfl
  | some h1 =>
    have : ChainInv h1 := by
      cases n with
      | zero => cases e
      | succ n =>
        refine visit_after chain_stable n (fun h v h' => visit_stable chain_stable n h v h') chainHeap 1 h1 ?_ e
        exact ⟨by simp [setReference, chainDoc, Heap.set, chainHeap], by simp [setReference, chainDoc, Heap.set, chainHeap, alternatives, pick],
          by simp [setReference, chainDoc, Heap.set, chainHeap]⟩
    simp only
    rw [visitAll, h0' n h1 this]

/-! ## Both versions: a schema that becomes one of its own properties -/

/-- 0 is `Node: {properties: {children: {type: array, items: {allOf: [{$ref: Node}]}}}}`, with the array 1, its items 2 and
the reference 3; 4 is `{anyOf: [{allOf: [{allOf: [{$ref: Node}]}]}]}`, with 5, 6 and the reference 7. -/
def nodeDoc (copies : Bool) : Doc where
  copies := copies
  refs s := if s = 3 ∨ s = 7 then some 0 else none
  before s := if s = 1 then [2] else []
  after _ := []

def nodeHeap : Heap := fun s =>
  if s = 0 then { type := object, props := [(['c'], .ptr 1)] } else if s = 2 then { allOf := [.ptr 3] }
  else if s = 4 then { anyOf := [.ptr 5] } else if s = 5 then { allOf := [.ptr 6] } else if s = 6 then { allOf := [.ptr 7] } else {}

/-- The items have the array they are the items of as a property. -/
def NodeInv (h : Heap) : Prop :=
  (['c'], Ref.ptr 1) ∈ (h 2).props ∧ (['c'], Ref.ptr 1) ∈ (h 0).props ∧ Ref.ptr 5 ∈ (h 4).anyOf ∧ Ref.ptr 6 ∈ (h 5).allOf

instance (h : Heap) : Decidable (NodeInv h) := by unfold NodeInv; infer_instance

theorem node_stable (c : Bool) : Stable (nodeDoc c) NodeInv := by
  refine ⟨fun h s hp => ⟨by rw [reference_props]; exact hp.1, by rw [reference_props]; exact hp.2.1, ?_, ?_⟩, fun h s v hp =>
    ⟨props_merge h 2 s v _ hp.1, props_merge h 0 s v _ hp.2.1, ?_, allOf_merge h 5 s v _ hp.2.2.2⟩⟩
  · by_cases hs : 4 = s
    · subst hs; exact hp.2.2.1
    · rw [reference_other h s 4 hs]; exact hp.2.2.1
  · by_cases hs : 5 = s
    · subst hs; exact hp.2.2.2
    · rw [reference_other h s 5 hs]; exact hp.2.2.2
  · by_cases hq : 4 = s
    · subst hq; rw [set_self]
      exact (SchemaMerge.C48_alternatives h _ _ Sch.anyOf (.inr (.inl rfl)) _).2 (.inl hp.2.2.1)
    · rw [set_other _ _ _ _ hq]; exact hp.2.2.1

/-- From then on the array is visited inside itself. -/
theorem node_none (c : Bool) (ho : Ranges ord) (n : Nat) (s : Nat) (hs : s = 0 ∨ s = 1 ∨ s = 2) (h : Heap) (hp : NodeInv h) :
    setDependencies (nodeDoc c) ord n h (.ptr s) = none := by
  refine circle (node_stable c) ho (fun s => s = 0 ∨ s = 1 ∨ s = 2) ?_ n s hs h hp
  rintro s (rfl | rfl | rfl)
  · exact ⟨1, .inr (.inl rfl), .inl fun h hp => ⟨_, hp.2.1⟩⟩
  · exact ⟨2, .inr (.inr rfl), .inr (.inl (by simp [nodeDoc]))⟩
  · exact ⟨1, .inr (.inl rfl), .inl fun h hp => ⟨_, hp.1⟩⟩

/-- What holds from the moment 4 has merged 5. -/
def NodeInv4 (h : Heap) : Prop := NodeInv h ∧ Ref.ptr 6 ∈ (h 4).allOf ∧ (['c'], Ref.ptr 1) ∈ (h 6).props

instance (h : Heap) : Decidable (NodeInv4 h) := by unfold NodeInv4; infer_instance

theorem node_stable4 (c : Bool) : Stable (nodeDoc c) NodeInv4 := by
  refine ⟨fun h s hp => ⟨(node_stable c).1 h s hp.1, ?_, by rw [reference_props]; exact hp.2.2⟩, fun h s v hp =>
    ⟨(node_stable c).2 h s v hp.1, allOf_merge h 4 s v _ hp.2.1, props_merge h 6 s v _ hp.2.2⟩⟩
  by_cases hs : 4 = s
  · subst hs; exact hp.2.1
  · rw [reference_other h s 4 hs]; exact hp.2.1

/-- The visit of 4 does not end when its alternatives `anyOf` leave such a heap. -/
theorem node_none4 (c : Bool) (n : Nat) (h h3 : Heap)
    (h1 : visitAll (setDependencies (nodeDoc c) plainOrd n) h (plainOrd h 4) = some h)
    (e : visitMerge (setDependencies (nodeDoc c) plainOrd n) 4 h (h 4).anyOf = some h3)
    (h4 : (h3 4).oneOf = []) (hi : NodeInv4 h3) : setDependencies (nodeDoc c) plainOrd (n + 1) h (.ptr 4) = none := by
  have h6 : ∀ h, NodeInv4 h → setDependencies (nodeDoc c) plainOrd n h (.ptr 6) = none := by
    intro h hp
    cases n with
    | zero => rfl
    | succ n =>
      exact visit_none (node_stable4 c) plainOrd_ranges n 6 1 h ((node_stable4 c).1 h 6 hp)
        (fun h hp => node_none c plainOrd_ranges n 1 (.inr (.inl rfl)) h hp.1) (.inl fun h hp => ⟨_, hp.2.2⟩)
  have hr : setReference (nodeDoc c) h 4 = h := rfl
  rw [setDependencies, hr, h1]
  simp only [Option.bind_some]
  unfold visitRest
  have hb : (nodeDoc c).before 4 = [] := rfl
  rw [hb, List.map_nil, visitAll]
  simp only [Option.bind_some]
  rw [e]
  simp only [Option.bind_some]
  rw [h4, visitMerge]
  simp only [Option.bind_some]
  rw [visitMerge_none (node_stable4 c) (fun h v h' => visit_stable (node_stable4 c) n h v h') _ h6 _ _ hi hi.2.1]
  rfl

/-- **C99** violated, both versions: each of the two schemas alone is processed, but not both, in whichever order: the array
of `Node` is visited again once its items have it as a property. -/
theorem C99_violated_node (c : Bool) :
    (∃ h', processAll (nodeDoc c) plainOrd 4 nodeHeap [0] = some h') ∧ (∃ h', processAll (nodeDoc c) plainOrd 9 nodeHeap [4] = some h') ∧
    ∀ n, processAll (nodeDoc c) plainOrd n nodeHeap [0, 4] = none ∧ processAll (nodeDoc c) plainOrd n nodeHeap [4, 0] = none := by
  refine ⟨by cases c <;> exact ⟨_, rfl⟩, by cases c <;> exact ⟨_, rfl⟩, fun n => ?_⟩
  by_cases hn : n < 6
  · match n, hn with
    | 0, _ => exact ⟨rfl, rfl⟩
    | 1, _ => exact ⟨rfl, rfl⟩
    | 2, _ => exact ⟨rfl, rfl⟩
    | 3, _ => exact ⟨rfl, rfl⟩
    | 4, _ => cases c <;> exact ⟨rfl, rfl⟩
    | 5, _ => cases c <;> exact ⟨rfl, rfl⟩
  · obtain ⟨k, rfl⟩ : ∃ k, n = k + 6 := ⟨n - 6, by omega⟩
    unfold processAll
    simp only [List.map_cons]
    constructor
    · rw [visitAll]
      have : ∃ h', setDependencies (nodeDoc c) plainOrd (k + 6) nodeHeap (.ptr 0) = some h' ∧
          visitAll (setDependencies (nodeDoc c) plainOrd (k + 6)) h' [.ptr 4] = none := by
        cases c <;>
        · refine ⟨_, rfl, ?_⟩
          rw [visitAll, node_none4 _ (k + 5) _ _ rfl rfl rfl (by decide)]
      obtain ⟨h', e, hi⟩ := this
      rw [e]; exact hi
    · rw [visitAll]
      have : ∃ h', setDependencies (nodeDoc c) plainOrd (k + 6) nodeHeap (.ptr 4) = some h' ∧ NodeInv h' := by
        cases c <;> exact ⟨_, rfl, by decide⟩
      obtain ⟨h', e, hi⟩ := this
      rw [e]
      simp only
      rw [visitAll, node_none c plainOrd_ranges (k + 6) 0 (.inl rfl) h' hi]

end Verif.Process
