import Verif.Props.Message

/-!
# C107: Generating again, with messages and operations that have traits

`Generate` processes the document each time it is called (pkg/codegen/codegen.go:102), so traits are applied to messages and
operations that already had them applied.
-/

namespace Verif.Message

open SchemaMerge (Sch Ref orElse brings)

/-! ## Nothing more to take from a trait -/

/-- A text that the trait does not change. -/
def FullStr (own trait : Str) : Prop := own = [] → trait = []
/-- An optional element that the trait does not change. -/
def FullOpt {α : Type} (own trait : Option α) : Prop := own = none → trait = none
/-- Named elements to which the trait adds nothing. -/
def FullNamed {α : Type} (own trait : List (Str × α)) : Prop :=
  (own.map (·.1)).Nodup ∧ ∀ x ∈ trait, x.1 ∈ own.map (·.1)

theorem fillStr_full {own trait : Str} (h : FullStr own trait) : fillStr own trait = own := by
  unfold fillStr
  by_cases e : own = []
  · rw [if_pos e, h e, e]
  · rw [if_neg e]

theorem fullStr_fill (own trait : Str) : FullStr (fillStr own trait) trait := by
  intro h
  unfold fillStr at h
  by_cases e : own = []
  · rwa [if_pos e] at h
  · rw [if_neg e] at h; exact absurd h e

theorem fullStr_keep {own trait : Str} (h : FullStr own trait) (other : Str) : FullStr (fillStr own other) trait := by
  intro e
  unfold fillStr at e
  by_cases o : own = []
  · exact h o
  · rw [if_neg o] at e; exact absurd e o

theorem fillOpt_full {α : Type} {own trait : Option α} (h : FullOpt own trait) : fillOpt own trait = own := by
  cases own with
  | some x => rfl
  | none => rw [h rfl]; rfl

theorem fullOpt_fill {α : Type} (own trait : Option α) : FullOpt (fillOpt own trait) trait := by
  cases own <;> cases trait <;> simp [FullOpt, fillOpt]

theorem fullOpt_keep {α : Type} {own trait : Option α} (h : FullOpt own trait) (other : Option α) :
    FullOpt (fillOpt own other) trait := by
  cases own with
  | some x => intro e; cases other <;> cases e
  | none => intro _; exact h rfl

theorem named_full {α : Type} {own trait : List (Str × α)} (h : FullNamed own trait) :
    Dedup.removeDuplicateNamed (·.1) (own ++ trait) = own := by
  rw [(Dedup.C64_named _ _).exactly]
  have key : ∀ l : List (Str × α), (∀ x ∈ l.reverse, x.1 ∈ own.map (·.1)) →
      Dedup.firsts (·.1) (own ++ l.reverse) = own := by
    intro l
    induction l with
    | nil => intro _; simpa using Dedup.firsts_nodup _ own h.1
    | cons x l ih =>
      intro hl
      rw [List.reverse_cons, ← List.append_assoc, Dedup.firsts_snoc, ih (fun y hy => hl y (by simp at hy ⊢; exact Or.inl hy)),
        if_pos, List.append_nil]
      rw [List.any_eq_true]
      obtain ⟨y, hy, e⟩ := List.mem_map.1 (hl x (by simp))
      exact ⟨y, List.mem_append_left _ hy, by simpa using e⟩
  simpa using key trait.reverse (by simpa using h.2)

theorem fullNamed_fill {α : Type} (own trait : List (Str × α)) :
    FullNamed (Dedup.removeDuplicateNamed (·.1) (own ++ trait)) trait :=
  ⟨(Dedup.C64_named _ _).once, fun x hx => (Dedup.C64_named _ _).all x (List.mem_append_right _ hx)⟩

theorem fullNamed_keep {α : Type} {own trait : List (Str × α)} (h : FullNamed own trait) (other : List (Str × α)) :
    FullNamed (Dedup.removeDuplicateNamed (·.1) (own ++ other)) trait := by
  refine ⟨(Dedup.C64_named _ _).once, fun x hx => ?_⟩
  obtain ⟨y, hy, e⟩ := List.mem_map.1 (h.2 x hx)
  rw [← e]
  exact (Dedup.C64_named _ _).all y (List.mem_append_left _ hy)

/-- For a fold: what holds of the result for every element folded over. -/
theorem full_foldl {σ τ : Type} (f : σ → τ → σ) (Full : σ → τ → Prop) (hnew : ∀ s t, Full (f s t) t)
    (hkeep : ∀ s t u, Full s t → Full (f s u) t) (hsame : ∀ s t, Full s t → f s t = s) (s : σ) (ts : List τ) :
    ts.foldl f (ts.foldl f s) = ts.foldl f s := by
  have old : ∀ (ts : List τ) (s : σ) (t : τ), Full s t → Full (ts.foldl f s) t := by
    intro ts
    induction ts with
    | nil => intro s t h; exact h
    | cons u ts ih => intro s t h; exact ih _ t (hkeep s t u h)
  have all : ∀ (ts : List τ) (s : σ), ∀ t ∈ ts, Full (ts.foldl f s) t := by
    intro ts
    induction ts with
    | nil => intro s t h; cases h
    | cons u ts ih =>
      intro s t h
      rcases List.mem_cons.1 h with rfl | h
      · exact old ts _ t (hnew s t)
      · exact ih _ t h
  have still : ∀ (us : List τ) (r : σ), (∀ t ∈ us, Full r t) → us.foldl f r = r := by
    intro us
    induction us with
    | nil => intro r _; rfl
    | cons u us ih =>
      intro r h
      rw [List.foldl_cons, hsame r u (h u (List.mem_cons_self ..))]
      exact ih r (fun t ht => h t (List.mem_cons_of_mem _ ht))
  exact still ts _ (all ts s)

/-! ## Operations -/

structure FullOp {α : Type} (o t : Op α) : Prop where
  title : FullStr o.title t.title
  summary : FullStr o.summary t.summary
  description : FullStr o.description t.description
  security : FullNamed o.security t.security
  tags : FullNamed o.tags t.tags
  externalDocs : FullOpt o.externalDocs t.externalDocs
  bindings : FullOpt o.bindings t.bindings

/-- **C107.** Applying the traits of an operation again changes nothing. -/
theorem C107_operations {α : Type} (op : Op α) (ots : List (Op α)) :
    applyOpTraits (applyOpTraits op ots) ots = applyOpTraits op ots :=
  full_foldl applyOpTrait FullOp
    (fun _ _ => ⟨fullStr_fill _ _, fullStr_fill _ _, fullStr_fill _ _, fullNamed_fill _ _, fullNamed_fill _ _,
      fullOpt_fill _ _, fullOpt_fill _ _⟩)
    (fun _ _ _ h => ⟨fullStr_keep h.title _, fullStr_keep h.summary _, fullStr_keep h.description _, fullNamed_keep h.security _,
      fullNamed_keep h.tags _, fullOpt_keep h.externalDocs _, fullOpt_keep h.bindings _⟩)
    (fun o t h => by
      simp only [applyOpTrait, fillStr_full h.title, fillStr_full h.summary, fillStr_full h.description, named_full h.security,
        named_full h.tags, fillOpt_full h.externalDocs, fillOpt_full h.bindings])
    op ots

/-! ## Messages -/

/-- A trait that has neither headers nor payload nor examples. -/
def Light {α : Type} (t : Trait α) : Prop := t.headers = none ∧ t.payload = none ∧ t.examples = []

structure FullMsg {α : Type} (m : Msg α) (t : Trait α) : Prop where
  correlationID : FullOpt m.correlationID t.correlationID
  contentType : FullStr m.contentType t.contentType
  title : FullStr m.title t.title
  summary : FullStr m.summary t.summary
  description : FullStr m.description t.description
  tags : FullNamed m.tags t.tags
  externalDocs : FullOpt m.externalDocs t.externalDocs

/-- The trait without what `Light` excludes. -/
def lighten {α : Type} (t : Trait α) : Trait α := { t with headers := none, payload := none, examples := [] }

theorem lighten_light {α : Type} {t : Trait α} (h : Light t) : lighten t = t := by
  obtain ⟨h1, h2, h3⟩ := h
  cases t
  simp only at h1 h2 h3
  subst h1 h2 h3
  rfl

theorem applyTrait_lighten {α : Type} (look : Ref → Sch) (prep : Sch → Sch) (m : Msg α) (t : Trait α) :
    applyTrait look prep m (lighten t) = { m with
      correlationID := fillOpt m.correlationID t.correlationID, contentType := fillStr m.contentType t.contentType,
      title := fillStr m.title t.title, summary := fillStr m.summary t.summary,
      description := fillStr m.description t.description,
      tags := Dedup.removeDuplicateNamed (·.1) (m.tags ++ t.tags),
      externalDocs := fillOpt m.externalDocs t.externalDocs } := by
  simp [applyTrait, lighten, mergeHeaders, mergePayload]

/-- **C107 (partial).** Applying traits again changes nothing if they have neither headers nor payload nor examples. -/
theorem C107_traits_partial {α : Type} (look : Ref → Sch) (prep : Sch → Sch) (m : Msg α) (ts : List (Trait α))
    (h : ∀ t ∈ ts, Light t) :
    applyTraits look prep (applyTraits look prep m ts) ts = applyTraits look prep m ts := by
  have e : ts = ts.map lighten := by
    conv => lhs; rw [← List.map_id ts]
    exact List.map_congr_left fun t ht => (lighten_light (h t ht)).symm
  have key := full_foldl (fun (m : Msg α) (t : Trait α) => applyTrait look prep m (lighten t)) FullMsg
    (fun m t => by
      simp only [applyTrait_lighten]
      exact ⟨fullOpt_fill _ _, fullStr_fill _ _, fullStr_fill _ _, fullStr_fill _ _, fullStr_fill _ _, fullNamed_fill _ _,
        fullOpt_fill _ _⟩)
    (fun m t u hf => by
      simp only [applyTrait_lighten]
      exact ⟨fullOpt_keep hf.correlationID _, fullStr_keep hf.contentType _, fullStr_keep hf.title _, fullStr_keep hf.summary _,
        fullStr_keep hf.description _, fullNamed_keep hf.tags _, fullOpt_keep hf.externalDocs _⟩)
    (fun m t hf => by
      simp only [applyTrait_lighten, fillOpt_full hf.correlationID, fillStr_full hf.contentType, fillStr_full hf.title,
        fillStr_full hf.summary, fillStr_full hf.description, named_full hf.tags, fillOpt_full hf.externalDocs])
    m ts
  unfold applyTraits
  rw [e]
  simp only [List.foldl_map]
  exact key

/-! ## Headers -/

/-- The properties of the headers once a list of traits with headers but without payload has been applied. -/
theorem headers_foldl {α : Type} (look : Ref → Sch) (prep : Sch → Sch) (ts : List (Trait α))
    (hp : ∀ t ∈ ts, t.payload = none) : ∀ (m : Msg α) (s : Sch), m.headers = some s →
    ∃ s', (applyTraits look prep m ts).headers = some s' ∧
      ∀ k, s'.props.get k = ts.foldl (fun o t => orElse o (t.headers.bind (fun h => brings look h k))) (s.props.get k) := by
  induction ts with
  | nil => intro m s h; exact ⟨s, h, fun _ => rfl⟩
  | cons t ts ih =>
    intro m s h
    have ht := hp t (List.mem_cons_self ..)
    have hts : ∀ t ∈ ts, t.payload = none := fun u hu => hp u (List.mem_cons_of_mem _ hu)
    have step : ∃ s1, (applyTrait look prep m t).headers = some s1 ∧
        ∀ k, s1.props.get k = orElse (s.props.get k) (t.headers.bind (fun h => brings look h k)) := by
      cases hh : t.headers with
      | none =>
        refine ⟨s, by rw [(C61_untouched look prep m t hh ht).1, h], fun k => ?_⟩
        cases s.props.get k <;> rfl
      | some hd => exact C61_headers_partial look prep m t s hd h hh ht
    obtain ⟨s1, h1, hk1⟩ := step
    obtain ⟨s2, h2, hk2⟩ := ih hts _ s1 h1
    exact ⟨s2, h2, fun k => by rw [hk2 k, hk1 k]; rfl⟩

/-- **C107 (partial).** The properties of headers that a message has itself are the same when its traits are applied again,
whatever headers these have. -/
theorem C107_headers_partial {α : Type} (look : Ref → Sch) (prep : Sch → Sch) (m : Msg α) (ts : List (Trait α)) (s : Sch)
    (hm : m.headers = some s) (hp : ∀ t ∈ ts, t.payload = none) :
    ∃ s1 s2, (applyTraits look prep m ts).headers = some s1 ∧
      (applyTraits look prep (applyTraits look prep m ts) ts).headers = some s2 ∧ ∀ k, s2.props.get k = s1.props.get k := by
  obtain ⟨s1, h1, k1⟩ := headers_foldl look prep ts hp m s hm
  obtain ⟨s2, h2, k2⟩ := headers_foldl look prep ts hp _ s1 h1
  refine ⟨s1, s2, h1, h2, fun k => ?_⟩
  rw [k2 k, k1 k]
  exact full_foldl (fun (o : Option Ref) (t : Trait α) => orElse o (t.headers.bind (fun h => brings look h k)))
    (fun o t => o = none → t.headers.bind (fun h => brings look h k) = none)
    (fun o t => by cases o <;> simp [orElse])
    (fun o t u h => by cases o <;> simp_all [orElse])
    (fun o t h => by
      cases o with
      | some x => rfl
      | none => show orElse none _ = none; rw [h rfl]; rfl)
    _ _

/-! ## What changes -/

/-- **C107 (violated).** Examples of traits are added again each time. -/
theorem C107_violated_examples {α : Type} (look : Ref → Sch) (prep : Sch → Sch) (m : Msg α) (t : Trait α)
    (h : t.examples ≠ []) :
    (applyTraits look prep (applyTraits look prep m [t]) [t]).examples = m.examples ++ t.examples ++ t.examples ∧
    (applyTraits look prep (applyTraits look prep m [t]) [t]).examples ≠ (applyTraits look prep m [t]).examples := by
  have e : ∀ m : Msg α, (applyTraits look prep m [t]).examples = m.examples ++ t.examples := fun m =>
    (C61_fields look prep m t).2.2.2.2.2.2.2
  rw [e, e]
  refine ⟨rfl, fun h' => ?_⟩
  have := congrArg List.length h'
  simp only [List.length_append] at this
  exact h (List.length_eq_zero_iff.1 (by omega))

/-- **C107 (violated).** A message that has its payload from a trait, and headers: when the document is processed again, the
properties of this payload become headers. -/
theorem C107_violated_payload {α : Type} (look : Ref → Sch) (prep : Sch → Sch) (m : Msg α) (t : Trait α) (s p : Sch)
    (k : Str) (r : Ref) (hm : m.headers = some s) (hmp : m.payload = none) (ht : t.headers = none)
    (hp : t.payload = some p) (hk : p.props.get k = some r) (hs : s.props.get k = none) :
    (applyTraits look prep m [t]).headers = some s ∧
    ∃ s', (applyTraits look prep (applyTraits look prep m [t]) [t]).headers = some s' ∧ s'.props.get k = some r := by
  have h1 : (applyTraits look prep m [t]).headers = some s := by
    simp [applyTraits, applyTrait, mergeHeaders, mergePayload, ht, hm, hp, hmp]
  have h2 : (applyTraits look prep m [t]).payload = some (prep (followSch look p)) := by
    simp [applyTraits, applyTrait, mergeHeaders, mergePayload, ht, hp, hmp]
  exact ⟨h1, C61_violated_headers look prep _ t s p _ k r h1 h2 ht hp hk hs⟩

/-- **C107 (violated).** A correlation ID that comes from a trait has no property the first time, and one the second time. -/
theorem C107_violated_correlation (m : CMsg) (l : Str) (ts : List (Option Str)) (hm : m.location = none) :
    (m.process (some l :: ts)).tree = m.tree ∧
    ((m.process (some l :: ts)).process (some l :: ts)).tree = CorrTree.createTree m.tree l := by
  obtain ⟨h1, h2⟩ := C61_violated_correlation m l ts hm
  refine ⟨h2, ?_⟩
  have := (C61_own_correlation _ l (some l :: ts) h1).2
  rw [this, h2]

theorem down_again (p : List Str) (t : CorrTree.Tree) (q : List Str) :
    CorrTree.view (CorrTree.down (CorrTree.down t p) p) q = CorrTree.view (CorrTree.down t p) q := by
  rw [CorrTree.C52_exactly p (CorrTree.down t p) q, CorrTree.C52_exactly p t q]
  cases CorrTree.view t q with
  | some i => rfl
  | none => dsimp only; cases CorrTree.created q p <;> rfl

/-- **C107.** With a correlation ID of its own, a message has the same properties each time, whatever its traits. -/
theorem C107_correlation (m : CMsg) (l : Str) (ts : List (Option Str)) (hm : m.location = some l) (q : List Str) :
    let once := m.process ts
    let twice := once.process ts
    twice.location = once.location ∧
    twice.tree.headers.bind (CorrTree.view · q) = once.tree.headers.bind (CorrTree.view · q) ∧
    twice.tree.payload.bind (CorrTree.view · q) = once.tree.payload.bind (CorrTree.view · q) := by
  obtain ⟨h1, h2⟩ := C61_own_correlation m l ts hm
  obtain ⟨h3, h4⟩ := C61_own_correlation (m.process ts) l ts h1
  refine ⟨h3.trans h1.symm, ?_⟩
  rw [h4, h2]
  unfold CorrTree.createTree
  cases hf : CorrTree.fieldOf l with
  | header => exact ⟨down_again _ _ q, rfl⟩
  | payload => exact ⟨rfl, down_again _ _ q⟩
  | nowhere => exact ⟨rfl, rfl⟩

/-! ## Examples -/

/-- A message whose title, tags and documentation come from two traits. -/
example : applyTraits (α := Nat) (fun _ => {}) id ⟨none, none, none, [], [], [], "own".toList, [("a".toList, 1)], none, []⟩
    [⟨none, none, some 4, [], [], "first".toList, "no".toList, [("a".toList, 2), ("b".toList, 3)], none, []⟩,
     ⟨none, none, some 5, "json".toList, "t".toList, "second".toList, [], [("b".toList, 6)], some 7, []⟩] =
    ⟨none, none, some 4, "json".toList, "t".toList, "first".toList, "own".toList, [("a".toList, 1), ("b".toList, 3)], some 7,
      []⟩ := by rfl

end Verif.Message
