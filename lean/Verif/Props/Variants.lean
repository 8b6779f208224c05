import Verif.Model.Variants
import Verif.Props.Values

/-! # C101: a composition accepts the values of its alternatives and gives them back -/

namespace Verif.Values

variable {R : Type} {g : Go R} {env : Str → T}

/-- The value conforms to a schema without composition. -/
def Part.Accepts (g : Go R) (env : Str → T) (tidy : Bool) (p : Part) (j : Json) : Prop :=
  match p.type with
  | none => True
  | some t => Conf g env tidy t j

/-- The members of an object that the schema declares. -/
def Part.Declares (env : Str → T) (p : Part) (k : Str) : Prop := ∃ fs, (∃ t adds, p.type = some t ∧ res env t = .struct fs adds) ∧
  ∃ f ∈ fs, f.key = k

/-- Objects, all of them. -/
def Objects (env : Str → T) (parts : List Part) : Prop :=
  ∀ p ∈ parts, ∀ t, p.type = some t → ∃ fs adds, res env t = .struct fs adds ∧ (fs.map F.key).Nodup

/-- The schemas agree on the properties that several of them declare, and on what is required. -/
structure Agree (env : Str → T) (parts : List Part) : Prop where
  same : ∀ p ∈ parts, ∀ q ∈ parts, ∀ f ∈ p.fields env, ∀ f' ∈ q.fields env, f.key = f'.key → f = f'
  required : ∀ p ∈ parts, ∀ n ∈ p.required, ∀ q ∈ parts, ∀ f ∈ q.fields env, f.key = n → f.req = true

/-! ## The merged fields -/

theorem mem_addFields {fs gs : List F} {f : F} (h : f ∈ addFields fs gs) : f ∈ fs ∨ f ∈ gs := by
  unfold addFields at h
  exact (List.mem_append.1 h).imp id (fun h => (List.mem_filter.1 h).1)

theorem addFields_key {fs gs : List F} {f : F} (h : f ∈ fs ∨ f ∈ gs) : ∃ f' ∈ addFields fs gs, f'.key = f.key := by
  unfold addFields
  by_cases hc : f.key ∈ fs.map F.key
  · obtain ⟨f', hf', he⟩ := List.mem_map.1 hc
    exact ⟨f', List.mem_append_left _ hf', he⟩
  · rcases h with h | h
    · exact absurd (List.mem_map_of_mem h) hc
    · exact ⟨f, List.mem_append_right _ (List.mem_filter.2 ⟨h, by simpa using hc⟩), rfl⟩

theorem addFields_nodup {fs gs : List F} (hf : (fs.map F.key).Nodup) (hg : (gs.map F.key).Nodup) :
    ((addFields fs gs).map F.key).Nodup := by
  unfold addFields
  rw [List.map_append, List.nodup_append]
  refine ⟨hf, hg.sublist (List.filter_sublist.map _), ?_⟩
  intro a ha b hb hab
  subst hab
  obtain ⟨f, hf', rfl⟩ := List.mem_map.1 hb
  have := (List.mem_filter.1 hf').2
  simp only [Bool.not_eq_true', List.contains_eq_mem, decide_eq_false_iff_not] at this
  exact this ha

theorem fold_mem : ∀ (gss : List (List F)) (fs : List F) (f : F), f ∈ gss.foldl addFields fs → f ∈ fs ∨ ∃ gs ∈ gss, f ∈ gs
  | [], _, _, h => .inl h
  | gs :: gss, fs, f, h => by
    rcases fold_mem gss _ f h with h | ⟨gs', h1, h2⟩
    · exact (mem_addFields h).imp id (fun h => ⟨gs, .head _, h⟩)
    · exact .inr ⟨gs', .tail _ h1, h2⟩

theorem fold_key : ∀ (gss : List (List F)) (fs : List F) (f : F), (f ∈ fs ∨ ∃ gs ∈ gss, f ∈ gs) →
    ∃ f' ∈ gss.foldl addFields fs, f'.key = f.key
  | [], fs, f, h => by
    rcases h with h | ⟨gs, h, _⟩
    · exact ⟨f, h, rfl⟩
    · cases h
  | gs :: gss, fs, f, h => by
    rw [List.foldl_cons]
    rcases h with h | ⟨gs', h1, h2⟩
    · obtain ⟨f1, h1, e1⟩ := addFields_key (gs := gs) (.inl h)
      obtain ⟨f2, h2, e2⟩ := fold_key gss _ f1 (.inl h1)
      exact ⟨f2, h2, e2.trans e1⟩
    · rcases List.mem_cons.1 h1 with rfl | h1
      · obtain ⟨f1, h1, e1⟩ := addFields_key (fs := fs) (.inr h2)
        obtain ⟨f2, h2, e2⟩ := fold_key gss _ f1 (.inl h1)
        exact ⟨f2, h2, e2.trans e1⟩
      · exact fold_key gss _ f (.inr ⟨gs', h1, h2⟩)

theorem fold_nodup : ∀ (gss : List (List F)) (fs : List F), (fs.map F.key).Nodup → (∀ gs ∈ gss, (gs.map F.key).Nodup) →
    ((gss.foldl addFields fs).map F.key).Nodup
  | [], _, h, _ => h
  | gs :: gss, _, h, hg => fold_nodup gss _ (addFields_nodup h (hg gs (.head _))) (fun x hx => hg x (.tail _ hx))

theorem promote_key (ns : List Str) (f : F) : (promote ns f).key = f.key := by
  obtain ⟨k, req, ext, t⟩ := f
  rw [promote]
  repeat' split
  all_goals rfl

theorem promote_type (ns : List Str) (f : F) : (promote ns f).type = f.type := by
  obtain ⟨k, req, ext, t⟩ := f
  rw [promote]
  repeat' split
  all_goals rfl

theorem promote_same {ns : List Str} {f : F} (h : f.key ∈ ns → f.req = true) : promote ns f = f := by
  obtain ⟨k, req, ext, t⟩ := f
  rw [promote]
  by_cases hr : req = true
  · rw [if_pos hr]
  · rw [if_neg hr, if_neg]
    intro hc
    exact hr (h (by simpa [F.key] using hc))

/-- **C101.** A property that one of the alternatives requires is a plain field; its tag does not change, so that it may
still be left out. -/
theorem C101_promoted_partial (ns : List Str) (f : F) :
    (promote ns f).omitempty = f.omitempty ∧ ((promote ns f).ptr = true ↔ f.ptr = true ∧ f.key ∉ ns) := by
  obtain ⟨k, req, ext, t⟩ := f
  rw [promote]
  by_cases hr : req = true
  · subst hr
    simp [F.ptr, F.req, Validations.isFieldPointer]
  · have hr : req = false := by simpa using hr
    subst hr
    rw [if_neg (by simp)]
    by_cases hk : ns.contains k = true
    · rw [if_pos hk]
      have hm : k ∈ ns := by simpa using hk
      constructor
      · simp only [F.omitempty, F.req, F.ext, Validations.shouldAddOmitEmpty]
        cases ext with
        | none => rfl
        | some b => cases b <;> rfl
      · simp [F.ptr, F.req, F.key, Validations.isFieldPointer, hm]
    · rw [if_neg hk]
      have hm : k ∉ ns := by simpa using hk
      simp [F.key, hm]

example : (promote [['a']] (.mk ['a'] false none .str)).ptr = false ∧
    (promote [['a']] (.mk ['a'] false none .str)).omitempty = true := by decide

theorem fields_nodup {parts : List Part} (ho : Objects env parts) {p : Part} (hp : p ∈ parts) : ((p.fields env).map F.key).Nodup := by
  unfold Part.fields
  cases ht : p.type with
  | none => exact List.nodup_nil
  | some t =>
    obtain ⟨fs, _, e, hn⟩ := ho p hp t ht
    simp only [e]; exact hn

theorem declares_fields {p : Part} {k : Str} (h : p.Declares env k) : ∃ f ∈ p.fields env, f.key = k := by
  obtain ⟨fs, ⟨t, _, e1, e2⟩, f, hf, hk⟩ := h
  exact ⟨f, by unfold Part.fields; simp only [e1, e2]; exact hf, hk⟩

/-- What a conforming object is. -/
theorem accepts_object {tidy : Bool} {p : Part} {ms : List (Str × Json)} (h : p.Accepts g env tidy (.obj ms)) :
    ∀ k j, (k, j) ∈ ms → ∀ f ∈ p.fields env, f.key = k → Conf g env tidy f.type j := by
  intro k j hm f hf hk
  unfold Part.Accepts at h
  unfold Part.fields at hf
  cases ht : p.type with
  | none => rw [ht] at hf; cases hf
  | some t =>
    rw [ht] at h hf
    simp only at h hf
    cases h with
    | struct e _ _ _ hd _ _ _ _ =>
      simp only [e] at hf
      exact hd k j hm f hf hk

/-- All members conform to the schema of the additional properties, if there is one. -/
theorem accepts_adds {tidy : Bool} {p : Part} {ms : List (Str × Json)} (h : p.Accepts g env tidy (.obj ms)) :
    ∀ u, p.adds env = some u → ∀ k j, (k, j) ∈ ms → Conf g env tidy u j := by
  intro u hu k j hm
  unfold Part.Accepts at h
  unfold Part.adds at hu
  cases ht : p.type with
  | none => rw [ht] at hu; cases hu
  | some t =>
    rw [ht] at h hu
    simp only at h hu
    cases h with
    | struct e _ _ _ _ _ _ ha _ =>
      simp only [e] at hu
      exact ha u hu k j hm

theorem accepts_nodup {tidy : Bool} {p : Part} {t : T} (ht : p.type = some t) {ms : List (Str × Json)}
    (h : p.Accepts g env tidy (.obj ms)) : (ms.map (·.1)).Nodup := by
  unfold Part.Accepts at h
  rw [ht] at h
  cases h with
  | struct _ _ _ hm _ _ _ _ _ => exact hm

theorem accepts_tidy {p : Part} {ms : List (Str × Json)} (h : p.Accepts g env true (.obj ms)) :
    (∀ f ∈ p.fields env, f.ext ≠ some f.req) ∧
    ∀ f ∈ p.fields env, f.req = false → f.type.isSlice = true → (f.key, Json.arr []) ∉ ms := by
  unfold Part.Accepts at h
  unfold Part.fields
  cases ht : p.type with
  | none => exact ⟨fun f hf => (nomatch hf), fun f hf _ _ _ => (nomatch hf)⟩
  | some t =>
    rw [ht] at h
    simp only at h
    cases h with
    | struct e _ _ _ _ _ _ _ htd =>
      simp only [e]
      exact ⟨(htd rfl).2.1, (htd rfl).2.2⟩

/-- Members that are all declared and can be decoded. -/
theorem decode_members {fs : List F} (hk : (fs.map F.key).Nodup) : ∀ (ms : List (Str × Json)),
    (∀ k j, (k, j) ∈ ms → ∃ f ∈ fs, f.key = k ∧ ∃ v, decode g env f.type j = some v) →
    ∃ as, decodeMembers g env fs ms = some as
  | [], _ => ⟨[], by simp only [decodeMembers]⟩
  | (k, j) :: ms, h => by
    obtain ⟨as, has⟩ := decode_members hk ms (fun k j hm => h k j (.tail _ hm))
    obtain ⟨f, hf, rfl, v, hv⟩ := h k j (.head _)
    exact ⟨_, by simp only [decodeMembers, findField_declared g hk hf, hv, has]; rfl⟩

/-- The names are told apart by the merge. -/
theorem merged_nodup {own : Part} {alts : List Part} (ho : Objects env (own :: alts)) :
    ((merged env own alts).map F.key).Nodup := by
  unfold merged
  rw [List.map_map]
  have : (F.key ∘ promote (own.required ++ alts.flatMap Part.required)) = F.key := funext fun f => promote_key _ f
  rw [this]
  refine fold_nodup _ _ (fields_nodup ho (.head _)) (fun gs hgs => ?_)
  obtain ⟨p, hp, rfl⟩ := List.mem_map.1 hgs
  exact fields_nodup ho (.tail _ hp)

/-- With schemas that agree, the merged fields are those of the schemas. -/
theorem mem_merged {own : Part} {alts : List Part} (ha : Agree env (own :: alts)) (f : F) :
    f ∈ merged env own alts ↔ ∃ p ∈ own :: alts, f ∈ p.fields env := by
  have from_fold : ∀ f, f ∈ (alts.map (Part.fields env)).foldl addFields (own.fields env) → ∃ p ∈ own :: alts, f ∈ p.fields env := by
    intro f hf
    rcases fold_mem _ _ _ hf with h | ⟨gs, hgs, h⟩
    · exact ⟨own, .head _, h⟩
    · obtain ⟨q, hq, rfl⟩ := List.mem_map.1 hgs
      exact ⟨q, .tail _ hq, h⟩
  have keep : ∀ p ∈ own :: alts, ∀ f ∈ p.fields env, promote (own.required ++ alts.flatMap Part.required) f = f := by
    intro p hp f hf
    refine promote_same fun hn => ?_
    rcases List.mem_append.1 hn with hn | hn
    · exact ha.required own (.head _) _ hn p hp f hf rfl
    · obtain ⟨q, hq, hn⟩ := List.mem_flatMap.1 hn
      exact ha.required q (.tail _ hq) _ hn p hp f hf rfl
  unfold merged
  constructor
  · intro h
    obtain ⟨f', hf', rfl⟩ := List.mem_map.1 h
    obtain ⟨p, hp, hf⟩ := from_fold f' hf'
    exact ⟨p, hp, by rw [keep p hp f' hf]; exact hf⟩
  · rintro ⟨p, hp, hf⟩
    have hin : f ∈ own.fields env ∨ ∃ gs ∈ alts.map (Part.fields env), f ∈ gs := by
      rcases List.mem_cons.1 hp with rfl | hp
      · exact .inl hf
      · exact .inr ⟨_, List.mem_map_of_mem hp, hf⟩
    obtain ⟨f', hf', he⟩ := fold_key _ _ f hin
    obtain ⟨q, hq, hfq⟩ := from_fold f' hf'
    have : f' = f := ha.same q hq p hp f' hfq f hf he
    subst this
    exact List.mem_map.2 ⟨f', hf', keep p hp f' hf⟩

/-- **C101** (part that holds: accepted). The alternatives are objects that agree on the properties they share. A value that
conforms to the schema itself and to one of its alternatives, and has no members but those these two declare, is decoded
without error. Missing: see the violations. -/
theorem C101_accepts_partial (own : Part) (alts : List Part) (ho : Objects env (own :: alts)) (ha : Agree env (own :: alts))
    (a : Part) (hm : a ∈ alts) (tidy : Bool) (ms : List (Str × Json)) (h0 : own.Accepts g env tidy (.obj ms))
    (h1 : a.Accepts g env tidy (.obj ms)) (hc : ∀ k j, (k, j) ∈ ms → own.Declares env k ∨ a.Declares env k) :
    ∃ t v, typeOf env own alts = some t ∧ decode g env t (.obj ms) = some v := by
  obtain ⟨as, has⟩ := decode_members (g := g) (env := env) (merged_nodup ho) ms (fun k j hkj => by
    have decl : ∃ p ∈ own :: alts, p.Accepts g env tidy (.obj ms) ∧ p.Declares env k := by
      rcases hc k j hkj with h | h
      · exact ⟨own, .head _, h0, h⟩
      · exact ⟨a, .tail _ hm, h1, h⟩
    obtain ⟨p, hp, hacc, hd⟩ := decl
    obtain ⟨f, hf, rfl⟩ := declares_fields hd
    exact ⟨f, (mem_merged ha f).2 ⟨p, hp, hf⟩, rfl, C72_accepts_partial g env tidy _ j (accepts_object hacc f.key j hkj f hf rfl)⟩)
  have hdec : ∃ v, decode g env (.struct (merged env own alts) (own.adds env)) (.obj ms) = some v := by
    cases hadds : own.adds env with
    | none => exact ⟨_, by simp only [decode, res, has, Option.map_some]; rfl⟩
    | some u =>
      obtain ⟨m, hm⟩ := decodeMap_ok g env u ms (fun k j hkj =>
        C72_accepts_partial g env tidy u j (accepts_adds h0 u hadds k j hkj))
      exact ⟨_, by simp only [decode, res, hm, has, Option.map_some]; rfl⟩
  obtain ⟨v, hv⟩ := hdec
  exact ⟨.struct (merged env own alts) (own.adds env), v, by unfold typeOf; rw [if_neg (List.ne_nil_of_mem hm)], hv⟩

/-- **C101** (part that holds: no alternatives). A schema without alternatives decodes every value that conforms to it, objects
or not. -/
theorem C101_alone_partial (own : Part) (t : T) (ht : own.type = some t) (tidy : Bool) (j : Json) (h : own.Accepts g env tidy j) :
    ∃ t v, typeOf env own [] = some t ∧ decode g env t j = some v := by
  unfold Part.Accepts at h
  rw [ht] at h
  obtain ⟨v, hv⟩ := C72_accepts_partial g env tidy t j h
  exact ⟨t, v, by unfold typeOf; rw [if_pos rfl]; exact ht, hv⟩

/-- For instance a string. -/
example (g : Go R) : ∃ t v, typeOf env ⟨some .str, []⟩ [] = some t ∧ decode g env t (.str ['a']) = some v :=
  C101_alone_partial _ .str rfl true _ (.str rfl _)

/-- **C101** (part that holds: given back). If moreover no alternative requires a property that the value does not have, and
no `x-omitempty` goes against the requirement, encoding the decoded value gives the same JSON value. -/
theorem C101_round_trip_partial (hp : ∀ r, g.parse (g.print r) = some r) (hn : ∀ r, Json.isNumber (g.print r) = true) (own : Part) (alts : List Part)
    (ho : Objects env (own :: alts)) (ha : Agree env (own :: alts)) (a : Part) (hm : a ∈ alts) (ms : List (Str × Json))
    (h0 : own.Accepts g env true (.obj ms)) (h1 : a.Accepts g env true (.obj ms))
    (hc : ∀ k j, (k, j) ∈ ms → own.Declares env k ∨ a.Declares env k)
    (hq : ∀ p ∈ own :: alts, ∀ f ∈ p.fields env, f.req = true → ∃ j, (f.key, j) ∈ ms)
    (hx : ∀ p ∈ own :: alts, ∀ f ∈ p.fields env, f.ext ≠ some f.req) :
    ∃ t v j', typeOf env own alts = some t ∧ decode g env t (.obj ms) = some v ∧ encode g env t v = some j' ∧
      Same g (.obj ms) j' := by
  have decl : ∀ k j, (k, j) ∈ ms → ∃ p ∈ own :: alts, p.Accepts g env true (.obj ms) ∧ p.Declares env k := by
    intro k j hkj
    rcases hc k j hkj with h | h
    · exact ⟨own, .head _, h0, h⟩
    · exact ⟨a, .tail _ hm, h1, h⟩
  have hms : (ms.map (·.1)).Nodup := by
    cases ms with
    | nil => exact List.nodup_nil
    | cons e rest =>
      obtain ⟨p, _, hacc, fs, ⟨t, _, e1, _⟩, _⟩ := decl e.1 e.2 (.head _)
      exact accepts_nodup e1 hacc
  -- the field of a member is that of a schema that accepts the value
  have same : ∀ k j, (k, j) ∈ ms → ∀ f ∈ merged env own alts, f.key = k →
      ∃ p ∈ own :: alts, p.Accepts g env true (.obj ms) ∧ f ∈ p.fields env := by
    intro k j hkj f hf hk
    obtain ⟨p, hpp, hacc, hd⟩ := decl k j hkj
    obtain ⟨f', hf', hk'⟩ := declares_fields hd
    obtain ⟨q, hqq, hfq⟩ := (mem_merged ha f).1 hf
    have : f = f' := ha.same q hqq p hpp f hfq f' hf' (hk.trans hk'.symm)
    exact ⟨p, hpp, hacc, this ▸ hf'⟩
  have conf : Conf g env true (.struct (merged env own alts) (own.adds env)) (.obj ms) := by
    refine .struct rfl ms (merged_nodup ho) hms ?_ ?_ ?_ (accepts_adds h0) (fun _ => ⟨?_, ?_, ?_⟩)
    · intro k j hkj f hf hk
      obtain ⟨p, _, hacc, hfp⟩ := same k j hkj f hf hk
      exact accepts_object hacc k j hkj f hfp hk
    · intro f hf hr
      obtain ⟨p, hpp, hfp⟩ := (mem_merged ha f).1 hf
      exact hq p hpp f hfp hr
    · intro k j hkj hno
      obtain ⟨p, hpp, _, hd⟩ := decl k j hkj
      obtain ⟨f, hf, hk⟩ := declares_fields hd
      exact absurd hk (hno f ((mem_merged ha f).2 ⟨p, hpp, hf⟩))
    · intro k j hkj
      obtain ⟨p, hpp, _, hd⟩ := decl k j hkj
      obtain ⟨f, hf, hk⟩ := declares_fields hd
      exact .inl ⟨f, (mem_merged ha f).2 ⟨p, hpp, hf⟩, hk⟩
    · intro f hf
      obtain ⟨p, hpp, hfp⟩ := (mem_merged ha f).1 hf
      exact hx p hpp f hfp
    · intro f hf hr hs hin
      obtain ⟨p, _, hacc, hfp⟩ := same f.key _ hin f hf rfl
      exact (accepts_tidy hacc).2 f hfp hr hs hin
  obtain ⟨v, j', e1, e2, e3⟩ := C72_round_trip_partial g hp hn env _ _ conf
  exact ⟨_, v, j', by unfold typeOf; rw [if_neg (List.ne_nil_of_mem hm)], e1, e2, e3⟩

/-! ## Violations -/

/-- **C101** violated: the type of a schema with alternatives takes no string, number, boolean or array, whatever the schema
and its alternatives are. -/
theorem C101_violated_scalars (g : Go R) (env : Str → T) (own : Part) (alts : List Part) (hne : alts ≠ []) :
    ∃ t, typeOf env own alts = some t ∧ (∀ s, decode g env t (.str s) = none) ∧ (∀ x, decode g env t (.num x) = none) ∧
      (∀ b, decode g env t (.bool b) = none) ∧ ∀ js, decode g env t (.arr js) = none :=
  ⟨_, by unfold typeOf; rw [if_neg hne], fun s => by simp only [decode, res], fun x => by simp only [decode, res],
    fun b => by simp only [decode, res], fun js => by simp only [decode, res]⟩

/-- For instance `{type: string, allOf: [{maxLength: 5}]}`, `{anyOf: [{type: string}, {type: integer}]}`: values that conform. -/
example (g : Go R) (env : Str → T) (s : Str) : (Part.mk (some .str) []).Accepts g env true (.str s) ∧
    (Part.mk none []).Accepts g env true (.str s) := ⟨.str rfl s, trivial⟩

/-- **C101** violated: an object that lacks a property which some alternative requires is given back with it, so that it no
longer conforms to the alternative it conformed to alone, or is null where it was absent. -/
theorem C101_violated_required (g : Go R) (env : Str → T) (fs : List F) (f : F) (hf : f ∈ fs) (hr : f.req = true)
    (hx : f.ext ≠ some true) (ms : List (Str × Json)) (v : V R)
    (hd : decode g env (.struct fs none) (.obj ms) = some v) (ns : List (Str × Json))
    (he : encode g env (.struct fs none) v = some (.obj ns)) : f.key ∈ ns.map (·.1) := by
  have hom : f.omitempty = false := by
    unfold F.omitempty Validations.shouldAddOmitEmpty
    cases hq : f.ext with
    | none => simp [hr]
    | some b => cases b <;> simp_all
  simp only [decode, res] at hd
  cases hm : decodeMembers g env fs ms with
  | none => rw [hm] at hd; cases hd
  | some as =>
    rw [hm, Option.map_some] at hd
    cases hd
    simp only [encode, res] at he
    cases hn : encodeFields g env fs (fill fs as) with
    | none => rw [hn] at he; cases he
    | some ns' =>
      rw [hn, Option.map_some] at he
      cases he
      clear hm
      revert ns
      induction fs with
      | nil => cases hf
      | cons f0 fs ih =>
        intro ns hn
        have hfill : ∃ w, fill (f0 :: fs) as = (f0.key, w) :: fill fs as := ⟨_, rfl⟩
        obtain ⟨w, hfill⟩ := hfill
        rw [hfill, encodeFields] at hn
        rcases List.mem_cons.1 hf with rfl | hf
        · rw [hom, Bool.false_and] at hn
          simp only [Bool.false_eq_true, if_false] at hn
          split at hn
          · cases hn
          · split at hn
            · cases hn
            · cases hn; simp
        · split at hn
          · exact ih hf ns hn
          · split at hn
            · cases hn
            · split at hn
              · cases hn
              · rename_i ms' e
                cases hn
                exact List.mem_cons_of_mem _ (ih hf _ e)

/-! Two ways to pay: by card, with a number, or by transfer, with an account. -/

def kCard : Str := ['c', 'a', 'r', 'd']
def kBank : Str := ['b', 'a', 'n', 'k']

def card : Part := ⟨some (.struct [.mk kCard true none .str] none), [kCard]⟩
def bank : Part := ⟨some (.struct [.mk kBank true none .str] none), [kBank]⟩
def bankNumber : Part := ⟨some (.struct [.mk kCard true none (.int 64)] none), [kCard]⟩
def untyped : Part := ⟨none, []⟩

theorem card_accepts : card.Accepts go0 env0 true (.obj [(kCard, .str ['1'])]) := by
  refine .struct (fs := [.mk kCard true none .str]) (adds := none) rfl _ (by decide) (by decide) ?_ ?_ ?_
    (fun u hu => by cases hu) (fun _ => ⟨?_, ?_, ?_⟩)
  · intro k j hm f hf _
    simp only [List.mem_singleton, Prod.mk.injEq] at hm hf
    obtain ⟨rfl, rfl⟩ := hm; subst hf
    exact .str rfl _
  · intro f hf _
    rw [List.mem_singleton.1 hf]
    exact ⟨_, List.mem_singleton.2 rfl⟩
  · intro k j hm hno
    simp only [List.mem_singleton, Prod.mk.injEq] at hm
    exact absurd hm.1.symm (hno _ (.head _))
  · intro k j hm
    simp only [List.mem_singleton, Prod.mk.injEq] at hm
    exact .inl ⟨_, .head _, hm.1.symm⟩
  · intro f hf
    rw [List.mem_singleton.1 hf]
    simp [F.ext]
  · intro f hf hr
    rw [List.mem_singleton.1 hf] at hr
    cases hr

/-- **C101** violated: a payment by card comes back with an empty bank account. -/
theorem C101_violated_both : ∃ (ms : List (Str × Json)) (t : T) (v : V Nat) (ns : List (Str × Json)),
    card.Accepts go0 env0 true (.obj ms) ∧ typeOf env0 untyped [card, bank] = some t ∧
    decode go0 env0 t (.obj ms) = some v ∧ encode go0 env0 t v = some (.obj ns) ∧ (kBank, .str []) ∈ ns ∧
    kBank ∉ ms.map (·.1) :=
  ⟨[(kCard, .str ['1'])], _, _, [(kCard, .str ['1']), (kBank, .str [])], card_accepts, rfl, rfl, rfl, by simp, by decide⟩

/-- **C101** violated: alternatives with different types for a property. A value of the second is refused. -/
theorem C101_violated_types : ∃ (ms : List (Str × Json)) (t : T),
    bankNumber.Accepts go0 env0 true (.obj ms) ∧ typeOf env0 untyped [card, bankNumber] = some t ∧
    decode go0 env0 t (.obj ms) = none := by
  refine ⟨[(kCard, .num (showInt 5))], _, ?_, rfl, rfl⟩
  refine .struct (fs := [.mk kCard true none (.int 64)]) (adds := none) rfl _ (by decide) (by decide) ?_ ?_ ?_
    (fun u hu => by cases hu) (fun _ => ⟨?_, ?_, ?_⟩)
  · intro k j hm f hf _
    simp only [List.mem_singleton, Prod.mk.injEq] at hm hf
    obtain ⟨rfl, rfl⟩ := hm; subst hf
    exact .int rfl 5 (by decide)
  · intro f hf _
    rw [List.mem_singleton.1 hf]
    exact ⟨_, List.mem_singleton.2 rfl⟩
  · intro k j hm hno
    simp only [List.mem_singleton, Prod.mk.injEq] at hm
    exact absurd hm.1.symm (hno _ (.head _))
  · intro k j hm
    simp only [List.mem_singleton, Prod.mk.injEq] at hm
    exact .inl ⟨_, .head _, hm.1.symm⟩
  · intro f hf
    rw [List.mem_singleton.1 hf]
    simp [F.ext]
  · intro f hf hr
    rw [List.mem_singleton.1 hf] at hr
    cases hr

/-- The names required, without properties. -/
def onlyRequired : Part := ⟨none, [kBank]⟩

/-- **C101** violated: a property that another alternative than the one that declares it requires is lost when it is
empty: `{allOf: [{properties: {bank: {type: string}}}, {required: [bank]}]}`. -/
theorem C101_violated_empty : ∃ (t : T) (v : V Nat),
    typeOf env0 untyped [⟨some (.struct [.mk kBank false none .str] none), []⟩, onlyRequired] = some t ∧
    decode go0 env0 t (.obj [(kBank, .str [])]) = some v ∧ encode go0 env0 t v = some (.obj []) :=
  ⟨_, _, rfl, rfl, rfl⟩

/-- An alternative that allows any further properties with texts. -/
def further : Part := ⟨some (.struct [] (some .str)), []⟩

/-- **C101** violated: the additional properties an alternative declares are lost: with `{allOf: [{properties: {card:
{type: string}}}, {additionalProperties: {type: string}}]}` a payload with another property comes out without it, although
every alternative accepts it and one keeps it when it is used alone. -/
theorem C101_violated_additional : ∃ (t : T) (v w : V Nat),
    typeOf env0 untyped [card, further] = some t ∧
    decode go0 env0 t (.obj [(kCard, .str ['1']), (kBank, .str ['2'])]) = some v ∧
    encode go0 env0 t v = some (.obj [(kCard, .str ['1'])]) ∧
    decode go0 env0 (.struct [] (some .str)) (.obj [(kBank, .str ['2'])]) = some w ∧
    encode go0 env0 (.struct [] (some .str)) w = some (.obj [(kBank, .str ['2'])]) :=
  ⟨_, _, _, rfl, rfl, rfl, rfl, rfl⟩

/-! Non-vacuity of the theorems: alternatives without required properties. -/

def note : Part := ⟨some (.struct [.mk kBank false none .str] none), []⟩

example : ∃ t v j', typeOf env0 untyped [card, note] = some t ∧ decode go0 env0 t (.obj [(kCard, .str ['1'])]) = some v ∧
    encode go0 env0 t v = some j' ∧ Same go0 (.obj [(kCard, .str ['1'])]) j' := by
  have fields : ∀ p ∈ [untyped, card, note], ∀ f ∈ p.fields env0, f = .mk kCard true none .str ∨ f = .mk kBank false none .str := by
    intro p hp f hf
    simp only [List.mem_cons, List.not_mem_nil, or_false] at hp
    rcases hp with rfl | rfl | rfl
    · cases hf
    · exact .inl (List.mem_singleton.1 hf)
    · exact .inr (List.mem_singleton.1 hf)
  refine C101_round_trip_partial (fun r => readDigits_showNat r) showNat_number untyped [card, note] ?_ ⟨?_, ?_⟩ card (.head _) _ trivial card_accepts ?_ ?_ ?_
  · intro p hp t ht
    simp only [List.mem_cons, List.not_mem_nil, or_false] at hp
    rcases hp with rfl | rfl | rfl
    · cases ht
    · cases ht; exact ⟨_, _, rfl, by decide⟩
    · cases ht; exact ⟨_, _, rfl, by decide⟩
  · intro p hp q hq f hf f' hf' hk
    rcases fields p hp f hf with rfl | rfl <;> rcases fields q hq f' hf' with rfl | rfl <;>
      first | rfl | exact absurd hk (by decide)
  · intro p hp n hn q hq f hf hk
    simp only [List.mem_cons, List.not_mem_nil, or_false] at hp
    have hn' : n = kCard := by
      rcases hp with rfl | rfl | rfl
      · cases hn
      · exact List.mem_singleton.1 hn
      · cases hn
    subst hn'
    rcases fields q hq f hf with rfl | rfl
    · rfl
    · exact absurd hk (by decide)
  · intro k j hm
    simp only [List.mem_singleton, Prod.mk.injEq] at hm
    exact .inr ⟨_, ⟨_, _, rfl, rfl⟩, _, .head _, hm.1.symm⟩
  · intro p hp f hf hr
    rcases fields p hp f hf with rfl | rfl
    · exact ⟨_, .head _⟩
    · cases hr
  · intro p hp f hf
    rcases fields p hp f hf with rfl | rfl <;> simp [F.ext]

end Verif.Values
