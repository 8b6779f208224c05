import Verif.Proofs.AddProps

/-! # C40, C41: objects with additional properties -/

namespace Verif.AddProps

open Json

/-- **C40 (v3; partial: keys `%q` writes like JSON does).** For every list of declared members and every
list of additional ones, in any iteration order: the text is a JSON object whose members are the declared
ones followed by the additional ones. Missing: keys with control or unprintable characters, for which it is
false (below). -/
theorem C40_v3_marshals_members_partial (isPrint : Char → Bool) (decl adds : List (Str × Json))
    (hd : ∀ e ∈ decl, Valid e.2) (ha : ∀ e ∈ adds, Valid e.2)
    (hk : ∀ e ∈ adds, ∀ c ∈ e.1, SafeChar isPrint c) :
    parse (marshalV3 isPrint decl adds) = some (.obj (decl ++ adds)) := by
  rw [marshalV3_eq, parse_objText]
  · simp [declMem, addMem, Function.comp_def]
  · intro m hm
    simp only [List.mem_append, List.mem_map] at hm
    rcases hm with ⟨e, he, rfl⟩ | ⟨e, he, rfl⟩
    · exact declMem_reads e (hd e he)
    · exact addMem_reads isPrint e (ha e he) (hk e he)

/-- **C40 (v2; partial: at least one declared member is written, additional properties are strings, keys
and values `%q` writes like JSON does).** Missing: the other cases, for which it is false (below). -/
theorem C40_v2_marshals_members_partial (isPrint : Char → Bool) (decl : List (Str × Json))
    (adds : List (Str × Str)) (hne : decl ≠ []) (hd : ∀ e ∈ decl, Valid e.2)
    (hk : ∀ e ∈ adds, (∀ c ∈ e.1, SafeChar isPrint c) ∧ ∀ c ∈ e.2, SafeChar isPrint c) :
    parse (marshalV2 isPrint decl adds) = some (.obj (decl ++ adds.map (fun e => (e.1, .str e.2)))) := by
  cases decl with
  | nil => exact absurd rfl hne
  | cons d decl =>
    rw [marshalV2_eq, parse_objText]
    · simp [declMem, addMem2, Function.comp_def]
    · intro m hm
      rw [List.mem_append, List.mem_map, List.mem_map] at hm
      rcases hm with ⟨e, he, rfl⟩ | ⟨e, he, rfl⟩
      · exact declMem_reads e (hd e he)
      · exact addMem2_reads isPrint e (hk e he).1 (hk e he).2

def printable : Char → Bool := fun _ => true

/-- **C40 is violated** (v2): without declared member the object starts with a comma. -/
theorem C40_violated_v2_comma : marshalV2 printable [] [(['a'], ['b'])] = "{,\"a\":\"b\"}".toList ∧
    (parse (marshalV2 printable [] [(['a'], ['b'])])).isNone = true := by decide

/-- **C40 is violated** (v2 and v3): a key with a BEL character is written as `\a`, which is not JSON. -/
theorem C40_violated_control_character :
    (parse (marshalV3 printable [] [([Char.ofNat 7], .null)])).isNone = true ∧
    (parse (marshalV2 printable [(['d'], .null)] [([Char.ofNat 7], [])])).isNone = true := by decide

example : (marshalV3 printable [(['d'], .num ['1'])] [("a\"b".toList, .str "x".toList), (['c'], .arr [])]) =
    "{\"d\":1,\"a\\\"b\":\"x\",\"c\":[]}".toList := by decide

example : ∀ c ∈ "a\"b é\n".toList, SafeChar printable c := by
  intro c hc
  refine ⟨?_, ?_, fun _ => rfl⟩ <;> revert c <;> decide

/-- What a Go object with these fields and additional properties can hold: pointers may be nil, values are
of their type; nil pointers without `omitempty` are written as null. -/
structure Object (fs : List Field) (ty : GoTy) (vals : Vals) (adds : GoMap Str Json) : Prop where
  keys : (fs.map (·.key)).Nodup
  val : ∀ f ∈ fs, match vals f.key with
    | none => f.pointer = true
    | some v => f.ty.accepts v = true ∧ isNull v = false ∧ Valid v
  wf : adds.WF
  add : ∀ k v, (k, v) ∈ adds → ty.accepts v = true ∧ isNull v = false ∧ Valid v

theorem mem_declMembers {fs : List Field} {vals : Vals} {e : Str × Json} (h : e ∈ declMembers fs vals) :
    ∃ f ∈ fs, e.1 = f.key ∧ (vals f.key = some e.2 ∨ (vals f.key = none ∧ e.2 = .null)) := by
  unfold declMembers at h
  rw [List.mem_flatMap] at h
  obtain ⟨f, hf, he⟩ := h
  refine ⟨f, hf, ?_⟩
  split at he
  · rename_i hv
    split at he
    · cases he
    · simp only [List.mem_singleton] at he; subst he; exact ⟨rfl, .inr ⟨hv, rfl⟩⟩
  · rename_i v hv
    simp only [List.mem_singleton] at he; subst he; exact ⟨rfl, .inl hv⟩

theorem find_exact {fs : List Field} (hnd : (fs.map (·.key)).Nodup) {f : Field} (hf : f ∈ fs) :
    fs.find? (fun g => g.key == f.key) = some f := by
  induction fs with
  | nil => cases hf
  | cons g fs ih =>
    simp only [List.map_cons, List.nodup_cons] at hnd
    simp only [List.mem_cons] at hf
    rcases hf with rfl | hf
    · simp
    · have : g.key ≠ f.key := by
        intro he
        exact hnd.1 (he ▸ List.mem_map_of_mem (f := (·.key)) hf)
      rw [List.find?_cons]
      simp only [beq_eq_false_iff_ne.mpr this]
      exact ih hnd.2 hf

theorem decodeMap_spec (ty : GoTy) : ∀ (ms : List (Str × Json)) (m : GoMap Str Json), GoMap.WF ms →
    (∀ e ∈ ms, isNull e.2 = true ∨ ty.accepts e.2 = true) →
    ∃ m', decodeMap ty ms m = some m' ∧ (∀ k, m'.get k = match GoMap.get ms k with
      | none => m.get k
      | some j => some (if isNull j then ty.zero else j)) ∧ (m.WF → m'.WF) := by
  intro ms
  induction ms with
  | nil => intro m _ _; exact ⟨m, rfl, by simp, id⟩
  | cons e ms ih =>
    intro m hwf hacc
    obtain ⟨k, j⟩ := e
    rw [GoMap.wf_cons] at hwf
    have hacc' : ∀ e ∈ ms, isNull e.2 = true ∨ ty.accepts e.2 = true := fun e he => hacc e (List.mem_cons_of_mem _ he)
    have go : ∀ j', (if isNull j then ty.zero else j) = j' → ∃ m', decodeMap ty ms (m.put k j') = some m' ∧
        (∀ k', m'.get k' = match GoMap.get ((k, j) :: ms) k' with
          | none => m.get k'
          | some j => some (if isNull j then ty.zero else j)) ∧ (m.WF → m'.WF) := by
      intro j' hj'
      obtain ⟨m', h1, h2, h3⟩ := ih (m.put k j') hwf.2 hacc'
      refine ⟨m', h1, ?_, fun hm => h3 (GoMap.wf_put hm _ _)⟩
      intro k'
      rw [h2 k']
      by_cases hk : k = k'
      · subst hk
        rw [(GoMap.get_eq_none_iff ms k).mpr hwf.1]
        simp [hj']
      · simp [hk]
    simp only [decodeMap]
    by_cases hn : isNull j = true
    · rw [if_pos hn]; exact go ty.zero (by simp [hn])
    · rw [if_neg hn]
      have ha := (hacc (k, j) (by simp)).resolve_left hn
      simp only at ha
      rw [if_pos ha]
      exact go j (by simp [hn])

/-- Decoding the alias from members of which each declared one decodes to `D`. -/
theorem decodeAlias_spec (fold : Str → Str) (fs : List Field) (hnd : (fs.map (·.key)).Nodup)
    (D : Field → Option Json) :
    ∀ (ms : List (Str × Json)) (v0 : Vals), GoMap.WF ms →
    (∀ e ∈ ms, (∃ f ∈ fs, e.1 = f.key ∧ ∀ old, (f.pointer = true ∨ old.isSome → decodeField f old e.2 = some (D f))) ∨
      (∀ f ∈ fs, fold f.key ≠ fold e.1 ∧ f.key ≠ e.1)) →
    (∀ f ∈ fs, f.pointer = true ∨ (v0 f.key).isSome) →
    (∀ f ∈ fs, f.pointer = true ∨ (D f).isSome) →
    ∃ v', decodeAlias fold fs ms v0 = some v' ∧ ∀ f ∈ fs, v' f.key = match GoMap.get ms f.key with
      | none => v0 f.key
      | some _ => D f := by
  intro ms
  induction ms with
  | nil => intro v0 _ _ _ _; exact ⟨v0, rfl, by simp⟩
  | cons e ms ih =>
    intro v0 hwf hdec h0 hD
    obtain ⟨k, j⟩ := e
    rw [GoMap.wf_cons] at hwf
    have hdec' := fun e he => hdec e (List.mem_cons_of_mem _ he)
    simp only [decodeAlias]
    rcases hdec (k, j) (by simp) with ⟨f, hf, hk, hd⟩ | hno
    · simp only at hk; subst hk
      have hff : findField fold fs f.key = some f := by simp [findField, find_exact hnd hf]
      simp only [hff, hd (v0 f.key) (h0 f hf)]
      obtain ⟨v', h1, h2⟩ := ih (fun k' => if k' = f.key then D f else v0 k') hwf.2 hdec' (by
        intro g hg
        by_cases he : g.key = f.key
        · have : g = f := by
            have a := find_exact hnd hg
            rw [he] at a
            rw [find_exact hnd hf] at a; cases a; rfl
          subst this
          simpa using hD g hg
        · simpa [he] using h0 g hg) hD
      refine ⟨v', h1, ?_⟩
      intro g hg
      rw [h2 g hg]
      by_cases he : f.key = g.key
      · have : g = f := by
          have a := find_exact hnd hg
          rw [← he] at a
          rw [find_exact hnd hf] at a; cases a; rfl
        subst this
        rw [(GoMap.get_eq_none_iff ms g.key).mpr hwf.1]
        simp
      · simp only [GoMap.get_cons, he, if_false]
        cases GoMap.get ms g.key with
        | none => simp [Ne.symm he]
        | some _ => rfl
    · have hff : findField fold fs k = none := by
        unfold findField
        have h1 : fs.find? (fun f => f.key == k) = none := by
          rw [List.find?_eq_none]; intro f hf; simpa using (hno f hf).2
        rw [h1]
        simp only
        rw [List.find?_eq_none]; intro f hf; simpa using (hno f hf).1
      simp only [hff]
      obtain ⟨v', h1, h2⟩ := ih v0 hwf.2 hdec' h0 hD
      refine ⟨v', h1, ?_⟩
      intro g hg
      rw [h2 g hg]
      have : k ≠ g.key := fun he => (hno g hg).2 he.symm
      simp [this]

theorem get_filter_not_mem (m : GoMap Str Json) (ks : List Str) (k : Str) :
    GoMap.get (m.filter (fun e => !decide (e.1 ∈ ks))) k = if k ∈ ks then none else m.get k := by
  induction m with
  | nil => simp
  | cons e m ih =>
    obtain ⟨a, b⟩ := e
    by_cases ha : a ∈ ks
    · rw [List.filter_cons_of_neg (by simp [ha]), ih]
      by_cases hk : k ∈ ks
      · simp [hk]
      · have : a ≠ k := by rintro rfl; exact hk ha
        simp [hk, this]
    · rw [List.filter_cons_of_pos (by simp [ha]), GoMap.get_cons, ih, GoMap.get_cons]
      by_cases hak : a = k
      · subst hak; simp [ha]
      · simp [hak]

/-- **C41 (v3; partial: keys `%q` writes like JSON does; no additional key equal to a declared one up to
case; declared values decode as values of the additional type too).** For every such object and iteration
order: unmarshalling what marshalling wrote gives back the declared fields and the additional properties,
without any declared key among the latter. Missing: the other cases, for which it is false (below). -/
theorem C41_round_trip_partial (isPrint : Char → Bool) (fold : Str → Str) (fs : List Field) (ty : GoTy)
    (vals : Vals) (adds : GoMap Str Json) (h : Object fs ty vals adds)
    (hkeys : ∀ e ∈ adds, ∀ c ∈ e.1, SafeChar isPrint c)
    (hfold : ∀ e ∈ adds, ∀ f ∈ fs, fold f.key ≠ fold e.1)
    (htype : ∀ f ∈ fs, ∀ v, vals f.key = some v → ty.accepts v = true)
    (order : List (Str × Json)) (hord : order.Perm adds) :
    ∃ vals' adds', unmarshal fold fs ty (marshalV3 isPrint (declMembers fs vals) order) = some (vals', adds') ∧
      (∀ f ∈ fs, vals' f.key = vals f.key) ∧ (∀ k, adds'.get k = adds.get k) ∧
      (∀ f ∈ fs, adds'.get f.key = none) := by
  have hwfo : GoMap.WF order := GoMap.wf_perm hord.symm h.wf
  have hne : ∀ e ∈ order, ∀ f ∈ fs, f.key ≠ e.1 := by
    intro e he f hf heq
    exact hfold e (hord.mem_iff.mp he) f hf (by rw [heq])
  -- the text parses
  have hparse : parse (marshalV3 isPrint (declMembers fs vals) order) = some (.obj (declMembers fs vals ++ order)) := by
    apply C40_v3_marshals_members_partial
    · intro e he
      obtain ⟨f, hf, _, hv | hv⟩ := mem_declMembers he
      · have := h.val f hf; rw [hv] at this; exact this.2.2
      · rw [hv.2]; trivial
    · intro e he; exact (h.add e.1 e.2 (hord.mem_iff.mp he)).2.2
    · intro e he; exact hkeys e (hord.mem_iff.mp he)
  -- keys of the members are distinct
  have hdk : ∀ gs : List Field, (gs.map (·.key)).Nodup →
      GoMap.WF (declMembers gs vals) ∧ ∀ k ∈ GoMap.keys (declMembers gs vals), k ∈ gs.map (·.key) := by
    intro gs
    induction gs with
    | nil => intro _; exact ⟨by simp [declMembers, GoMap.WF, GoMap.keys], by simp [declMembers, GoMap.keys]⟩
    | cons g gs ih =>
      intro hnd
      simp only [List.map_cons, List.nodup_cons] at hnd
      obtain ⟨i1, i2⟩ := ih hnd.2
      have e : declMembers (g :: gs) vals = (match vals g.key with
        | none => if g.omitEmpty then [] else [(g.key, .null)]
        | some v => [(g.key, v)]) ++ declMembers gs vals := rfl
      rw [e]
      have one : ∀ v, GoMap.WF ([(g.key, v)] ++ declMembers gs vals) ∧
          ∀ k ∈ GoMap.keys ([(g.key, v)] ++ declMembers gs vals), k ∈ (g :: gs).map (·.key) := by
        intro v
        refine ⟨?_, ?_⟩
        · rw [List.singleton_append, GoMap.wf_cons]
          exact ⟨fun hm => hnd.1 (i2 _ hm), i1⟩
        · intro k hk
          simp only [List.singleton_append, GoMap.keys, List.map_cons, List.mem_cons] at hk ⊢
          rcases hk with hk | hk
          · exact .inl hk
          · exact .inr (i2 k hk)
      split
      · split
        · refine ⟨i1, ?_⟩
          intro k hk
          exact List.mem_cons_of_mem _ (i2 k hk)
        · exact one _
      · exact one _
  obtain ⟨hdwf, hdkeys⟩ := hdk fs h.keys
  have hwf : GoMap.WF (declMembers fs vals ++ order) := by
    unfold GoMap.WF GoMap.keys
    rw [List.map_append, List.nodup_append]
    refine ⟨hdwf, hwfo, ?_⟩
    intro a ha b hb
    have ha' := hdkeys a ha
    rw [List.mem_map] at ha' hb
    obtain ⟨f, hf, rfl⟩ := ha'
    obtain ⟨e, he, rfl⟩ := hb
    exact hne e he f hf
  -- decoding the map
  obtain ⟨m, hm1, hm2, _⟩ := decodeMap_spec ty (declMembers fs vals ++ order) [] hwf (by
    intro e he
    rw [List.mem_append] at he
    rcases he with he | he
    · obtain ⟨f, hf, _, hv | hv⟩ := mem_declMembers he
      · right; exact htype f hf _ hv
      · left; rw [hv.2]; rfl
    · right; exact (h.add e.1 e.2 (hord.mem_iff.mp he)).1)
  -- decoding the alias
  obtain ⟨v', hv1, hv2⟩ := decodeAlias_spec fold fs h.keys (fun f => vals f.key) (declMembers fs vals ++ order)
    (zeroVals fs) hwf (by
      intro e he
      rw [List.mem_append] at he
      rcases he with he | he
      · left
        obtain ⟨f, hf, hk, hv⟩ := mem_declMembers he
        refine ⟨f, hf, hk, ?_⟩
        intro old hold
        have hval := h.val f hf
        rcases hv with hv | ⟨hv, hj⟩
        · rw [hv] at hval
          simp only [decodeField, hv, hval.1, hval.2.1]
          rfl
        · rw [hv] at hval
          simp only at hval
          simp [decodeField, hv, hj, isNull, hval]
      · right
        intro f hf
        exact ⟨hfold e (hord.mem_iff.mp he) f hf, hne e he f hf⟩) (by
      intro f hf
      simp only [zeroVals, find_exact h.keys hf]
      cases f.pointer <;> simp) (by
      intro f hf
      have := h.val f hf
      cases hv : vals f.key with
      | none => rw [hv] at this; exact .inl this
      | some v => exact .inr rfl)
  refine ⟨v', m.filter (fun e => !decide (e.1 ∈ fs.map (·.key))), ?_, ?_, ?_, ?_⟩
  · simp only [unmarshal, hparse, hm1, hv1]
  · intro f hf
    rw [hv2 f hf]
    cases hg : GoMap.get (declMembers fs vals ++ order) f.key with
    | some _ => rfl
    | none =>
      simp only
      -- not written: a nil pointer
      have hnone : vals f.key = none := by
        cases hv : vals f.key with
        | none => rfl
        | some v =>
          exfalso
          have hmem : (f.key, v) ∈ declMembers fs vals := by
            unfold declMembers
            rw [List.mem_flatMap]
            exact ⟨f, hf, by simp [hv]⟩
          have := GoMap.get_of_mem hwf (List.mem_append_left order hmem)
          rw [hg] at this; cases this
      have hval := h.val f hf
      rw [hnone] at hval
      simp only at hval
      simp [zeroVals, find_exact h.keys hf, hval, hnone]
  · intro k
    rw [get_filter_not_mem]
    by_cases hk : k ∈ fs.map (·.key)
    · rw [if_pos hk]
      symm
      rw [GoMap.get_eq_none_iff]
      intro hka
      rw [GoMap.keys, List.mem_map] at hka
      rw [List.mem_map] at hk
      obtain ⟨e, he, rfl⟩ := hka
      obtain ⟨f, hf, hfe⟩ := hk
      exact hne e (hord.mem_iff.mpr he) f hf hfe
    · rw [if_neg hk, hm2 k]
      have hget : GoMap.get (declMembers fs vals ++ order) k = GoMap.get order k := by
        have hkd : k ∉ GoMap.keys (declMembers fs vals) := fun hm => hk (hdkeys k hm)
        revert hkd
        generalize declMembers fs vals = dm
        intro hkd
        induction dm with
        | nil => rfl
        | cons e dm ih =>
          simp only [GoMap.keys, List.map_cons, List.mem_cons, not_or] at hkd
          rw [List.cons_append, show e = (e.1, e.2) from rfl, GoMap.get_cons, if_neg (Ne.symm hkd.1)]
          exact ih hkd.2
      rw [hget, GoMap.get_perm hord hwfo k]
      cases hg : GoMap.get adds k with
      | none => rfl
      | some j =>
        have := (h.add k j (GoMap.mem_of_get hg)).2.1
        simp [this]
  · intro f hf
    rw [get_filter_not_mem]
    rw [if_pos (List.mem_map_of_mem (f := (·.key)) hf)]

/-- Is it a string, a number? -/
def isStr : Json → Bool
  | .str _ => true
  | _ => false
def isNum : Json → Bool
  | .num _ => true
  | _ => false

def strTy : GoTy := ⟨isStr, .str []⟩
def numTy : GoTy := ⟨isNum, .num ['0']⟩

/-- Lower-casing ASCII letters. -/
def lower (s : Str) : Str := s.map Char.toLower

/-- A required and an optional declared string. -/
def fs0 : List Field := [⟨"name".toList, strTy, false, false⟩, ⟨"nick".toList, strTy, true, true⟩]
def vals0 : Vals := fun k => if k = "name".toList then some (.str "x".toList) else none

/-- Non-vacuity of `C41_round_trip_partial`. -/
example : Object fs0 strTy vals0 [("other".toList, .str "y".toList), ("z".toList, .str [])] := by
  refine ⟨by decide, ?_, by unfold GoMap.WF; decide, ?_⟩
  · intro f hf
    simp only [fs0, List.mem_cons, List.not_mem_nil, or_false] at hf
    rcases hf with rfl | rfl
    · exact ⟨rfl, rfl, trivial⟩
    · rfl
  · intro k v hm
    simp only [List.mem_cons, Prod.mk.injEq, List.not_mem_nil, or_false] at hm
    rcases hm with ⟨rfl, rfl⟩ | ⟨rfl, rfl⟩ <;> exact ⟨rfl, rfl, trivial⟩

/-- **C41 is violated** (1): an object with a declared number and additional strings cannot be unmarshalled,
even without additional properties. -/
theorem C41_violated_declared_type :
    (unmarshal lower [⟨"n".toList, numTy, false, false⟩] strTy
      (marshalV3 printable (declMembers [⟨"n".toList, numTy, false, false⟩] (fun _ => some (.num ['1']))) [])).isNone = true := by
  decide

/-- **C41 is violated** (2): an additional property whose key equals a declared one up to case overwrites
the declared field. -/
theorem C41_violated_case :
    ((unmarshal lower [⟨"name".toList, strTy, false, false⟩] strTy
      (marshalV3 printable (declMembers [⟨"name".toList, strTy, false, false⟩] (fun _ => some (.str ['x'])))
        [("Name".toList, .str ['y'])])).map (fun r => (r.1 "name".toList).map print)) =
    some (some (print (.str ['y']))) := by
  decide

end Verif.AddProps
