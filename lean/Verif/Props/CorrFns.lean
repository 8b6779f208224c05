import Verif.Model.CorrFns
import Verif.Props.ReplyLoc

/-! # C122: the correlation ID functions of every message compile and work -/

namespace Verif.CorrFns

open CorrTree ReplyLoc

/-! ## Specification -/

/-- The path of a location in the Go types: structs behind required fields, to a string that is required or not. -/
def Through (schemas : Nat → Tree) (nm : Str → Str) (required : Bool) : Tree → List Str → Prop
  | _, [] => False
  | t, v :: rest => ∃ b c, body schemas t = some b ∧ field nm b (nm v) = some (v, c) ∧
      if rest = [] then c.info.type = "string".toList ∧ required = decide (v ∈ b.info.required)
      else v ∈ b.info.required ∧ Through schemas nm required c rest

/-- The fields of the message on the way to its correlation ID. -/
def fields (nm : Str → Str) (inHeaders : Bool) (ts : List Str) : List Str := partField inHeaders :: ts.map nm

/-- The functions do what they should: reading gives the text that is there, "" if there is none; a new message, a message
whose correlation ID is set and a response have the ID they were given, and nothing else in them has changed. None of them
panics. -/
structure Works (schemas : Nat → Tree) (nm : Str → Str) (inHeaders : Bool) (m : Msg) (ts : List Str) (required : Bool) : Prop where
  reads : ∀ v, FitsMsg schemas nm inHeaders m (ts.map nm) v → corrId required (fields nm inHeaders ts) v =
    .ok (match textAt v (fields nm inHeaders ts) with | some s => s | none => "")
  sets : ∀ v id, FitsMsg schemas nm inHeaders m (ts.map nm) v → ∃ v', setId required (fields nm inHeaders ts) v id = .ok v' ∧
    newMsg required (fields nm inHeaders ts) v id = .ok v' ∧ setFrom required (fields nm inHeaders ts) v (.ok id) = .ok v' ∧
    FitsMsg schemas nm inHeaders m (ts.map nm) v' ∧ corrId required (fields nm inHeaders ts) v' = .ok id ∧
    ∀ q, textAt v' q = if q = fields nm inHeaders ts then some id else textAt v q

/-! ## Lemmas -/

theorem through_typeOf (schemas : Nat → Tree) (nm : Str → Str) (r : Bool) : ∀ (ts : List Str) (t : Tree),
    Through schemas nm r t ts → ∃ c, typeOf schemas nm false t (ts.map nm) = some (!r, c) ∧ c.info.type = tyString := by
  intro ts
  induction ts with
  | nil => intro t h; exact h.elim
  | cons v ts ih =>
    rintro t ⟨b, c, hb, hf, h⟩
    rw [List.map_cons, typeOf, hb]
    simp only
    rw [hf]
    simp only
    cases ts with
    | nil =>
      rw [if_pos rfl] at h
      rw [List.map_nil, if_pos rfl]
      obtain ⟨hc, hr⟩ := h
      refine ⟨c, ?_, hc⟩
      have hc : c.info.type = tyString := hc
      unfold isPointer
      rw [if_neg (by simp), isInSlice_eq, hc, hr]
      simp [show tyString ≠ kwArray from by decide]
    | cons w ts =>
      rw [if_neg (by simp)] at h
      rw [if_neg (by simp)]
      exact ih c h.2

/-- A path through a schema to which the location was added. -/
theorem through_down (schemas : Nat → Tree) (nm : Str → Str) : ∀ (ts : List Str) (t : Tree), Along nm t ts →
    Through schemas nm (lastReq t ts) (down t ts) ts := by
  intro ts
  induction ts with
  | nil => intro t h; exact h.elim
  | cons v ts ih =>
    intro t ha
    obtain ⟨hty, hinj, ha⟩ := ha
    rw [ty_object] at hty
    rw [down_cons]
    refine ⟨_, _, body_object _ _ (by exact hty), field_put nm _ _ _ _ hinj, ?_⟩
    cases ts with
    | nil =>
      rw [if_pos rfl] at ha ⊢
      refine ⟨?_, by simp only [lastReq, if_true]; rfl⟩
      simp only [down, if_true]
      cases hg : t.props.get v with
      | none => rfl
      | some c => exact ha c hg
    | cons w ts =>
      rw [if_neg (by simp)] at ha ⊢
      obtain ⟨hr, c, hc, ha⟩ := ha
      refine ⟨hr, ?_⟩
      simp only [hc]
      have := ih c ha
      simpa [lastReq, hc] using this

theorem textAt_struct (fs : List (Str × GV)) (f : Str) (q : List Str) :
    textAt (.struct fs) (f :: q) = match GoMap.get fs f with
      | some w => textAt w q
      | none => none := by
  rw [textAt]
  cases GoMap.get fs f <;> rfl

theorem textAt_struct_nil (fs : List (Str × GV)) : textAt (.struct fs) [] = none := by simp [textAt]

theorem idValue_textAt (r : Bool) (id : String) (q : List Str) : textAt (idValue r id) q = if q = [] then some id else none := by
  cases r <;> cases q <;> simp [idValue, textAt]

theorem through_reads (schemas : Nat → Tree) (nm : Str → Str) (r : Bool) : ∀ (ts : List Str) (t : Tree) (v : GV),
    Through schemas nm r t ts → Fits schemas nm false t (ts.map nm) v →
    if r then ∃ s, sels v (ts.map nm) = .ok (.text s) ∧ textAt v (ts.map nm) = some s
    else (sels v (ts.map nm) = .ok .nilPtr ∧ textAt v (ts.map nm) = none) ∨
      ∃ s, sels v (ts.map nm) = .ok (.ptr (.text s)) ∧ textAt v (ts.map nm) = some s := by
  intro ts
  induction ts with
  | nil => intro t v h; exact h.elim
  | cons a ts ih =>
    rintro t v ⟨b, c, hb, hf, h⟩ ⟨b', k, c', fs, w, hb', hf', rfl, hw, hh⟩
    rw [hb] at hb'
    cases hb'
    rw [hf] at hf'
    cases hf'
    have e1 : sels (.struct fs) (nm a :: ts.map nm) = sels w (ts.map nm) := by simp only [sels, sel, hw]
    rw [List.map_cons, e1, textAt_struct, hw]
    simp only
    cases ts with
    | nil =>
      rw [if_pos rfl] at h
      obtain ⟨hc, rfl⟩ := h
      have hc : c.info.type = tyString := hc
      have hp : isPointer false b a c = !decide (a ∈ b.info.required) := by
        unfold isPointer
        rw [if_neg (by simp), isInSlice_eq, hc]
        simp [show tyString ≠ kwArray from by decide]
      rw [hp] at hh
      by_cases hr : a ∈ b.info.required
      · rw [decide_eq_true hr] at hh ⊢
        obtain ⟨s, rfl⟩ := hh
        rw [if_pos rfl]
        exact ⟨s, rfl, by simp [textAt]⟩
      · rw [decide_eq_false hr] at hh ⊢
        rw [if_neg (by simp)]
        rcases hh with rfl | ⟨u, rfl, s, rfl⟩
        · exact Or.inl ⟨rfl, by simp [textAt]⟩
        · exact Or.inr ⟨s, rfl, by simp [textAt]⟩
    | cons x ts =>
      rw [if_neg (by simp)] at h
      have hp : isPointer false b a c = false := by
        unfold isPointer
        rw [if_neg (by simp), isInSlice_eq]
        simp [h.1]
      rw [hp] at hh
      exact ih c w h.2 hh

theorem through_assign (schemas : Nat → Tree) (nm : Str → Str) (r : Bool) (id : String) : ∀ (ts : List Str) (t : Tree) (v : GV),
    Through schemas nm r t ts → Fits schemas nm false t (ts.map nm) v →
    ∃ v', assign v (ts.map nm) (idValue r id) = .ok v' ∧ Fits schemas nm false t (ts.map nm) v' ∧
      ∀ q, textAt v' q = if q = ts.map nm then some id else textAt v q := by
  intro ts
  induction ts with
  | nil => intro t v h; exact h.elim
  | cons a ts ih =>
    rintro t v ⟨b, c, hb, hf, h⟩ ⟨b', k, c', fs, w, hb', hf', rfl, hw, hh⟩
    rw [hb] at hb'
    cases hb'
    rw [hf] at hf'
    cases hf'
    have key : ∀ w', assign w (ts.map nm) (idValue r id) = .ok w' →
        Holds (isPointer false b a c) (Fits schemas nm false c (ts.map nm)) w' →
        (∀ q, textAt w' q = if q = ts.map nm then some id else textAt w q) →
        ∃ v', assign (.struct fs) (nm a :: ts.map nm) (idValue r id) = .ok v' ∧
          Fits schemas nm false t (nm a :: ts.map nm) v' ∧
          ∀ q, textAt v' q = if q = nm a :: ts.map nm then some id else textAt (.struct fs) q := by
      intro w' h1 h2 h3
      refine ⟨.struct (GoMap.put fs (nm a) w'), by simp only [assign, hw, h1],
        ⟨b, a, c, _, w', hb, hf, rfl, GoMap.get_put_self _ _ _, h2⟩, ?_⟩
      intro q
      cases q with
      | nil => rw [textAt_struct_nil, textAt_struct_nil, if_neg (by simp)]
      | cons f q =>
        rw [textAt_struct, textAt_struct, GoMap.get_put]
        by_cases hfa : nm a = f
        · subst hfa
          rw [if_pos rfl, hw]
          simp only [h3 q, List.cons.injEq, true_and]
        · rw [if_neg hfa, if_neg (fun e => hfa (List.cons.inj e).1.symm)]
    rw [List.map_cons]
    cases ts with
    | nil =>
      rw [if_pos rfl] at h
      obtain ⟨hc, rfl⟩ := h
      have hc : c.info.type = tyString := hc
      have hp : isPointer false b a c = !decide (a ∈ b.info.required) := by
        unfold isPointer
        rw [if_neg (by simp), isInSlice_eq, hc]
        simp [show tyString ≠ kwArray from by decide]
      rw [hp] at hh
      refine key (idValue (decide (a ∈ b.info.required)) id) rfl ?_ ?_
      · rw [hp]
        by_cases hr : a ∈ b.info.required
        · rw [decide_eq_true hr]
          exact ⟨id, rfl⟩
        · rw [decide_eq_false hr]
          exact Or.inr ⟨_, rfl, id, rfl⟩
      · intro q
        rw [idValue_textAt, List.map_nil]
        by_cases hq : q = []
        · rw [if_pos hq, if_pos hq]
        · rw [if_neg hq, if_neg hq]
          obtain ⟨f, q, rfl⟩ := List.exists_cons_of_ne_nil hq
          by_cases hr : a ∈ b.info.required
          · rw [decide_eq_true hr] at hh
            obtain ⟨s, rfl⟩ := hh
            simp [textAt]
          · rw [decide_eq_false hr] at hh
            rcases hh with rfl | ⟨u, rfl, s, rfl⟩ <;> simp [textAt]
    | cons x ts =>
      rw [if_neg (by simp)] at h
      have hp : isPointer false b a c = false := by
        unfold isPointer
        rw [if_neg (by simp), isInSlice_eq]
        simp [h.1]
      rw [hp] at hh
      obtain ⟨w', h1, h2, h3⟩ := ih c w h.2 hh
      exact key w' h1 (by rw [hp]; exact h2) h3

/-- Messages whose types let the functions work. -/
theorem works_of_through (schemas : Nat → Tree) (nm : Str → Str) (inHeaders : Bool) (m : Msg) (ts : List Str) (r : Bool) (t : Tree)
    (ht : part inHeaders m = some t) (h : Through schemas nm r t ts) : Works schemas nm inHeaders m ts r := by
  have reads : ∀ v, FitsMsg schemas nm inHeaders m (ts.map nm) v → corrId r (fields nm inHeaders ts) v =
      .ok (match textAt v (fields nm inHeaders ts) with | some s => s | none => "") := by
    rintro v ⟨t', fs, w, ht', rfl, hw, hf⟩
    rw [ht] at ht'
    cases ht'
    have hs := through_reads schemas nm r ts t w h hf
    have e1 : sels (.struct fs) (fields nm inHeaders ts) = sels w (ts.map nm) := by simp only [fields, sels, sel, hw]
    have e2 : textAt (.struct fs) (fields nm inHeaders ts) = textAt w (ts.map nm) := by rw [fields, textAt_struct, hw]
    unfold corrId
    rw [e1, e2]
    cases r with
    | true =>
      obtain ⟨s, h1, h2⟩ := hs
      rw [h1, h2]
      rfl
    | false =>
      rcases hs with ⟨h1, h2⟩ | ⟨s, h1, h2⟩
      · rw [h1, h2]; rfl
      · rw [h1, h2]; rfl
  refine ⟨reads, ?_⟩
  intro v id hv
  have hv' := hv
  obtain ⟨t', fs, w, ht', rfl, hw, hf⟩ := hv
  rw [ht] at ht'
  cases ht'
  obtain ⟨w', h1, h2, h3⟩ := through_assign schemas nm r id ts t w h hf
  have ha : assign (.struct fs) (fields nm inHeaders ts) (idValue r id) =
      .ok (.struct (GoMap.put fs (partField inHeaders) w')) := by simp only [fields, assign, hw, h1]
  have hfit : FitsMsg schemas nm inHeaders m (ts.map nm) (.struct (GoMap.put fs (partField inHeaders) w')) :=
    ⟨t, _, w', ht, rfl, GoMap.get_put_self _ _ _, h2⟩
  have htext : ∀ q, textAt (.struct (GoMap.put fs (partField inHeaders) w')) q =
      if q = fields nm inHeaders ts then some id else textAt (.struct fs) q := by
    intro q
    cases q with
    | nil => rw [textAt_struct_nil, textAt_struct_nil, if_neg (by simp [fields])]
    | cons f q =>
      rw [textAt_struct, textAt_struct, GoMap.get_put]
      by_cases hfa : partField inHeaders = f
      · subst hfa
        rw [if_pos rfl, hw]
        simp only [h3 q, fields, List.cons.injEq, true_and]
      · rw [if_neg hfa, if_neg (fun e : f :: q = fields nm inHeaders ts => hfa (List.cons.inj e).1.symm)]
  refine ⟨_, ha, ha, ha, hfit, ?_, htext⟩
  rw [reads _ hfit, htext, if_pos rfl]

/-- What is generated, for a location in the headers or the payload. -/
theorem generated_location (schemas : Nat → Tree) (nm : Str → Str) (force : Bool) (msg : Msg) (inHeaders : Bool) (ts : List Str)
    (hne : ts ≠ []) (hp : ∀ t ∈ ts, '/' ∉ t) :
    generated schemas nm force msg (location inHeaders ts) =
      some (compiles schemas nm force (setPart inHeaders msg (some (down (placeholder (part inHeaders msg)) ts)))
          (location inHeaders ts) (requires (part inHeaders msg) ts hne),
        setPart inHeaders msg (some (down (placeholder (part inHeaders msg)) ts)),
        requires (part inHeaders msg) ts hne) := by
  obtain ⟨h1, h2⟩ := C52_required msg ts hne hp
  obtain ⟨c1, c2⟩ := createTree_location msg ts hne hp
  unfold generated
  cases inHeaders
  · have e : generate msg (location false ts) = (setPart false msg (some (down (placeholder (part false msg)) ts)),
        .ok (requires (part false msg) ts hne)) := Prod.ext c2 h2
    rw [e]
  · have e : generate msg (location true ts) = (setPart true msg (some (down (placeholder (part true msg)) ts)),
        .ok (requires (part true msg) ts hne)) := Prod.ext c1 h1
    rw [e]

theorem compiles_part (schemas : Nat → Tree) (nm : Str → Str) (hn : NamesParts nm) (force : Bool) (m : Msg) (inHeaders : Bool)
    (ts : List Str) (hne : ts ≠ []) (hp : ∀ t ∈ ts, Plain t) (t : Tree) (ht : part inHeaders m = some t) (r : Bool) :
    compiles schemas nm force m (location inHeaders ts) r =
      match typeOf schemas nm force t (ts.map nm) with
      | none => false
      | some (p, c) => (p != r) && decide (c.info.type = tyString) := by
  unfold compiles
  rw [attributes_location nm hn inHeaders ts hne hp, msgType_part, ht, Option.bind_some]
  cases typeOf schemas nm force t (ts.map nm) <;> rfl

theorem requires_lastReq (nm : Str → Str) : ∀ (ts : List Str) (t : Tree) (hne : ts ≠ []), Along nm t ts →
    requires (some t) ts hne = lastReq t ts := by
  intro ts t hne ha
  obtain ⟨q, hq, hb⟩ := requires_eq (some t) ts hne
  obtain ⟨p, hp, hl⟩ := lastReq_down nm ts t hne ha
  rw [show placeholder (some t) = t from rfl, hp] at hq
  cases hq
  rw [← hb, hl]

theorem requires_placeholder (nm : Str → Str) (ts : List Str) (o : Option Tree) (hne : ts ≠ []) (ha : Along nm (placeholder o) ts) :
    requires o ts hne = lastReq (placeholder o) ts := by
  cases o with
  | some t => exact requires_lastReq nm ts t hne ha
  | none =>
    cases ts with
    | nil => exact absurd rfl hne
    | cons v ts =>
      cases ts with
      | nil => simp [requires, viewPart, lastReq, placeholder, newSchema, Tree.info]
      | cons w ts =>
        obtain ⟨_, _, ha⟩ := ha
        rw [if_neg (by simp)] at ha
        obtain ⟨_, c, hc, _⟩ := ha
        cases hc

/-- **C122 (partial: the location leads through required objects written in place, to a string or to nothing).** For every
message and every location in its headers or its payload: the functions compile, and they work. Missing: the other cases, for
which it is false (below). -/
theorem C122_functions_partial (schemas : Nat → Tree) (nm : Str → Str) (hn : NamesParts nm) (msg : Msg) (inHeaders : Bool)
    (ts : List Str) (hne : ts ≠ []) (hp : ∀ t ∈ ts, Plain t) (ha : Along nm (placeholder (part inHeaders msg)) ts) :
    ∃ m r, generated schemas nm false msg (location inHeaders ts) = some (true, m, r) ∧
      attributes nm (location inHeaders ts) = fields nm inHeaders ts ∧ Works schemas nm inHeaders m ts r := by
  have hpart := part_setPart inHeaders msg (some (down (placeholder (part inHeaders msg)) ts))
  have hthr := through_down schemas nm ts _ ha
  refine ⟨_, _, ?_, attributes_location nm hn inHeaders ts hne hp, works_of_through _ _ _ _ _ _ _ hpart hthr⟩
  rw [generated_location schemas nm false msg inHeaders ts hne (fun t ht => (hp t ht).1), compiles_part schemas nm hn false _
    inHeaders ts hne hp _ hpart, requires_placeholder nm ts _ hne ha]
  obtain ⟨c, hc, hty⟩ := through_typeOf schemas nm _ ts _ hthr
  rw [hc]
  simp [hty]

/-- A part of a message that is given by reference, once the location was looked up. -/
theorem body_reference (schemas : Nat → Tree) (k : Nat) (ts : List Str) (ho : (schemas k).info.type = tyObject) :
    body schemas (down (.node ⟨[], [], some k⟩ []) ts) = body schemas (schemas k) := by
  rw [body_object _ _ ho]
  unfold body
  rw [down_info, show (Tree.node ⟨[], [], some k⟩ []).info = ⟨[], [], some k⟩ from rfl]
  rw [if_neg (show ¬ (([] : Str) = tyObject) by decide), if_pos (show ([] : Str) = [] from rfl)]
  exact if_pos ho

theorem requires_reference (k : Nat) (ts : List Str) (hne : ts ≠ []) :
    requires (some (.node ⟨[], [], some k⟩ [])) ts hne = false := by
  obtain ⟨q, hq, hb⟩ := requires_eq (some (.node ⟨[], [], some k⟩ [])) ts hne
  have := C52_violated_reference_required k ts hne
  rw [show placeholder (some (Tree.node ⟨[], [], some k⟩ [])) = .node ⟨[], [], some k⟩ [] from rfl] at hq
  rw [hq] at this
  have this : q.info.required = [] := by simpa using this
  rw [← hb, this]
  rfl

/-- The part of a reference the functions are written for. -/
theorem generated_reference (schemas : Nat → Tree) (nm : Str → Str) (hn : NamesParts nm) (msg : Msg) (inHeaders : Bool)
    (ts : List Str) (hne : ts ≠ []) (hp : ∀ t ∈ ts, Plain t) (k : Nat)
    (ht : part inHeaders msg = some (.node ⟨[], [], some k⟩ [])) (ho : (schemas k).info.type = tyObject) :
    generated schemas nm false msg (location inHeaders ts) =
      some (match typeOf schemas nm false (schemas k) (ts.map nm) with
          | none => false
          | some (p, c) => p && decide (c.info.type = tyString),
        setPart inHeaders msg (some (down (.node ⟨[], [], some k⟩ []) ts)), false) := by
  rw [generated_location schemas nm false msg inHeaders ts hne (fun t ht => (hp t ht).1), compiles_part schemas nm hn false _
    inHeaders ts hne hp _ (part_setPart _ _ _), ht, requires_reference, show placeholder (some (Tree.node ⟨[], [], some k⟩ [])) = .node ⟨[], [], some k⟩ [] from rfl,
    typeOf_body schemas nm false _ _ _
    (body_reference schemas k ts ho)]
  cases typeOf schemas nm false (schemas k) (ts.map nm) with
  | none => rfl
  | some e => simp

/-- **C122 (partial: headers or payload given by reference, an optional correlation ID that the referenced schema has).** The
functions compile, and they work. -/
theorem C122_reference_partial (schemas : Nat → Tree) (nm : Str → Str) (hn : NamesParts nm) (msg : Msg) (inHeaders : Bool)
    (ts : List Str) (hne : ts ≠ []) (hp : ∀ t ∈ ts, Plain t) (k : Nat)
    (ht : part inHeaders msg = some (.node ⟨[], [], some k⟩ [])) (ho : (schemas k).info.type = "object".toList)
    (h : Through schemas nm false (schemas k) ts) :
    ∃ m, generated schemas nm false msg (location inHeaders ts) = some (true, m, false) ∧
      attributes nm (location inHeaders ts) = fields nm inHeaders ts ∧ Works schemas nm inHeaders m ts false := by
  have ho : (schemas k).info.type = tyObject := ho
  have hthr : Through schemas nm false (down (.node ⟨[], [], some k⟩ []) ts) ts := by
    cases ts with
    | nil => exact absurd rfl hne
    | cons v ts => rwa [Through, body_reference schemas k _ ho]
  refine ⟨_, ?_, attributes_location nm hn inHeaders ts hne hp, works_of_through _ _ _ _ _ _ _
    (part_setPart _ msg _) hthr⟩
  rw [generated_reference schemas nm hn msg inHeaders ts hne hp k ht ho]
  obtain ⟨c, hc, hty⟩ := through_typeOf schemas nm _ ts _ h
  rw [hc]
  simp [hty]

/-! ## Where it fails -/

/-- **C122 is violated** (1): headers or payload given by reference, and a correlation ID that the referenced schema requires.
The functions do not compile: they take the address of a string where a string is wanted. -/
theorem C122_violated_reference (schemas : Nat → Tree) (nm : Str → Str) (hn : NamesParts nm) (msg : Msg) (inHeaders : Bool)
    (ts : List Str) (hne : ts ≠ []) (hp : ∀ t ∈ ts, Plain t) (k : Nat)
    (ht : part inHeaders msg = some (.node ⟨[], [], some k⟩ [])) (ha : Along nm (schemas k) ts)
    (hl : lastReq (schemas k) ts = true) :
    (generated schemas nm false msg (location inHeaders ts)).map (·.1) = some false := by
  rw [generated_reference schemas nm hn msg inHeaders ts hne hp k ht (object_of_along nm _ _ ha)]
  simp only [Option.map_some, Option.some.injEq]
  cases hty : typeOf schemas nm false (schemas k) (ts.map nm) with
  | none => rfl
  | some e =>
    obtain ⟨p, c⟩ := e
    have := typeOf_required schemas nm ts _ p c ha hl hty
    subst this
    rfl

theorem typeOf_missing (schemas : Nat → Tree) (nm : Str → Str) (force : Bool) : ∀ (ts : List Str) (t : Tree), Along nm t ts →
    walk t ts = none → typeOf schemas nm force t (ts.map nm) = none := by
  intro ts
  induction ts with
  | nil => intro t h; exact h.elim
  | cons v ts ih =>
    intro t ha hw
    obtain ⟨hty, hinj, ha⟩ := ha
    rw [ty_object] at hty
    rw [List.map_cons, typeOf, body_object _ _ hty]
    simp only
    cases hf : field nm t (nm v) with
    | none => rfl
    | some e =>
      obtain ⟨k, x⟩ := e
      obtain ⟨rfl, hx⟩ := field_some nm t v k x hinj hf
      simp only
      have hmem : (k, x) ∈ t.props := by
        unfold field at hf
        split at hf
        · rename_i p hq
          cases hf
          exact (List.mem_filter.1 (by rw [hq]; simp : (k, x) ∈ t.props.filter (fun p => nm p.1 == nm k))).1
        · cases hf
      cases hg : t.props.get k with
      | none => exact absurd (List.mem_map.2 ⟨_, hmem, rfl⟩) ((GoMap.get_eq_none_iff _ _).1 hg)
      | some c =>
        have := hx c hg
        subst this
        simp only [walk, hg] at hw
        cases ts with
        | nil => cases hw
        | cons w ts =>
          rw [if_neg (by simp)] at ha ⊢
          obtain ⟨_, c', hc', ha⟩ := ha
          rw [hg] at hc'
          cases hc'
          exact ih c ha hw

/-- **C122 is violated** (2): headers or payload given by reference to a schema without the correlation ID. It is created beside
the reference; the functions use a field that does not exist. -/
theorem C122_violated_created (schemas : Nat → Tree) (nm : Str → Str) (hn : NamesParts nm) (msg : Msg) (inHeaders : Bool)
    (ts : List Str) (hne : ts ≠ []) (hp : ∀ t ∈ ts, Plain t) (k : Nat)
    (ht : part inHeaders msg = some (.node ⟨[], [], some k⟩ [])) (ha : Along nm (schemas k) ts)
    (hw : walk (schemas k) ts = none) :
    (generated schemas nm false msg (location inHeaders ts)).map (·.1) = some false := by
  rw [generated_reference schemas nm hn msg inHeaders ts hne hp k ht (object_of_along nm _ _ ha), typeOf_missing schemas nm false ts
    _ ha hw]
  rfl

/-- **C122 is violated** (3): a correlation ID that is not a string, such as an integer or a string given by reference. -/
theorem C122_violated_type (schemas : Nat → Tree) (nm : Str → Str) (hn : NamesParts nm) (force : Bool) (msg : Msg) (inHeaders : Bool)
    (ts : List Str) (hne : ts ≠ []) (hp : ∀ t ∈ ts, Plain t) (t x : Tree) (ht : part inHeaders msg = some t)
    (ho : Objects nm t ts x) (hx : x.info.type ≠ "string".toList) :
    (generated schemas nm force msg (location inHeaders ts)).map (·.1) = some false := by
  rw [generated_location schemas nm force msg inHeaders ts hne (fun t ht => (hp t ht).1), compiles_part schemas nm hn force _
    inHeaders ts hne hp _ (part_setPart _ _ _), ht]
  obtain ⟨p, h⟩ := typeOf_objects schemas nm force ts t x ho
  have hx : x.info.type ≠ tyString := hx
  simp only [placeholder, h, Option.map_some, decide_eq_false hx, Bool.and_false]

/-- The path of a location through objects, to an object that is missing. -/
def Gap (nm : Str → Str) : Tree → List Str → Prop
  | t, v :: w :: rest => t.info.type = "object".toList ∧ (∀ k ∈ t.props.keys, nm k = nm v → k = v) ∧
      match t.props.get v with
      | none => True
      | some c => Gap nm c (w :: rest)
  | _, _ => False

theorem typeOf_gap (schemas : Nat → Tree) (nm : Str → Str) (force : Bool) : ∀ (ts : List Str) (t : Tree), Gap nm t ts →
    typeOf schemas nm force (down t ts) (ts.map nm) = none := by
  intro ts
  induction ts with
  | nil => intro t h; exact h.elim
  | cons v ts ih =>
    intro t h
    cases ts with
    | nil => exact h.elim
    | cons w ts =>
      obtain ⟨hty, hinj, h⟩ := h
      rw [ty_object] at hty
      rw [down_cons, List.map_cons, typeOf, body_object _ _ (by exact hty)]
      simp only
      rw [field_put nm _ _ _ _ hinj]
      simp only
      rw [if_neg (by simp)]
      cases hg : t.props.get v with
      | some c => rw [hg] at h; exact ih c h
      | none =>
        rw [if_neg (by simp), List.map_cons, typeOf]
        have hb : body schemas (down (newSchema tyHeader) (w :: ts)) = none := by
          unfold body
          rw [down_info]
          simp [newSchema, Tree.info, show tyHeader ≠ tyObject from by decide, show tyHeader ≠ [] from by decide]
        rw [hb]

/-- **C122 is violated** (4): a location through an object that the document does not have. The object is created with the type
`header`, for which there is no Go type. -/
theorem C122_violated_gap (schemas : Nat → Tree) (nm : Str → Str) (hn : NamesParts nm) (force : Bool) (msg : Msg) (inHeaders : Bool)
    (ts : List Str) (hne : ts ≠ []) (hp : ∀ t ∈ ts, Plain t) (hg : Gap nm (placeholder (part inHeaders msg)) ts) :
    (generated schemas nm force msg (location inHeaders ts)).map (·.1) = some false := by
  rw [generated_location schemas nm force msg inHeaders ts hne (fun t ht => (hp t ht).1), compiles_part schemas nm hn force _
    inHeaders ts hne hp _ (part_setPart _ _ _), typeOf_gap schemas nm force ts _ hg]
  rfl

/-- **C122 is violated** (5): with forced pointers, for every correlation ID that is required. -/
theorem C122_violated_forced (schemas : Nat → Tree) (nm : Str → Str) (hn : NamesParts nm) (msg : Msg) (inHeaders : Bool)
    (ts : List Str) (hne : ts ≠ []) (hp : ∀ t ∈ ts, Plain t) (ha : Along nm (placeholder (part inHeaders msg)) ts)
    (hl : lastReq (placeholder (part inHeaders msg)) ts = true) :
    (generated schemas nm true msg (location inHeaders ts)).map (·.1) = some false := by
  rw [generated_location schemas nm true msg inHeaders ts hne (fun t ht => (hp t ht).1), compiles_part schemas nm hn true _
    inHeaders ts hne hp _ (part_setPart _ _ _), requires_placeholder nm ts _ hne ha, hl]
  obtain ⟨c, hc⟩ := typeOf_forced schemas nm ts _ ha
  rw [hc]
  rfl

/-- The zero value of the Go type of a schema, as far as a path of fields goes. -/
def Zero (schemas : Nat → Tree) (nm : Str → Str) : Tree → List Str → GV → Prop
  | _, [], v => v = .text ""
  | t, f :: rest, v => ∃ b k c fs w, body schemas t = some b ∧ field nm b f = some (k, c) ∧ v = .struct fs ∧
      GoMap.get fs f = some w ∧ if isPointer false b k c then w = .nilPtr else Zero schemas nm c rest w

/-- The zero value of a message, as far as the location goes. -/
def ZeroMsg (schemas : Nat → Tree) (nm : Str → Str) (inHeaders : Bool) (m : Msg) (path : List Str) (v : GV) : Prop :=
  ∃ t fs w, part inHeaders m = some t ∧ v = .struct fs ∧ GoMap.get fs (partField inHeaders) = some w ∧
    Zero schemas nm t path w

/-- A path with an object that is not required. -/
def Optional (schemas : Nat → Tree) (nm : Str → Str) : Tree → List Str → Prop
  | t, v :: w :: rest => ∃ b c, body schemas t = some b ∧ field nm b (nm v) = some (v, c) ∧
      ((v ∉ b.info.required ∧ c.info.type ≠ "array".toList) ∨ Optional schemas nm c (w :: rest))
  | _, _ => False

theorem optional_panics (schemas : Nat → Tree) (nm : Str → Str) (x : GV) : ∀ (ts : List Str) (t : Tree) (v : GV),
    Optional schemas nm t ts → Zero schemas nm t (ts.map nm) v →
    assign v (ts.map nm) x = .panic ∧ sels v (ts.map nm) = .panic := by
  intro ts
  induction ts with
  | nil => intro t v h; exact h.elim
  | cons a ts ih =>
    intro t v h hz
    cases ts with
    | nil => exact h.elim
    | cons a' ts =>
      obtain ⟨b, c, hb, hf, h⟩ := h
      obtain ⟨b', k, c', fs, w, hb', hf', rfl, hw, hz⟩ := hz
      rw [hb] at hb'
      cases hb'
      rw [hf] at hf'
      cases hf'
      have key : assign w ((a' :: ts).map nm) x = .panic ∧ sels w ((a' :: ts).map nm) = .panic := by
        split at hz
        · subst hz
          exact ⟨by simp only [List.map_cons, assign], rfl⟩
        · rename_i hp
          rcases h with ⟨hr, hc⟩ | h
          · exfalso
            apply hp
            have hc : c.info.type ≠ kwArray := hc
            unfold isPointer
            rw [if_neg (by simp), isInSlice_eq]
            simp [hr, hc]
          · exact ih c w h hz
      rw [List.map_cons]
      exact ⟨by simp only [assign, hw, key.1], by simp only [sels, sel, hw, key.2]⟩

/-- **C122 is violated** (6): a location through an object that is not required. Whatever is generated, making a new message
panics, and so does reading the correlation ID of an empty one, and making any message the answer to an empty one. -/
theorem C122_violated_panic (schemas : Nat → Tree) (nm : Str → Str) (inHeaders : Bool) (m : Msg) (ts : List Str) (t : Tree)
    (ht : part inHeaders m = some t) (ho : Optional schemas nm t ts) (zero : GV) (hz : ZeroMsg schemas nm inHeaders m (ts.map nm) zero)
    (required : Bool) (uuid : String) :
    newMsg required (fields nm inHeaders ts) zero uuid = .panic ∧ corrId required (fields nm inHeaders ts) zero = .panic ∧
    ∀ (required' : Bool) (path : List Str) (v : GV), setFrom required' path v (corrId required (fields nm inHeaders ts) zero) = .panic := by
  obtain ⟨t', fs, w, ht', rfl, hw, hz⟩ := hz
  rw [ht] at ht'
  cases ht'
  obtain ⟨h1, h2⟩ := optional_panics schemas nm (idValue required uuid) ts t w ho hz
  have e : sels (.struct fs) (fields nm inHeaders ts) = .panic := by simp only [fields, sels, sel, hw, h2]
  refine ⟨?_, ?_, fun _ _ _ => ?_⟩
  · simp only [newMsg, fields, assign, hw, h1]
  · simp only [corrId, e]
  · simp only [corrId, e, setFrom]

/-! ### Examples -/

def kId : Str := ['i', 'd']

theorem plain_id : ∀ t ∈ [kId], Plain t := by
  intro t ht
  simp only [List.mem_singleton] at ht
  subst ht
  unfold Plain
  decide

theorem along_id (required : List Str) : Along capital (obj required [(kId, str)]) [kId] := by
  refine ⟨rfl, ?_, ?_⟩
  · intro k hk _
    have : k ∈ [kId] := hk
    simpa using this
  · rw [if_pos rfl]
    intro c hc
    have : some str = some c := hc
    cases this
    rfl

/-- Schemas with an ID: 0 requires it, 1 does not, 2 has none. -/
def env : Nat → Tree
  | 0 => obj [kId] [(kId, str)]
  | 1 => obj [] [(kId, str)]
  | _ => obj [] []

def byRef (k : Nat) : Msg := ⟨none, some (.node ⟨[], [], some k⟩ [])⟩

/-- A required ID in the headers; no headers at all. -/
example : ∃ m r, generated env capital false ⟨some (obj [kId] [(kId, str)]), none⟩ (location true [kId]) = some (true, m, r) ∧
    attributes capital (location true [kId]) = fields capital true [kId] ∧ Works env capital true m [kId] r :=
  C122_functions_partial env capital capital_names _ true [kId] (by simp) plain_id (along_id _)

example : ∃ m r, generated env capital false ⟨none, none⟩ (location true [kId]) = some (true, m, r) ∧
    attributes capital (location true [kId]) = fields capital true [kId] ∧ Works env capital true m [kId] r :=
  C122_functions_partial env capital capital_names _ true [kId] (by simp) plain_id
    ⟨rfl, by intro k hk; simp [placeholder, part, newSchema, props_node, GoMap.keys] at hk, by
      rw [if_pos rfl]; intro c hc; cases hc⟩

/-- Values of that type. -/
example : FitsMsg env capital true ⟨some (obj [kId] [(kId, str)]), none⟩ [capital kId]
    (.struct [("Headers".toList, .struct [(capital kId, .text "x")])]) :=
  ⟨_, _, _, rfl, rfl, rfl, _, kId, str, _, _, rfl, rfl, rfl, rfl, "x", rfl⟩

/-- The payload by reference. -/
example : ∃ m, generated env capital false (byRef 1) (location false [kId]) = some (true, m, false) ∧
    attributes capital (location false [kId]) = fields capital false [kId] ∧ Works env capital false m [kId] false :=
  C122_reference_partial env capital capital_names (byRef 1) false [kId] (by simp) plain_id 1 rfl rfl
    ⟨_, str, rfl, rfl, by rw [if_pos rfl]; exact ⟨rfl, rfl⟩⟩

example : (generated env capital false (byRef 0) (location false [kId])).map (·.1) = some false :=
  C122_violated_reference env capital capital_names (byRef 0) false [kId] (by simp) plain_id 0 rfl (along_id _) (by decide)

example : (generated env capital false (byRef 2) (location false [kId])).map (·.1) = some false :=
  C122_violated_created env capital capital_names (byRef 2) false [kId] (by simp) plain_id 2 rfl
    (show Along capital (obj [] []) [kId] from by
      refine ⟨rfl, ?_, ?_⟩
      · intro k hk; cases hk
      · rw [if_pos rfl]; intro c hc; cases hc) rfl

def int : Tree := .node ⟨['i', 'n', 't', 'e', 'g', 'e', 'r'], [], none⟩ []

example : (generated env capital false ⟨some (obj [] [(kId, int)]), none⟩ (location true [kId])).map (·.1) = some false :=
  C122_violated_type env capital capital_names false _ true [kId] (by simp) plain_id _ int rfl
    ⟨rfl, by intro k hk _; simpa [obj, props_node, GoMap.keys] using hk, int, rfl, by rw [if_pos rfl]⟩ (by decide)

example : Gap capital (placeholder none) [kMeta, kId] :=
  ⟨rfl, by intro k hk; simp [placeholder, newSchema, props_node, GoMap.keys] at hk, trivial⟩

example : (generated env capital true ⟨some (obj [kId] [(kId, str)]), none⟩ (location true [kId])).map (·.1) = some false :=
  C122_violated_forced env capital capital_names _ true [kId] (by simp) plain_id (along_id _) (by decide)

/-- An optional object on the way: the functions compile, and a new message panics. -/
def inMeta : Tree := obj [] [(kMeta, obj [kId] [(kId, str)])]

example : (generated env capital false ⟨none, some inMeta⟩ (location false [kMeta, kId])).map (fun r => (r.1, r.2.2)) =
      some (true, true) ∧
    newMsg true (fields capital false [kMeta, kId]) (.struct [("Payload".toList, .struct [(capital kMeta, .nilPtr)])]) "u" = .panic :=
  ⟨by decide, (C122_violated_panic env capital false ⟨none, some inMeta⟩ [kMeta, kId] inMeta rfl
    ⟨_, obj [kId] [(kId, str)], rfl, rfl, Or.inl ⟨by decide, by decide⟩⟩ _
    ⟨_, _, _, rfl, rfl, rfl, _, kMeta, _, _, _, rfl, rfl, rfl, rfl, by rw [if_pos (by decide)]⟩ true "u").1⟩

end Verif.CorrFns
