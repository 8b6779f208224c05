import Verif.Spec.Refs

/-! # C46, C47: references -/

namespace Verif.Refs

theorem schFrom_val (s : Option Sch) (ks : List Str) (e : Elem) :
    Sch.from? s ks = .val e ↔ ∃ s', s = some s' ∧ ∃ t, InSchema s' ks t ∧ e = .schema t := by
  induction ks generalizing s with
  | nil =>
    cases s with
    | none => simp [Sch.from?, ptr]
    | some s =>
      simp only [Sch.from?, ptr, Res.val.injEq, Option.some.injEq, exists_eq_left']
      constructor
      · rintro rfl; exact ⟨s, .here s, rfl⟩
      · rintro ⟨t, ht, rfl⟩; cases ht; rfl
  | cons k ks ih =>
    cases s with
    | none => simp [Sch.from?]
    | some s =>
      simp only [Sch.from?, ih, Option.some.injEq, exists_eq_left']
      constructor
      · rintro ⟨s', h1, t, h2, h3⟩; exact ⟨t, .prop h1 h2, h3⟩
      · rintro ⟨t, ht, h3⟩
        cases ht with
        | prop h1 h2 => exact ⟨_, h1, t, h2, h3⟩

theorem msgFrom_val (m : Option Msg) (ks : List Str) (e : Elem) :
    Msg.from? m ks = .val e ↔ ∃ m', m = some m' ∧ InMessage m' ks e := by
  cases ks with
  | nil =>
    cases m with
    | none => simp [Msg.from?, ptr]
    | some m =>
      simp only [Msg.from?, ptr, Res.val.injEq, Option.some.injEq, exists_eq_left']
      constructor
      · rintro rfl; exact .here m
      · intro h; cases h; rfl
  | cons k ks =>
    simp only [Msg.from?]
    have hne : kwPayload ≠ kwHeader := by decide
    by_cases hp : k = kwPayload
    · subst hp
      rw [if_pos rfl]
      cases m with
      | none => simp
      | some m =>
        simp only [schFrom_val, Option.some.injEq, exists_eq_left']
        constructor
        · rintro ⟨s, h1, t, h2, rfl⟩; exact .payload h1 h2
        · intro h
          cases h with
          | payload h1 h2 => exact ⟨_, h1, _, h2, rfl⟩
    · rw [if_neg hp]
      by_cases hh : k = kwHeader
      · subst hh
        rw [if_pos rfl]
        cases m with
        | none => simp
        | some m =>
          simp only [schFrom_val, Option.some.injEq, exists_eq_left']
          constructor
          · rintro ⟨s, h1, t, h2, rfl⟩; exact .header h1 h2
          · intro h
            cases h with
            | header h1 h2 => exact ⟨_, h1, _, h2, rfl⟩
      · rw [if_neg hh, schFrom_val]
        constructor
        · rintro ⟨s, h, _⟩; cases h
        · rintro ⟨m', _, h⟩
          cases h with
          | payload => exact absurd rfl hp
          | header => exact absurd rfl hh

/-- No supported kind is called `schemas` or `messages`. -/
def KindsOk (v : Version) : Prop := kwSchemas ∉ v.kinds ∧ kwMessages ∉ v.kinds

theorem kindsOk_v2 : KindsOk v2 := by unfold KindsOk; decide
theorem kindsOk_v3 : KindsOk v3 := by unfold KindsOk; decide

theorem resolve_val (v : Version) (hv : KindsOk v) (d : Doc) (path : List Str) (ht : NoTail v path) (e : Elem) :
    resolve v d path = .val e ↔ At v d path e := by
  have n1 : kwComponents ≠ kwChannels := by decide
  have n2 : kwSchemas ≠ kwMessages := by decide
  constructor
  · intro h
    unfold resolve at h
    split at h
    · cases h
    · rename_i p0 rest
      split at h
      · rename_i hp0; subst hp0
        split at h
        · cases h
        · rename_i k rest
          split at h
          · rename_i hk; subst hk
            split at h
            · cases h
            · rename_i n rest
              rw [schFrom_val] at h
              obtain ⟨s, h1, t, h2, rfl⟩ := h
              exact .schema h1 h2
          · split at h
            · rename_i hk; subst hk
              split at h
              · cases h
              · rename_i n rest
                rw [msgFrom_val] at h
                obtain ⟨m, h1, h2⟩ := h
                exact .message h1 h2
            · split at h
              · rename_i hk
                split at h
                · cases h
                · rename_i n rest
                  cases hg : d.others.get (k, n) with
                  | none => rw [hg] at h; simp [ptr] at h
                  | some i =>
                    rw [hg] at h
                    simp only [ptr, Res.val.injEq] at h
                    subst h
                    cases rest with
                    | nil => exact .other hk hg
                    | cons x rest => exact absurd rfl (ht k n x rest hk)
              · cases h
      · split at h
        · rename_i hc
          obtain ⟨hc, hvc⟩ := hc
          subst hc
          split at h
          · cases h
          · rename_i n
            cases hg : d.channels.get n with
            | none => rw [hg] at h; simp [ptr] at h
            | some c =>
              rw [hg] at h
              simp only [ptr, Res.val.injEq] at h
              subst h
              exact .channel hvc hg
          · rename_i n k rest
            split at h
            · rename_i hk; subst hk
              split at h
              · cases h
              · rename_i m rest
                split at h
                · cases h
                · rename_i c hg
                  rw [msgFrom_val] at h
                  obtain ⟨m', h1, h2⟩ := h
                  exact .channelMessage hvc hg h1 h2
            · cases h
        · cases h
  · intro h
    cases h with
    | schema h1 h2 =>
      simp only [resolve, if_true]
      rw [schFrom_val]; exact ⟨_, h1, _, h2, rfl⟩
    | message h1 h2 =>
      simp only [resolve, if_true, Ne.symm n2, if_false]
      rw [msgFrom_val]; exact ⟨_, h1, h2⟩
    | other hk hg =>
      rename_i k n i
      have e1 : k ≠ kwSchemas := fun he => hv.1 (he ▸ hk)
      have e2 : k ≠ kwMessages := fun he => hv.2 (he ▸ hk)
      simp only [resolve, if_true, e1, e2, if_false, hk, hg, ptr]
    | channel hvc hg =>
      simp only [resolve, Ne.symm n1, if_false, hvc, and_self, if_true, hg, ptr]
    | channelMessage hvc hg h1 h2 =>
      simp only [resolve, Ne.symm n1, if_false, hvc, and_self, if_true, hg]
      rw [msgFrom_val]; exact ⟨_, h1, h2⟩

/-- The text of a reference. -/
def refText (file : Str) (path : List Str) : Str := file ++ '#' :: '/' :: Str.join '/' path

/-- Tokens of a path. -/
def Clean (path : List Str) : Prop := path ≠ [] ∧ ∀ t ∈ path, '/' ∉ t ∧ '#' ∉ t

theorem not_mem_join (c : Char) (path : List Str) (hc : c ≠ '/') (h : ∀ t ∈ path, c ∉ t) : c ∉ Str.join '/' path := by
  induction path with
  | nil => simp [Str.join]
  | cons t ts ih =>
    cases ts with
    | nil => exact h t (by simp)
    | cons u us =>
      have := ih (fun x hx => h x (List.mem_cons_of_mem _ hx))
      simp only [Str.join, List.mem_append, List.mem_cons, not_or]
      exact ⟨h t (by simp), hc, this⟩

theorem reference_refText (v : Version) (self : Doc) (deps : GoMap Str Doc) (file : Str) (path : List Str)
    (hf : '#' ∉ file) (hp : Clean path) :
    reference v self deps (refText file path) = match docOf self deps file with
      | none => .error
      | some d => resolve v d path := by
  unfold reference refText
  have h1 : '#' ∉ ('/' :: Str.join '/' path) := by
    simp only [List.mem_cons, not_or]
    exact ⟨by decide, not_mem_join '#' path (by decide) (fun t ht => (hp.2 t ht).2)⟩
  rw [Str.split_append '#' file _ hf, Str.split_single '#' _ h1]
  have h2 : trimSlash ('/' :: Str.join '/' path) = Str.join '/' path := rfl
  simp only [h2, Str.split_join '/' path hp.1 (fun t ht => (hp.2 t ht).1), docOf]
  rfl

theorem ty_iff (e : Elem) (t : Ty) : e.ty = t ↔ Typed e t := by
  constructor
  · rintro rfl
    cases e with
    | schema s => exact .schema s
    | message m => exact .message m
    | channel c => exact .channel c
    | other k i =>
      show Typed (.other k i) (if k = "channels".toList then .channel else .other k)
      split
      · rename_i h
        exact .component h
      · rename_i h
        exact .other h
  · intro h
    cases h with
    | schema | message | channel => rfl
    | component h => exact if_pos h
    | other h => exact if_neg h

/-- **C46 (partial: property names written directly, nothing after the name of a plain component).** For every
version, document, set of dependencies, file name, path and type: the lookup finds an element exactly when
it is the one at that path in the designated document, and has the wanted type. Missing: standard JSON
pointers into schemas and trailing path elements, for which it is false (below). -/
theorem C46_resolves_partial (v : Version) (hv : KindsOk v) (self : Doc) (deps : GoMap Str Doc) (t : Ty) (file : Str)
    (path : List Str) (hf : '#' ∉ file) (hp : Clean path) (ht : NoTail v path) (e : Elem) :
    lookup v self deps t (refText file path) = .found e ↔
      ∃ d, docOf self deps file = some d ∧ At v d path e ∧ Typed e t := by
  rw [← ty_iff]
  unfold lookup
  rw [reference_refText v self deps file path hf hp]
  cases hd : docOf self deps file with
  | none => simp [referenceAs]
  | some d =>
    simp only [Option.some.injEq, exists_eq_left']
    rw [← resolve_val v hv d path ht e]
    cases hr : resolve v d path with
    | panic => simp [referenceAs]
    | error => simp [referenceAs]
    | nil t => simp [referenceAs]
    | val e' =>
      simp only [referenceAs, Res.val.injEq]
      by_cases hty : e'.ty = t
      · rw [if_pos hty]
        simp only [Out.found.injEq]
        constructor
        · rintro rfl; exact ⟨rfl, hty⟩
        · exact fun h => h.1
      · rw [if_neg hty]
        simp only [reduceCtorEq, false_iff, not_and]
        rintro rfl; exact hty

/-- **C46 (unknown documents and several fragments).** A reference to a file that is no dependency, or with
other than one `#`, is an error. -/
theorem C46_unknown_is_error (v : Version) (self : Doc) (deps : GoMap Str Doc) (t : Ty) (ref : Str)
    (h : (Str.split '#' ref).length ≠ 2 ∨
      ∃ file rest, ref = file ++ '#' :: rest ∧ '#' ∉ file ∧ '#' ∉ rest ∧ docOf self deps file = none) :
    lookup v self deps t ref = .error := by
  unfold lookup reference
  rcases h with h | ⟨file, rest, rfl, hf, hr, hd⟩
  · split
    · rename_i heq; rw [heq] at h; exact absurd rfl h
    · rfl
  · rw [Str.split_append '#' file _ hf, Str.split_single '#' _ hr]
    unfold docOf at hd
    simp only [hd]
    rfl

/-- **C47 (partial).** No crash when the path is a supported component, channel or channel message (its
container existing), or a property whose parent exists. Missing: the other paths, for which it is false
(below). -/
theorem C47_no_panic_partial (v : Version) (self : Doc) (deps : GoMap Str Doc) (t : Ty) (file : Str)
    (path : List Str) (hf : '#' ∉ file) (hp : Clean path)
    (h : ∀ d, docOf self deps file = some d →
      (∃ k n, path = [kwComponents, k, n]) ∨ (∃ n, path = [kwChannels, n]) ∨
      (∃ n c k, path = [kwChannels, n, kwMessages, k] ∧ d.channels.get n = some c) ∨
      (∃ p rest, path = p :: rest ∧ p ≠ kwComponents ∧ p ≠ kwChannels) ∨
      (∃ parent k s, path = parent ++ [k] ∧ At v d parent (.schema s)) ∨
      (∃ parent m, At v d parent (.message m) ∧ (path = parent ++ [kwPayload] ∨ path = parent ++ [kwHeader]))) :
    lookup v self deps t (refText file path) ≠ .panic := by
  unfold lookup
  rw [reference_refText v self deps file path hf hp]
  cases hd : docOf self deps file with
  | none => simp [referenceAs]
  | some d =>
    have key : resolve v d path ≠ .panic → referenceAs t (resolve v d path) ≠ .panic := by
      intro h
      cases hr : resolve v d path with
      | panic => exact absurd hr h
      | error => simp [referenceAs]
      | nil _ => simp [referenceAs]
      | val e => simp only [referenceAs]; split <;> simp
    apply key
    have n1 : kwChannels ≠ kwComponents := by decide
    have n2 : kwMessages ≠ kwSchemas := by decide
    have n3 : kwHeader ≠ kwPayload := by decide
    have hptr : ∀ {α : Type} (t : Ty) (f : α → Elem) (o : Option α), ptr t f o ≠ .panic := by
      intro α t f o; cases o <;> simp [ptr]
    have hs0 : ∀ o : Option Sch, Sch.from? o [] ≠ .panic := by
      intro o; simp only [Sch.from?]; exact hptr _ _ _
    have hm0 : ∀ o : Option Msg, Msg.from? o [] ≠ .panic := by
      intro o; simp only [Msg.from?]; exact hptr _ _ _
    -- a property of an existing schema
    have hin : ∀ (s u : Sch) (ks : List Str) (k : Str), InSchema s ks u → Sch.from? (some s) (ks ++ [k]) ≠ .panic := by
      intro s u ks k hi
      induction hi with
      | here s => simp only [List.nil_append, Sch.from?]; exact hptr _ _ _
      | prop h1 _ ih => simp only [List.cons_append, Sch.from?, h1]; exact ih
    have hinm : ∀ (m : Msg) (u : Sch) (ks : List Str) (k : Str), InMessage m ks (.schema u) →
        Msg.from? (some m) (ks ++ [k]) ≠ .panic := by
      intro m u ks k hi
      cases hi with
      | payload h1 h2 => simp only [List.cons_append, Msg.from?, if_true, h1]; exact hin _ _ _ _ h2
      | header h1 h2 => simp only [List.cons_append, Msg.from?, n3, if_false, if_true, h1]; exact hin _ _ _ _ h2
    have hmm : ∀ (m : Msg) (k : Str), k = kwPayload ∨ k = kwHeader → Msg.from? (some m) [k] ≠ .panic := by
      intro m k hk
      rcases hk with rfl | rfl
      · simp only [Msg.from?, if_true]; exact hs0 _
      · simp only [Msg.from?, n3, if_false, if_true]; exact hs0 _
    rcases h d hd with ⟨k, n, rfl⟩ | ⟨n, rfl⟩ | ⟨n, c, k, rfl, hc⟩ | ⟨p, rest, rfl, hp1, hp2⟩ | ⟨parent, k, s, rfl, ha⟩ |
        ⟨parent, m, ha, hpath⟩
    · simp only [resolve, if_true]
      split
      · exact hs0 _
      · split
        · exact hm0 _
        · split
          · exact hptr _ _ _
          · simp
    · simp only [resolve, n1, if_false]
      split
      · exact hptr _ _ _
      · simp
    · simp only [resolve, n1, if_false]
      split
      · simp only [if_true, hc]; exact hm0 _
      · simp
    · simp only [resolve, hp1, hp2, if_false, false_and]
      simp
    · generalize he : Elem.schema s = e at ha
      cases ha with
      | schema h1 h2 =>
        simp only [List.cons_append, resolve, if_true, h1]
        exact hin _ _ _ _ h2
      | message h1 h2 =>
        subst he
        simp only [List.cons_append, resolve, if_true, n2, if_false, h1]
        exact hinm _ _ _ _ h2
      | other => cases he
      | channel => cases he
      | channelMessage hv hg h1 h2 =>
        subst he
        simp only [List.cons_append, resolve, n1, hv, if_false, and_self, if_true, hg, h1]
        exact hinm _ _ _ _ h2
    · have hk : ∃ k, path = parent ++ [k] ∧ (k = kwPayload ∨ k = kwHeader) := by
        rcases hpath with h | h
        · exact ⟨_, h, .inl rfl⟩
        · exact ⟨_, h, .inr rfl⟩
      obtain ⟨k, rfl, hk⟩ := hk
      generalize he : Elem.message m = e at ha
      cases ha with
      | schema => cases he
      | message h1 h2 =>
        subst he
        cases h2
        simp only [List.cons_append, List.nil_append, resolve, if_true, n2, if_false, h1]
        exact hmm _ _ hk
      | other => cases he
      | channel => cases he
      | channelMessage hv hg h1 h2 =>
        subst he
        cases h2
        simp only [List.cons_append, List.nil_append, resolve, n1, hv, if_false, and_self, if_true, hg, h1]
        exact hmm _ _ hk

theorem schFrom_panic (s : Option Sch) (ks : List Str) : Sch.from? s ks = .panic ↔ BelowMissing s ks := by
  induction ks generalizing s with
  | nil =>
    refine ⟨fun h => ?_, fun ⟨pre, k, rest, h, _⟩ => by cases pre <;> cases h⟩
    cases s <;> simp [Sch.from?, ptr] at h
  | cons k ks ih =>
    cases s with
    | none =>
      simp only [Sch.from?, true_iff]
      exact ⟨[], k, ks, rfl, by simp⟩
    | some s =>
      simp only [Sch.from?, ih]
      constructor
      · rintro ⟨pre, k', rest, rfl, h⟩
        refine ⟨k :: pre, k', rest, rfl, ?_⟩
        rintro s' t ⟨rfl⟩ hi
        cases hi with
        | prop h1 h2 => exact h _ t h1 h2
      · rintro ⟨pre, k', rest, he, h⟩
        cases pre with
        | nil => exact absurd (.here s) (h s s rfl)
        | cons x pre =>
          cases he
          exact ⟨pre, k', rest, rfl, fun s' t h1 h2 => h s t rfl (.prop h1 h2)⟩

theorem msgFrom_panic (m : Option Msg) (ks : List Str) : Msg.from? m ks = .panic ↔ BelowMissingPart m ks := by
  have hne : kwHeader ≠ kwPayload := by decide
  cases ks with
  | nil =>
    refine ⟨fun h => ?_, fun h => by cases h⟩
    cases m <;> simp [Msg.from?, ptr] at h
  | cons k ks =>
    simp only [Msg.from?]
    by_cases hp : k = kwPayload
    · subst hp
      rw [if_pos rfl]
      cases m with
      | none => simp only [true_iff]; exact .message rfl (.inl rfl)
      | some m =>
        simp only [schFrom_panic]
        constructor
        · rintro ⟨pre, k', rest, rfl, h⟩
          refine .part ?_
          rintro m' t ⟨rfl⟩ hi
          cases hi with
          | payload h1 h2 => exact h _ t h1 h2
        · intro h
          cases h with
          | message h => cases h
          | part h => exact ⟨_, _, _, rfl, fun s' t h1 h2 => h m t rfl (.payload h1 h2)⟩
    · rw [if_neg hp]
      by_cases hh : k = kwHeader
      · subst hh
        rw [if_pos rfl]
        cases m with
        | none => simp only [true_iff]; exact .message rfl (.inr rfl)
        | some m =>
          simp only [schFrom_panic]
          constructor
          · rintro ⟨pre, k', rest, rfl, h⟩
            refine .part ?_
            rintro m' t ⟨rfl⟩ hi
            cases hi with
            | header h1 h2 => exact h _ t h1 h2
          · intro h
            cases h with
            | message h => cases h
            | part h => exact ⟨_, _, _, rfl, fun s' t h1 h2 => h m t rfl (.header h1 h2)⟩
      · rw [if_neg hh, schFrom_panic]
        constructor
        · rintro ⟨pre, k', rest, rfl, h⟩
          refine .part ?_
          intro m' t _ hi
          cases hi with
          | payload => exact hp rfl
          | header => exact hh rfl
        · intro h
          cases h with
          | message _ h => rcases h with h | h <;> contradiction
          | part h => exact ⟨_, _, _, rfl, by simp⟩
          
theorem resolve_panic (v : Version) (d : Doc) (path : List Str) (hne : path ≠ []) :
    resolve v d path = .panic ↔ Crash v d path := by
  have n1 : kwChannels ≠ kwComponents := by decide
  have n2 : kwMessages ≠ kwSchemas := by decide
  have hptr : ∀ {α : Type} (t : Ty) (f : α → Elem) (o : Option α), ptr t f o ≠ .panic := by
    intro α t f o; cases o <;> simp [ptr]
  constructor
  · intro h
    unfold resolve at h
    split at h
    · exact absurd rfl hne
    · split at h
      · rename_i hp0; subst hp0
        split at h
        · exact .components
        · split at h
          · rename_i hk; subst hk
            split at h
            · exact .kind (.inl rfl)
            · exact .schema ((schFrom_panic _ _).mp h)
          · split at h
            · rename_i hk; subst hk
              split at h
              · exact .kind (.inr (.inl rfl))
              · exact .message ((msgFrom_panic _ _).mp h)
            · split at h
              · rename_i hk
                split at h
                · exact .kind (.inr (.inr hk))
                · exact absurd h (hptr _ _ _)
              · cases h
      · split at h
        · rename_i hc
          obtain ⟨hc, hvc⟩ := hc
          subst hc
          split at h
          · exact .channels hvc
          · exact absurd h (hptr _ _ _)
          · split at h
            · rename_i hk; subst hk
              split at h
              · exact .channelMessages hvc
              · split at h
                · rename_i hg; exact .channel hvc hg
                · rename_i hg; exact .channelMessage hvc hg ((msgFrom_panic _ _).mp h)
            · cases h
        · cases h
  · intro h
    cases h with
    | components => simp [resolve]
    | kind hk =>
      rename_i k
      simp only [resolve, if_true]
      by_cases h1 : k = kwSchemas
      · rw [if_pos h1]
      · rw [if_neg h1]
        by_cases h2 : k = kwMessages
        · rw [if_pos h2]
        · rw [if_neg h2, if_pos]
          rcases hk with hk | hk | hk
          · exact absurd hk h1
          · exact absurd hk h2
          · exact hk
    | schema hb => simp only [resolve, if_true]; exact (schFrom_panic _ _).mpr hb
    | message hb => simp only [resolve, if_true, n2, if_false]; exact (msgFrom_panic _ _).mpr hb
    | channels hc => simp [resolve, n1, hc]
    | channelMessages hc => simp [resolve, n1, hc]
    | channel hc hg => simp [resolve, n1, hc, hg]
    | channelMessage hc hg hb => simp only [resolve, n1, if_false, hc, and_self, if_true, hg]; exact (msgFrom_panic _ _).mpr hb

/-- **C47 (exactly).** For every version, document, set of dependencies, wanted type and reference text: the
lookup crashes exactly on the texts with one `#`, a known document before it, and after it a path of `Crash`. -/
theorem C47_crashes_iff_partial (v : Version) (self : Doc) (deps : GoMap Str Doc) (t : Ty) (ref : Str) :
    lookup v self deps t ref = .panic ↔ ∃ file rest d, ref = file ++ '#' :: rest ∧ '#' ∉ file ∧ '#' ∉ rest ∧
      docOf self deps file = some d ∧ Crash v d (Str.split '/' (trimSlash rest)) := by
  have key : ∀ r, referenceAs t r = .panic ↔ r = .panic := by
    intro r
    cases r with
    | val e => simp only [referenceAs]; split <;> simp
    | _ => simp [referenceAs]
  unfold lookup
  rw [key]
  constructor
  · intro h
    unfold reference at h
    split at h
    · rename_i file path hs
      have hj : ref = file ++ '#' :: path := by
        have := Str.join_split '#' ref
        rw [hs] at this
        simpa [Str.join] using this.symm
      have hm := Str.not_mem_split '#' ref
      rw [hs] at hm
      change (match docOf self deps file with
        | none => Res.error
        | some d => resolve v d (Str.split '/' (trimSlash path))) = .panic at h
      cases hd : docOf self deps file with
      | none => rw [hd] at h; cases h
      | some d =>
        rw [hd] at h
        exact ⟨file, path, d, hj, hm file (by simp), hm path (by simp), hd,
          (resolve_panic v d _ (Str.split_ne_nil _ _)).mp h⟩
    · cases h
  · rintro ⟨file, rest, d, rfl, hf, hr, hd, hc⟩
    unfold reference
    rw [Str.split_append '#' file _ hf, Str.split_single '#' _ hr]
    unfold docOf at hd
    simp only [hd]
    exact (resolve_panic v d _ (Str.split_ne_nil _ _)).mpr hc

/-- **C46 (what the versions support).** In AsyncAPI 2 only components can be referenced: schemas, messages and
parameters. -/
theorem C46_v2_supports (d : Doc) (path : List Str) (e : Elem) (h : resolve v2 d path = .val e) :
    ∃ k rest, path = kwComponents :: k :: rest ∧ (k = kwSchemas ∨ k = kwMessages ∨ k = "parameters".toList) := by
  unfold resolve at h
  split at h
  · cases h
  · split at h
    · rename_i hp0; subst hp0
      split at h
      · cases h
      · rename_i k rest
        refine ⟨k, rest, rfl, ?_⟩
        split at h
        · exact .inl (by assumption)
        · split at h
          · exact .inr (.inl (by assumption))
          · split at h
            · rename_i hk; exact .inr (.inr (by simpa [v2] using hk))
            · cases h
    · split at h
      · rename_i hc; exact absurd hc.2 (by decide)
      · cases h

/-! ## Witnesses -/

/-- A schema `A` with a property `b`, a parameter `p`, a channel `a/b`. -/
def schB : Sch := .mk 2 []
def schA : Sch := .mk 1 [("b".toList, schB)]
def doc0 : Doc := ⟨[("A".toList, schA)], [("M".toList, ⟨3, some schA, some schA⟩)],
  [(("parameters".toList, "p".toList), 4), (("channels".toList, "c".toList), 7)], [("a/b".toList, ⟨5, []⟩)],
  [(("servers".toList, "production".toList), 6)]⟩

def Out.isPanic : Out → Bool
  | .panic => true
  | _ => false
def Out.isError : Out → Bool
  | .error => true
  | _ => false
def Out.foundOther : Out → Option Nat
  | .found (.other _ i) => some i
  | _ => none

/-- **C46 is violated** (1): the JSON pointer of a property, `…/properties/b`, crashes; so does
`…/headers/b` in a message. -/
theorem C46_violated_json_pointer :
    (schA.pointer ["properties".toList, "b".toList]).isSome = true ∧
    (lookup v3 doc0 [] .schema "#/components/schemas/A/properties/b".toList).isPanic = true ∧
    (lookup v3 doc0 [] .schema "#/components/messages/M/headers/b".toList).isPanic = true := by decide

/-- **C46 is violated** (2): what follows the name of a component is ignored. -/
theorem C46_violated_tail :
    (lookup v3 doc0 [] (.other "parameters".toList) "#/components/parameters/p/no/such/thing".toList).foundOther = some 4 := by
  decide

/-- **C46 is violated** (3): escapes of JSON pointers are not decoded (`~1` is `/`). -/
theorem C46_violated_escape : doc0.channels.get "a/b".toList = some ⟨5, []⟩ ∧
    (lookup v3 doc0 [] .channel "#/channels/a~1b".toList).isError = true := by
  constructor
  · rfl
  · decide

/-- **C46 is violated** (4): the servers and operations at the root of a document cannot be referenced, although the
servers of a channel are references to them. -/
theorem C46_violated_root : doc0.roots.get ("servers".toList, "production".toList) = some 6 ∧
    ∀ t, lookup v3 doc0 [] t "#/servers/production".toList = .error := by
  constructor
  · rfl
  · intro t
    rfl

/-- Non-vacuity: a channel of the components is found as a channel. -/
example : (lookup v3 doc0 [] .channel "#/components/channels/c".toList).foundOther = some 7 := by decide

/-- **C47 is violated**: short references and paths through missing elements crash, in both versions. -/
theorem C47_violated :
    (lookup v3 doc0 [] .schema "#/components".toList).isPanic = true ∧
    (lookup v3 doc0 [] .schema "#/components/schemas".toList).isPanic = true ∧
    (lookup v3 doc0 [] .channel "#/channels".toList).isPanic = true ∧
    (lookup v3 doc0 [] .message "#/channels/none/messages/m".toList).isPanic = true ∧
    (lookup v2 doc0 [] .message "#/components".toList).isPanic = true ∧
    (lookup v2 doc0 [] .schema "#/components/schemas/None/x".toList).isPanic = true := by decide

/-- Non-vacuity: a property found by the notation the code supports. -/
example : At v3 doc0 [kwComponents, kwMessages, "M".toList, kwPayload, "b".toList] (.schema schB) :=
  .message rfl (.payload rfl (.prop rfl (.here _)))

example : (match lookup v3 doc0 [] .schema "#/components/messages/M/payload/b".toList with
    | .found (.schema (.mk i _)) => some i
    | _ => none) = some 2 := by decide

/-- Non-vacuity: a path that crashes, and two that do not. -/
example : Crash v3 doc0 [kwComponents, kwSchemas, "A".toList, "none".toList, "x".toList] :=
  .schema ⟨["none".toList], "x".toList, [], rfl, fun s' t h hi => by
    have hA : doc0.schemas.get "A".toList = some schA := rfl
    have hn : schA.prop "none".toList = none := rfl
    rw [hA] at h
    rw [← Option.some.inj h] at hi
    cases hi with
    | prop h1 _ => rw [hn] at h1; simp at h1⟩
example : ¬ Crash v3 doc0 [kwChannels, "none".toList] := by
  intro h
  cases h

end Verif.Refs
