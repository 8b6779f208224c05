import Verif.Spec.Decode

/-!
# Lemmas on decoding documents
-/

namespace Verif.Decode

/-! ## Numbers -/

theorem natOf_append (a : Nat) (s t : Str) : natOf a (s ++ t) = (natOf a s).bind (fun b => natOf b t) := by
  induction s generalizing a with
  | nil => rfl
  | cons c s ih =>
    simp only [List.cons_append, natOf]
    cases Json.isDigit c with
    | false => rfl
    | true => exact ih _

theorem natOf_digit (a : Nat) : ∀ n, n < 10 → natOf a [Nat.digitChar n] = some (a * 10 + n)
  | 0, _ => by rfl
  | 1, _ => by rfl
  | 2, _ => by rfl
  | 3, _ => by rfl
  | 4, _ => by rfl
  | 5, _ => by rfl
  | 6, _ => by rfl
  | 7, _ => by rfl
  | 8, _ => by rfl
  | 9, _ => by rfl

theorem natOf_toDigits (n : Nat) : natOf 0 (Nat.toDigits 10 n) = some n := by
  induction n using Nat.strongRecOn with
  | _ n ih =>
    by_cases h : n < 10
    · rw [Nat.toDigits_of_lt_base h, natOf_digit 0 n h]
      simp
    · rw [Nat.toDigits_of_base_le (by omega) (by omega), natOf_append, ih (n / 10) (by omega)]
      simp only [Option.bind_some]
      rw [natOf_digit _ _ (by omega)]
      congr 1
      omega

theorem parseUint_toDigits {n : Nat} (h : n < 2 ^ 64) : parseUint (Nat.toDigits 10 n) = some n := by
  have hn := natOf_toDigits n
  cases e : Nat.toDigits 10 n with
  | nil => exact absurd e Nat.toDigits_ne_nil
  | cons c s =>
    rw [e] at hn
    simp only [parseUint, hn]
    rw [if_pos h]

/-! ## Fields -/

theorem exactField_some {ν : Type} {k : Str} {fs : List (Str × Ty ν)} {f : Str × Ty ν}
    (h : exactField k fs = some f) : f ∈ fs ∧ f.1 = k := by
  induction fs with
  | nil => cases h
  | cons g fs ih =>
    rw [exactField] at h
    by_cases e : g.1 = k
    · rw [if_pos e] at h
      cases h
      exact ⟨List.mem_cons_self, e⟩
    · rw [if_neg e] at h
      exact ⟨List.mem_cons_of_mem _ (ih h).1, (ih h).2⟩

theorem foldField_some {ν : Type} {k : Str} {fs : List (Str × Ty ν)} {f : Str × Ty ν}
    (h : foldField k fs = some f) : f ∈ fs ∧ fold f.1 = fold k := by
  induction fs with
  | nil => cases h
  | cons g fs ih =>
    rw [foldField] at h
    by_cases e : fold g.1 = fold k
    · rw [if_pos e] at h
      cases h
      exact ⟨List.mem_cons_self, e⟩
    · rw [if_neg e] at h
      exact ⟨List.mem_cons_of_mem _ (ih h).1, (ih h).2⟩

/-- The field of a member has its name, up to case. -/
theorem findField_some {ν : Type} {k : Str} {fs : List (Str × Ty ν)} {f : Str × Ty ν}
    (h : findField k fs = some f) : f ∈ fs ∧ fold f.1 = fold k := by
  unfold findField at h
  cases e : exactField k fs with
  | some g =>
    rw [e] at h
    cases h
    obtain ⟨a, b⟩ := exactField_some e
    exact ⟨a, by rw [b]⟩
  | none =>
    rw [e] at h
    exact foldField_some h

/-! ## Shapes and types -/

/-- Every value of the shape is decoded into the type. -/
def ok {σ ν : Type} [DecidableEq ν] (go : σ → ν) : Sh σ → Ty ν → Bool
  | .string, .str => true
  | .boolean, .bool => true
  | .number, .float => true
  | .digits, .uint => true
  | .anything, .any => true
  | .null, _ => true
  | .never, _ => true
  | .list a, .list t => ok go a t
  | .map a, .dict t => ok go a t
  | .obj s, .struct n => decide (go s = n)
  | .either a b, t => ok go a t && ok go b t
  | _, _ => false

/-- A name that begins with `x-`, up to case. -/
def xName (k : Str) : Bool :=
  match fold k with
  | 'x' :: '-' :: _ => true
  | _ => false

/-- A keyword of an object has a field of a fitting type, or is skipped. -/
def okField {σ ν : Type} [DecidableEq σ] [DecidableEq ν] (go : σ → ν) (F : ν → List (Str × Ty ν))
    (ignored : List (σ × Str)) (s : σ) (f : Str × Sh σ) : Bool :=
  match findField f.1 (F (go s)) with
  | some g => ok go f.2 g.2
  | none => decide ((s, f.1) ∈ ignored)

/-- The keywords of an object fit the fields of a structure; no two keywords differ in case only; the fields
named `x-…` are keywords. -/
def okObj {σ ν : Type} [DecidableEq σ] [DecidableEq ν] (go : σ → ν) (F : ν → List (Str × Ty ν))
    (T : σ → List (Str × Sh σ)) (ignored : List (σ × Str)) (s : σ) : Bool :=
  (T s).all (okField go F ignored s)
  && decide (((T s).map (fun f => fold f.1)).Nodup)
  && (F (go s)).all (fun g => !xName g.1 || (T s).any (fun f => decide (fold f.1 = fold g.1)))

/-! ## Decoding succeeds -/

theorem decodeList_some {ν : Type} {F : ν → List (Str × Ty ν)} {xs : List Json} {t : Ty ν}
    (h : ∀ x ∈ xs, ∃ v, decode F x t = some v) : ∃ vs, decodeList F xs t = some vs := by
  induction xs with
  | nil => exact ⟨[], by rw [decodeList]⟩
  | cons x xs ih =>
    obtain ⟨v, hv⟩ := h x List.mem_cons_self
    obtain ⟨vs, hvs⟩ := ih (fun y hy => h y (List.mem_cons_of_mem _ hy))
    exact ⟨v :: vs, by rw [decodeList, hv, hvs]⟩

theorem decodeDict_some {ν : Type} {F : ν → List (Str × Ty ν)} {ms : List (Str × Json)} {t : Ty ν}
    (h : ∀ m ∈ ms, ∃ v, decode F m.2 t = some v) : ∃ vs, decodeDict F ms t = some vs := by
  induction ms with
  | nil => exact ⟨[], by rw [decodeDict]⟩
  | cons m ms ih =>
    obtain ⟨k, j⟩ := m
    obtain ⟨v, hv⟩ := h (k, j) List.mem_cons_self
    obtain ⟨vs, hvs⟩ := ih (fun y hy => h y (List.mem_cons_of_mem _ hy))
    have hv : decode F j t = some v := hv
    exact ⟨(k, v) :: vs, by rw [decodeDict, hv, hvs]⟩

theorem decodeFields_some {ν : Type} {F : ν → List (Str × Ty ν)} {ms : List (Str × Json)}
    {fs : List (Str × Ty ν)}
    (h : ∀ m ∈ ms, ∀ f, findField m.1 fs = some f → ∃ v, decode F m.2 f.2 = some v) :
    ∃ vs, decodeFields F ms fs = some vs := by
  induction ms with
  | nil => exact ⟨[], by rw [decodeFields]⟩
  | cons m ms ih =>
    obtain ⟨k, j⟩ := m
    obtain ⟨vs, hvs⟩ := ih (fun y hy => h y (List.mem_cons_of_mem _ hy))
    cases e : findField k fs with
    | none => exact ⟨vs, by rw [decodeFields, e]; exact hvs⟩
    | some f =>
      obtain ⟨v, hv⟩ := h (k, j) List.mem_cons_self f e
      have hv : decode F j f.2 = some v := hv
      exact ⟨(f.1, v) :: vs, by rw [decodeFields, e]; simp only [hv, hvs]⟩

theorem xName_of_extra {σ : Type} {T : σ → List (Str × Sh σ)} {s : σ} {k : Str} (h : Extra T s k) :
    ∃ r, fold k = 'x' :: '-' :: r := by
  obtain ⟨⟨r, rfl⟩, _⟩ := h
  exact ⟨fold r, rfl⟩

/-- The names that are no keywords have no field. -/
theorem extra_none {σ ν : Type} [DecidableEq σ] [DecidableEq ν] {go : σ → ν} {F : ν → List (Str × Ty ν)}
    {T : σ → List (Str × Sh σ)} {ignored : List (σ × Str)} {s : σ} (hs : okObj go F T ignored s = true)
    {k : Str} (h : Extra T s k) : findField k (F (go s)) = none := by
  cases e : findField k (F (go s)) with
  | none => rfl
  | some g =>
    obtain ⟨hg, hf⟩ := findField_some e
    simp only [okObj, Bool.and_eq_true, List.all_eq_true, Bool.or_eq_true, Bool.not_eq_true',
      List.any_eq_true, decide_eq_true_eq] at hs
    obtain ⟨r, hr⟩ := xName_of_extra h
    rcases hs.2 g hg with hx | ⟨f, hfm, hff⟩
    · rw [xName, hf, hr] at hx
      cases hx
    · exact absurd (hff.trans hf) (h.2 f hfm)

/-- A value of a shape is decoded into a type that fits it. -/
theorem decode_of_conforms {σ ν : Type} [DecidableEq σ] [DecidableEq ν] {go : σ → ν}
    {F : ν → List (Str × Ty ν)} {T : σ → List (Str × Sh σ)} {ignored : List (σ × Str)}
    (hT : ∀ s, okObj go F T ignored s = true) {a : Sh σ} {j : Json} (hc : Conforms T a j) :
    ∀ t, ok go a t = true → ∃ v, decode F j t = some v := by
  induction hc with
  | string s => intro t h; cases t <;> first | (cases h; done) | exact ⟨_, by rw [decode]⟩
  | boolean b => intro t h; cases t <;> first | (cases h; done) | exact ⟨_, by rw [decode]⟩
  | number s _ => intro t h; cases t <;> first | (cases h; done) | exact ⟨_, by rw [decode]⟩
  | natural s _ => intro t h; cases t <;> cases h
  | digits n hn =>
    intro t h
    cases t <;> first | (cases h; done) | exact ⟨.uint n, by rw [decode, parseUint_toDigits hn]; rfl⟩
  | null => intro t _; exact ⟨.zero, by rw [decode]⟩
  | anything j =>
    intro t h
    cases t <;> first | (cases h; done) | skip
    cases j <;> exact ⟨_, by rw [decode]⟩
  | list a xs _ ih =>
    intro t h
    cases t <;> first | (cases h; done) | skip
    rename_i t
    obtain ⟨vs, hvs⟩ := decodeList_some (F := F) (xs := xs) (t := t) (fun x hx => ih x hx t h)
    exact ⟨.list vs, by rw [decode, hvs]; rfl⟩
  | map a ms _ _ ih =>
    intro t h
    cases t <;> first | (cases h; done) | skip
    rename_i t
    obtain ⟨vs, hvs⟩ := decodeDict_some (F := F) (ms := ms) (t := t) (fun x hx => ih x hx t h)
    exact ⟨.dict vs, by rw [decode, hvs]; rfl⟩
  | obj s ms _ hk _ ih =>
    intro t h
    cases t <;> first | (cases h; done) | skip
    rename_i n
    have hn : go s = n := of_decide_eq_true h
    subst hn
    have hs := hT s
    obtain ⟨vs, hvs⟩ := decodeFields_some (F := F) (ms := ms) (fs := F (go s)) (fun m hm f hf => by
      rcases hk m hm with ⟨a, ha⟩ | hx
      · have ho : okField go F ignored s (m.1, a) = true := by
          simp only [okObj, Bool.and_eq_true, List.all_eq_true] at hs
          exact hs.1.1 _ ha
        rw [okField] at ho
        simp only [hf] at ho
        exact ih m hm a ha f.2 ho
      · rw [extra_none hs hx] at hf
        cases hf)
    exact ⟨.struct vs, by rw [decode, hvs]; rfl⟩
  | left a b j _ ih =>
    intro t h
    rw [ok.eq_def] at h
    simp only [Bool.and_eq_true] at h
    exact ih t h.1
  | right a b j _ ih =>
    intro t h
    rw [ok.eq_def] at h
    simp only [Bool.and_eq_true] at h
    exact ih t h.2

/-! ## Where the values are -/

theorem decodeList_length {ν : Type} {F : ν → List (Str × Ty ν)} {xs : List Json} {t : Ty ν} {vs : List Val}
    (h : decodeList F xs t = some vs) : vs.length = xs.length := by
  induction xs generalizing vs with
  | nil => rw [decodeList] at h; cases h; rfl
  | cons x xs ih =>
    rw [decodeList] at h
    cases hx : decode F x t with
    | none => simp [hx] at h
    | some v =>
      cases hxs : decodeList F xs t with
      | none => simp [hx, hxs] at h
      | some ws =>
        simp only [hx, hxs, Option.some.injEq] at h
        subst h
        simp [ih hxs]

theorem decodeList_at {ν : Type} {F : ν → List (Str × Ty ν)} {xs : List Json} {t : Ty ν} {vs : List Val}
    (h : decodeList F xs t = some vs) {i : Nat} {y : Json} (hi : xs[i]? = some y) :
    ∃ v, vs[i]? = some v ∧ decode F y t = some v := by
  induction xs generalizing vs i with
  | nil => cases hi
  | cons x xs ih =>
    rw [decodeList] at h
    cases hx : decode F x t with
    | none => simp [hx] at h
    | some v =>
      cases hxs : decodeList F xs t with
      | none => simp [hx, hxs] at h
      | some ws =>
        simp only [hx, hxs, Option.some.injEq] at h
        subst h
        cases i with
        | zero =>
          simp only [List.getElem?_cons_zero, Option.some.injEq] at hi
          subst hi
          exact ⟨v, rfl, hx⟩
        | succ i =>
          simp only [List.getElem?_cons_succ] at hi
          obtain ⟨w, h1, h2⟩ := ih hxs hi
          exact ⟨w, by simpa using h1, h2⟩

theorem decodeDict_keys {ν : Type} {F : ν → List (Str × Ty ν)} {ms : List (Str × Json)} {t : Ty ν}
    {vs : List (Str × Val)} (h : decodeDict F ms t = some vs) : vs.map Prod.fst = ms.map Prod.fst := by
  induction ms generalizing vs with
  | nil => rw [decodeDict] at h; cases h; rfl
  | cons m ms ih =>
    obtain ⟨k, x⟩ := m
    rw [decodeDict] at h
    cases hx : decode F x t with
    | none => simp [hx] at h
    | some v =>
      cases hxs : decodeDict F ms t with
      | none => simp [hx, hxs] at h
      | some ws =>
        simp only [hx, hxs, Option.some.injEq] at h
        subst h
        simp [ih hxs]

theorem decodeDict_at {ν : Type} {F : ν → List (Str × Ty ν)} {ms : List (Str × Json)} {t : Ty ν}
    {vs : List (Str × Val)} (h : decodeDict F ms t = some vs) (hd : (ms.map Prod.fst).Nodup) {k : Str}
    {y : Json} (hk : (k, y) ∈ ms) : ∃ v, keyOf k vs = some v ∧ decode F y t = some v := by
  induction ms generalizing vs with
  | nil => cases hk
  | cons m ms ih =>
    obtain ⟨k', x⟩ := m
    rw [decodeDict] at h
    cases hx : decode F x t with
    | none => simp [hx] at h
    | some v =>
      cases hxs : decodeDict F ms t with
      | none => simp [hx, hxs] at h
      | some ws =>
        simp only [hx, hxs, Option.some.injEq] at h
        subst h
        rw [List.map_cons, List.nodup_cons] at hd
        rcases List.mem_cons.1 hk with e | hm
        · cases e
          exact ⟨v, by rw [keyOf, if_pos rfl], hx⟩
        · obtain ⟨w, h1, h2⟩ := ih hxs hd.2 hm
          have hne : ¬ k' = k := by
            rintro rfl
            exact hd.1 (List.mem_map.2 ⟨_, hm, rfl⟩)
          exact ⟨w, by rw [keyOf, if_neg hne, h1], h2⟩

theorem decodeFields_names {ν : Type} {F : ν → List (Str × Ty ν)} {ms : List (Str × Json)}
    {fs : List (Str × Ty ν)} {vs : List (Str × Val)} (h : decodeFields F ms fs = some vs) :
    ∀ f ∈ vs, ∃ m ∈ ms, fold m.1 = fold f.1 := by
  induction ms generalizing vs with
  | nil => rw [decodeFields] at h; cases h; intro f hf; cases hf
  | cons m ms ih =>
    obtain ⟨k', x⟩ := m
    rw [decodeFields] at h
    cases e : findField k' fs with
    | none =>
      simp only [e] at h
      intro f hf
      obtain ⟨m, hm, hmf⟩ := ih h f hf
      exact ⟨m, List.mem_cons_of_mem _ hm, hmf⟩
    | some g =>
      simp only [e] at h
      cases hx : decode F x g.2 with
      | none => simp [hx] at h
      | some v =>
        cases hxs : decodeFields F ms fs with
        | none => simp [hx, hxs] at h
        | some ws =>
          simp only [hx, hxs, Option.some.injEq] at h
          subst h
          intro f hf
          rcases List.mem_cons.1 hf with rfl | hf
          · exact ⟨(k', x), List.mem_cons_self, (findField_some e).2.symm⟩
          · obtain ⟨m, hm, hmf⟩ := ih hxs f hf
            exact ⟨m, List.mem_cons_of_mem _ hm, hmf⟩

theorem decodeFields_at {ν : Type} {F : ν → List (Str × Ty ν)} {ms : List (Str × Json)}
    {fs : List (Str × Ty ν)} {vs : List (Str × Val)} (h : decodeFields F ms fs = some vs)
    (hd : (ms.map Prod.fst).Nodup) {k : Str} (hu : ∀ m ∈ ms, fold m.1 = fold k → m.1 = k) {y : Json}
    (hk : (k, y) ∈ ms) {f : Str × Ty ν} (hf : findField k fs = some f) :
    ∃ v, fieldOf k vs = some v ∧ decode F y f.2 = some v := by
  induction ms generalizing vs with
  | nil => cases hk
  | cons m ms ih =>
    obtain ⟨k', x⟩ := m
    rw [List.map_cons, List.nodup_cons] at hd
    rw [decodeFields] at h
    have hu' := hu (k', x) List.mem_cons_self
    have hu' : fold k' = fold k → k' = k := hu'
    have hne : (k, y) ∈ ms → ¬ k' = k := by
      rintro hm rfl
      exact hd.1 (List.mem_map.2 ⟨_, hm, rfl⟩)
    cases e : findField k' fs with
    | none =>
      simp only [e] at h
      rcases List.mem_cons.1 hk with e' | hm
      · cases e'
        rw [e] at hf
        cases hf
      · exact ih h hd.2 (fun m hm => hu m (List.mem_cons_of_mem _ hm)) hm
    | some g =>
      simp only [e] at h
      cases hx : decode F x g.2 with
      | none => simp [hx] at h
      | some v =>
        cases hxs : decodeFields F ms fs with
        | none => simp [hx, hxs] at h
        | some ws =>
          simp only [hx, hxs, Option.some.injEq] at h
          subst h
          rcases List.mem_cons.1 hk with e' | hm
          · cases e'
            rw [e] at hf
            cases hf
            exact ⟨v, by rw [fieldOf, if_pos (findField_some e).2], hx⟩
          · obtain ⟨w, h1, h2⟩ := ih hxs hd.2 (fun m hm => hu m (List.mem_cons_of_mem _ hm)) hm
            have hg : ¬ fold g.1 = fold k := by
              intro eg
              exact hne hm (hu' ((findField_some e).2.symm.trans eg))
            exact ⟨w, by rw [fieldOf, if_neg hg, h1], h2⟩

/-- No two keywords differ in case only. -/
theorem keyword_unique {σ ν : Type} [DecidableEq σ] [DecidableEq ν] {go : σ → ν} {F : ν → List (Str × Ty ν)}
    {T : σ → List (Str × Sh σ)} {ignored : List (σ × Str)} {s : σ} (hs : okObj go F T ignored s = true)
    {k k' : Str} {a a' : Sh σ} (h : (k, a) ∈ T s) (h' : (k', a') ∈ T s) (e : fold k' = fold k) :
    k' = k ∧ a' = a := by
  simp only [okObj, Bool.and_eq_true, decide_eq_true_eq] at hs
  have hnd := hs.1.2
  have key : ∀ l : List (Str × Sh σ), (l.map (fun f => fold f.1)).Nodup → (k, a) ∈ l → (k', a') ∈ l →
      k' = k ∧ a' = a := by
    intro l
    induction l with
    | nil => intro _ h; cases h
    | cons b l ih =>
      intro hn h1 h2
      rw [List.map_cons, List.nodup_cons] at hn
      rcases List.mem_cons.1 h1 with rfl | h1'
      · rcases List.mem_cons.1 h2 with e2 | h2
        · cases e2; exact ⟨rfl, rfl⟩
        · exact absurd (by rw [← e]; exact List.mem_map_of_mem (f := fun f : Str × Sh σ => fold f.1) h2) hn.1
      · rcases List.mem_cons.1 h2 with rfl | h2
        · exact absurd (List.mem_map.2 ⟨_, h1', e.symm⟩) hn.1
        · exact ih hn.2 h1' h2
  exact key _ hnd h h'

/-- The value of a value of a shape holds it. -/
theorem holds_of_decode {σ ν : Type} [DecidableEq ν] {go : σ → ν}
    {F : ν → List (Str × Ty ν)} {T : σ → List (Str × Sh σ)} {a : Sh σ} {j : Json} (hc : Conforms T a j) :
    ∀ t, ok go a t = true → ∀ v, decode F j t = some v → Holds v j := by
  induction hc with
  | string s =>
    intro t h v hv
    cases t <;> first | (cases h; done) | (rw [decode] at hv; cases hv; rfl)
  | boolean b =>
    intro t h v hv
    cases t <;> first | (cases h; done) | (rw [decode] at hv; cases hv; rfl)
  | number s _ =>
    intro t h v hv
    cases t <;> first | (cases h; done) | (rw [decode] at hv; cases hv; rfl)
  | natural s _ => intro t h; cases t <;> cases h
  | digits n hn =>
    intro t h v hv
    cases t <;> first
      | (cases h; done)
      | (rw [decode, parseUint_toDigits hn] at hv; cases hv; rfl)
  | null => intro t _ v hv; rw [decode] at hv; cases hv; trivial
  | anything j =>
    intro t h v hv
    cases t <;> first | (cases h; done) | skip
    cases j <;> (rw [decode] at hv; cases hv; first | rfl | trivial)
  | list a xs _ _ =>
    intro t h v hv
    cases t <;> first | (cases h; done) | skip
    rename_i t
    rw [decode] at hv
    cases e : decodeList F xs t with
    | none => rw [e] at hv; cases hv
    | some vs => rw [e] at hv; cases hv; exact decodeList_length e
  | map a ms _ _ _ =>
    intro t h v hv
    cases t <;> first | (cases h; done) | skip
    rename_i t
    rw [decode] at hv
    cases e : decodeDict F ms t with
    | none => rw [e] at hv; cases hv
    | some vs => rw [e] at hv; cases hv; exact decodeDict_keys e
  | obj s ms _ _ _ _ =>
    intro t h v hv
    cases t <;> first | (cases h; done) | skip
    rename_i n
    rw [decode] at hv
    cases e : decodeFields F ms (F n) with
    | none => rw [e] at hv; cases hv
    | some vs => rw [e] at hv; cases hv; exact decodeFields_names e
  | left a b j _ ih =>
    intro t h
    rw [ok.eq_def] at h
    simp only [Bool.and_eq_true] at h
    exact ih t h.1
  | right a b j _ ih =>
    intro t h
    rw [ok.eq_def] at h
    simp only [Bool.and_eq_true] at h
    exact ih t h.2

/-- What is at a place of the document is at that place of the structures. -/
theorem valAt_of_reach {σ ν : Type} [DecidableEq σ] [DecidableEq ν] {go : σ → ν}
    {F : ν → List (Str × Ty ν)} {T : σ → List (Str × Sh σ)} {ignored : List (σ × Str)}
    (hT : ∀ s, okObj go F T ignored s = true) {a : Sh σ} {j : Json} {p : List Step} {x : Json}
    (hr : Reach T ignored a j p x) :
    Conforms T a j → ∀ t, ok go a t = true → ∀ v, decode F j t = some v →
      ∃ y, valAt v p = some y ∧ Holds y x := by
  induction hr with
  | here a j h => intro _ t ht v hv; exact ⟨v, by cases v <;> rfl, holds_of_decode h t ht v hv⟩
  | list a xs i y p x hi _ ih =>
    intro hc t ht v hv
    cases t <;> first | (cases ht; done) | skip
    rename_i t
    rw [decode] at hv
    cases e : decodeList F xs t with
    | none => rw [e] at hv; cases hv
    | some vs =>
      rw [e] at hv
      cases hv
      obtain ⟨w, h1, h2⟩ := decodeList_at e hi
      cases hc with
      | list _ _ h =>
        obtain ⟨z, hz, hz'⟩ := ih (h y (List.mem_of_getElem? hi)) t ht w h2
        exact ⟨z, by simp only [valAt, h1, hz], hz'⟩
  | map a ms k y p x hk _ ih =>
    intro hc t ht v hv
    cases t <;> first | (cases ht; done) | skip
    rename_i t
    rw [decode] at hv
    cases e : decodeDict F ms t with
    | none => rw [e] at hv; cases hv
    | some vs =>
      rw [e] at hv
      cases hv
      cases hc with
      | map _ _ hd h =>
        obtain ⟨w, h1, h2⟩ := decodeDict_at e hd hk
        obtain ⟨z, hz, hz'⟩ := ih (h _ hk) t ht w h2
        exact ⟨z, by simp only [valAt, h1, hz], hz'⟩
  | obj s ms k a y p x hta hi hk _ ih =>
    intro hc t ht v hv
    cases t <;> first | (cases ht; done) | skip
    rename_i n
    have hn : go s = n := of_decide_eq_true ht
    subst hn
    rw [decode] at hv
    cases e : decodeFields F ms (F (go s)) with
    | none => rw [e] at hv; cases hv
    | some vs =>
      rw [e] at hv
      cases hv
      cases hc with
      | obj _ _ hd hks h =>
        have hs := hT s
        have ho : okField go F ignored s (k, a) = true := by
          have hs' := hs
          simp only [okObj, Bool.and_eq_true, List.all_eq_true] at hs'
          exact hs'.1.1 _ hta
        rw [okField] at ho
        cases ef : findField k (F (go s)) with
        | none =>
          simp only [ef, decide_eq_true_eq] at ho
          exact absurd ho hi
        | some f =>
          simp only [ef] at ho
          have hu : ∀ m ∈ ms, fold m.1 = fold k → m.1 = k := by
            intro m hm hmk
            rcases hks m hm with ⟨a', ha'⟩ | hx
            · exact (keyword_unique hs hta ha' hmk).1
            · exact absurd hmk.symm (hx.2 _ hta)
          obtain ⟨w, h1, h2⟩ := decodeFields_at e hd hu hk ef
          obtain ⟨z, hz, hz'⟩ := ih (h _ hk a hta) f.2 ho w h2
          exact ⟨z, by simp only [valAt, h1, hz], hz'⟩
  | left a b j p x hca _ ih =>
    intro _ t ht
    rw [ok.eq_def] at ht
    simp only [Bool.and_eq_true] at ht
    exact ih hca t ht.1
  | right a b j p x hca _ ih =>
    intro _ t ht
    rw [ok.eq_def] at ht
    simp only [Bool.and_eq_true] at ht
    exact ih hca t ht.2

/-! ## Values that are refused -/

/-- `Inside F t j t' j'`: decoding `j` into the type `t` decodes its part `j'` into the type `t'`. -/
inductive Inside {ν : Type} (F : ν → List (Str × Ty ν)) : Ty ν → Json → Ty ν → Json → Prop
  | refl (t : Ty ν) (j : Json) : Inside F t j t j
  | list (t : Ty ν) (xs : List Json) (x : Json) (t' : Ty ν) (j' : Json) (hx : x ∈ xs)
      (h : Inside F t x t' j') : Inside F (.list t) (.arr xs) t' j'
  | dict (t : Ty ν) (ms : List (Str × Json)) (m : Str × Json) (t' : Ty ν) (j' : Json) (hm : m ∈ ms)
      (h : Inside F t m.2 t' j') : Inside F (.dict t) (.obj ms) t' j'
  | struct (n : ν) (ms : List (Str × Json)) (m : Str × Json) (f : Str × Ty ν) (t' : Ty ν) (j' : Json)
      (hm : m ∈ ms) (hf : findField m.1 (F n) = some f) (h : Inside F f.2 m.2 t' j') :
      Inside F (.struct n) (.obj ms) t' j'

theorem decodeList_none {ν : Type} {F : ν → List (Str × Ty ν)} {xs : List Json} {t : Ty ν} {x : Json}
    (hx : x ∈ xs) (h : decode F x t = none) : decodeList F xs t = none := by
  induction xs with
  | nil => cases hx
  | cons y ys ih =>
    rw [decodeList]
    rcases List.mem_cons.1 hx with rfl | hx
    · rw [h]
    · rw [ih hx]
      cases decode F y t <;> rfl

theorem decodeDict_none {ν : Type} {F : ν → List (Str × Ty ν)} {ms : List (Str × Json)} {t : Ty ν}
    {m : Str × Json} (hm : m ∈ ms) (h : decode F m.2 t = none) : decodeDict F ms t = none := by
  induction ms with
  | nil => cases hm
  | cons y ys ih =>
    obtain ⟨k, j⟩ := y
    rw [decodeDict]
    rcases List.mem_cons.1 hm with rfl | hm
    · have h : decode F j t = none := h
      rw [h]
    · rw [ih hm]
      cases decode F j t <;> rfl

theorem decodeFields_none {ν : Type} {F : ν → List (Str × Ty ν)} {ms : List (Str × Json)}
    {fs : List (Str × Ty ν)} {m : Str × Json} (hm : m ∈ ms) {f : Str × Ty ν} (hf : findField m.1 fs = some f)
    (h : decode F m.2 f.2 = none) : decodeFields F ms fs = none := by
  induction ms with
  | nil => cases hm
  | cons y ys ih =>
    obtain ⟨k, j⟩ := y
    rw [decodeFields]
    rcases List.mem_cons.1 hm with rfl | hm
    · have h : decode F j f.2 = none := h
      have hf : findField k fs = some f := hf
      simp only [hf, h]
    · cases e : findField k fs with
      | none => exact ih hm
      | some g =>
        simp only [ih hm]
        cases decode F j g.2 <;> rfl

/-- A document is refused with any of its parts. -/
theorem decode_none_of_inside {ν : Type} {F : ν → List (Str × Ty ν)} {t t' : Ty ν} {j j' : Json}
    (hi : Inside F t j t' j') (h : decode F j' t' = none) : decode F j t = none := by
  induction hi with
  | refl => exact h
  | list t xs x t' j' hx _ ih => rw [decode, decodeList_none hx (ih h)]; rfl
  | dict t ms m t' j' hm _ ih => rw [decode, decodeDict_none hm (ih h)]; rfl
  | struct n ms m f t' j' hm hf _ ih => rw [decode, decodeFields_none hm hf (ih h)]; rfl

/-- A member without field is skipped. -/
theorem decodeFields_skip {ν : Type} {F : ν → List (Str × Ty ν)} (as bs : List (Str × Json))
    {fs : List (Str × Ty ν)} {k : Str} (j : Json) (h : findField k fs = none) :
    decodeFields F (as ++ (k, j) :: bs) fs = decodeFields F (as ++ bs) fs := by
  induction as with
  | nil => rw [List.nil_append, decodeFields, h]; rfl
  | cons a as ih =>
    obtain ⟨k', x⟩ := a
    rw [List.cons_append, List.cons_append, decodeFields, decodeFields, ih]

/-! ## Narrower shapes -/

/-- `Sub a b`: what has the shape `a` has the shape `b`. -/
inductive Sub {σ : Type} : Sh σ → Sh σ → Prop
  | refl (a : Sh σ) : Sub a a
  | never (a : Sh σ) : Sub .never a
  | anything (a : Sh σ) : Sub a .anything
  | digits : Sub .digits .natural
  | list {a b : Sh σ} (h : Sub a b) : Sub (.list a) (.list b)
  | map {a b : Sh σ} (h : Sub a b) : Sub (.map a) (.map b)
  | split {a b c : Sh σ} (h : Sub a c) (h' : Sub b c) : Sub (.either a b) c
  | left {a b c : Sh σ} (h : Sub a b) : Sub a (.either b c)
  | right {a b c : Sh σ} (h : Sub a c) : Sub a (.either b c)

theorem narrowSh_sub {σ : Type} (a : Sh σ) : Sub (narrowSh a) a := by
  induction a with
  | either a b iha ihb =>
    cases b <;> first
      | exact .left iha
      | exact .split (.left iha) (.right ihb)
  | natural => exact .digits
  | list a ih => exact .list ih
  | map a ih => exact .map ih
  | _ => exact .refl _

/-- A decision of `Sub`, good enough for the tables. -/
def subB {σ : Type} [DecidableEq σ] : Nat → Sh σ → Sh σ → Bool
  | 0, _, _ => false
  | n + 1, a, b =>
    decide (a = b) ||
    (match a, b with
      | .never, _ => true
      | _, .anything => true
      | .digits, .natural => true
      | .list a, .list b => subB n a b
      | .map a, .map b => subB n a b
      | .either a a', b => subB n a b && subB n a' b
      | a, .either b b' => subB n a b || subB n a b'
      | _, _ => false)

theorem sub_of_subB {σ : Type} [DecidableEq σ] {n : Nat} {a b : Sh σ} (h : subB n a b = true) : Sub a b := by
  induction n generalizing a b with
  | zero => cases h
  | succ n ih =>
    rw [subB.eq_def] at h
    simp only [Bool.or_eq_true] at h
    rcases h with h | h
    · rw [of_decide_eq_true h]
      exact .refl _
    · split at h
      · exact .never _
      · exact .anything _
      · exact .digits
      · exact .list (ih h)
      · exact .map (ih h)
      · rw [Bool.and_eq_true] at h
        exact .split (ih h.1) (ih h.2)
      · rw [Bool.or_eq_true] at h
        rcases h with h | h
        · exact .left (ih h)
        · exact .right (ih h)
      · cases h

theorem conforms_mono {σ : Type} {T T' : σ → List (Str × Sh σ)}
    (hk : ∀ s k a, (k, a) ∈ T s → ∃ b, (k, b) ∈ T' s)
    (hs : ∀ s k b, (k, b) ∈ T' s → ∃ a, (k, a) ∈ T s ∧ Sub a b) :
    ∀ n, ∀ j : Json, sizeOf j ≤ n → ∀ a b, Sub a b → Conforms T a j → Conforms T' b j := by
  intro n
  induction n with
  | zero => intro j hj; cases j <;> simp at hj
  | succ n ih =>
    have self : ∀ j : Json, sizeOf j ≤ n + 1 → ∀ a, Conforms T a j → Conforms T' a j := by
      intro j hj a hc
      induction hc with
      | string s => exact .string s
      | boolean b => exact .boolean b
      | number t h => exact .number t h
      | natural t h => exact .natural t h
      | digits m h => exact .digits m h
      | null => exact .null
      | anything j => exact .anything j
      | list a xs h _ =>
        refine .list a xs (fun x hx => ih x ?_ a a (.refl _) (h x hx))
        have := List.sizeOf_lt_of_mem hx
        simp at hj
        omega
      | map a ms hd h _ =>
        refine .map a ms hd (fun m hm => ih m.2 ?_ a a (.refl _) (h m hm))
        have := List.sizeOf_lt_of_mem hm
        have h2 : sizeOf m = 1 + sizeOf m.1 + sizeOf m.2 := by cases m; simp
        simp at hj
        omega
      | obj s ms hd hks h _ =>
        refine .obj s ms hd (fun m hm => ?_) (fun m hm b hb => ?_)
        · rcases hks m hm with ⟨a, ha⟩ | ⟨hx, hn⟩
          · exact .inl (hk s _ a ha)
          · refine .inr ⟨hx, fun f hf => ?_⟩
            obtain ⟨a, ha, _⟩ := hs s f.1 f.2 hf
            exact hn (f.1, a) ha
        · obtain ⟨a, ha, hab⟩ := hs s _ b hb
          refine ih m.2 ?_ a b hab (h m hm a ha)
          have := List.sizeOf_lt_of_mem hm
          have h2 : sizeOf m = 1 + sizeOf m.1 + sizeOf m.2 := by cases m; simp
          simp at hj
          omega
      | left a b j _ ih' => exact .left a b j (ih' hj)
      | right a b j _ ih' => exact .right a b j (ih' hj)
    intro j hj a b hab
    induction hab with
    | refl a => exact self j hj a
    | never a => intro hc; cases hc
    | anything a => intro _; exact .anything j
    | digits => intro hc; cases hc with | digits m h => exact .natural _ ⟨m, [], by simp, .inl rfl⟩
    | list h _ =>
      intro hc
      cases hc with
      | list _ xs hx =>
        refine .list _ xs (fun x hm => ih x ?_ _ _ h (hx x hm))
        have := List.sizeOf_lt_of_mem hm
        simp at hj
        omega
    | map h _ =>
      intro hc
      cases hc with
      | map _ ms hd hx =>
        refine .map _ ms hd (fun m hm => ih m.2 ?_ _ _ h (hx m hm))
        have := List.sizeOf_lt_of_mem hm
        have h2 : sizeOf m = 1 + sizeOf m.1 + sizeOf m.2 := by cases m; simp
        simp at hj
        omega
    | split _ _ iha ihb =>
      intro hc
      cases hc with
      | left _ _ _ h => exact iha h
      | right _ _ _ h => exact ihb h
    | left _ ih' => intro hc; exact .left _ _ _ (ih' hc)
    | right _ ih' => intro hc; exact .right _ _ _ (ih' hc)

/-! ## Checking concrete documents -/

/-- The number of zeros of a fraction `.0…0`. -/
def zeros : Str → Option Nat
  | [] => none
  | c :: f => if c = '.' ∧ f ≠ [] ∧ f = List.replicate f.length '0' then some (f.length - 1) else none

/-- A non-negative integer, checked. -/
def naturalB (t : Str) : Bool :=
  match natOf 0 (t.takeWhile Json.isDigit) with
  | none => false
  | some n =>
    decide (t = Nat.toDigits 10 n) ||
    (match zeros (t.dropWhile Json.isDigit) with
      | some m => decide (t = Nat.toDigits 10 n ++ '.' :: List.replicate (m + 1) '0')
      | none => false)

/-- `Conforms`, checked to some depth. -/
def conformsB {σ : Type} [DecidableEq σ] (T : σ → List (Str × Sh σ)) : Nat → Sh σ → Json → Bool
  | 0, _, _ => false
  | n + 1, a, j =>
    match a, j with
    | .string, .str _ => true
    | .boolean, .bool _ => true
    | .number, .num t => Json.isNumber t
    | .natural, .num t => naturalB t
    | .digits, .num t =>
      match natOf 0 t with
      | some m => decide (m < 2 ^ 64) && decide (t = Nat.toDigits 10 m)
      | none => false
    | .null, .null => true
    | .anything, _ => true
    | .list a, .arr xs => xs.all (conformsB T n a)
    | .map a, .obj ms => decide ((ms.map Prod.fst).Nodup) && ms.all (fun m => conformsB T n a m.2)
    | .obj s, .obj ms =>
      decide ((ms.map Prod.fst).Nodup)
      && ms.all (fun m => (T s).any (fun f => decide (f.1 = m.1))
          || (decide (m.1.take 2 = ['x', '-']) && (T s).all (fun f => !decide (fold f.1 = fold m.1))))
      && ms.all (fun m => (T s).all (fun f => !decide (f.1 = m.1) || conformsB T n f.2 m.2))
    | .either a b, j => conformsB T n a j || conformsB T n b j
    | _, _ => false

theorem conforms_of_check {σ : Type} [DecidableEq σ] {T : σ → List (Str × Sh σ)} {n : Nat} {a : Sh σ}
    {j : Json} (h : conformsB T n a j = true) : Conforms T a j := by
  induction n generalizing a j with
  | zero => cases h
  | succ n ih =>
    rw [conformsB.eq_def] at h
    simp only at h
    split at h
    · exact .string _
    · exact .boolean _
    · exact .number _ h
    · refine .natural _ ?_
      rw [naturalB] at h
      split at h
      · cases h
      · rename_i m _
        rw [Bool.or_eq_true] at h
        rcases h with h | h
        · exact ⟨m, [], by simpa using of_decide_eq_true h, .inl rfl⟩
        · split at h
          · rename_i k _
            exact ⟨m, _, of_decide_eq_true h, .inr ⟨k, rfl⟩⟩
          · cases h
    · split at h
      · rw [Bool.and_eq_true] at h
        rw [of_decide_eq_true h.2]
        exact .digits _ (of_decide_eq_true h.1)
      · cases h
    · exact .null
    · exact .anything _
    · rw [List.all_eq_true] at h
      exact .list _ _ (fun x hx => ih (h x hx))
    · rw [Bool.and_eq_true, List.all_eq_true] at h
      exact .map _ _ (of_decide_eq_true h.1) (fun m hm => ih (h.2 m hm))
    · simp only [Bool.and_eq_true, List.all_eq_true, Bool.or_eq_true, List.any_eq_true, decide_eq_true_eq,
        Bool.not_eq_true', decide_eq_false_iff_not] at h
      refine .obj _ _ h.1.1 (fun m hm => ?_) (fun m hm b hb => ?_)
      · rcases h.1.2 m hm with ⟨f, hf, e⟩ | ⟨hx, hn⟩
        · exact .inl ⟨f.2, by rw [← e]; exact hf⟩
        · refine .inr ⟨⟨m.1.drop 2, ?_⟩, hn⟩
          have e := List.take_append_drop 2 m.1
          rw [hx] at e
          exact e.symm
      · rcases h.2 m hm _ hb with h' | h'
        · exact absurd rfl h'
        · exact ih h'
    · rw [Bool.or_eq_true] at h
      rcases h with h | h
      · exact .left _ _ _ (ih h)
      · exact .right _ _ _ (ih h)
    · cases h

end Verif.Decode
