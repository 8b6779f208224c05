import Verif.Model.Reflect

/-!
# C120: `FieldValueExists` says whether a field has a value
-/

namespace Verif.Reflect

/-! ## Specification -/

/-- A field inside a value, and whether it is hidden: unexported, or inside something unexported. -/
inductive Inside (heap : Nat → RV) : RV → Bool → F → Bool → Prop
  | ptr {a : Nat} {ro : Bool} {f : F} {r : Bool} : Inside heap (heap a) ro f r → Inside heap (.ptr (some a)) ro f r
  | here {fs : List F} {ro : Bool} {f : F} : f ∈ fs → Inside heap (.struct fs) ro f (ro || !f.exported)
  | sub {fs : List F} {ro : Bool} {g f : F} {r : Bool} : g ∈ fs → Inside heap g.value (ro || !g.exported) f r →
      Inside heap (.struct fs) ro f r

/-- Some field of that name, anywhere in the value, has that value. -/
def Has (heap : Nat → RV) (v : RV) (name : Str) (ty want : Nat) : Prop :=
  ∃ f r, Inside heap v false f r ∧ f.name = name ∧ f.value = .leaf ty want

/-- Values without cycles: following pointers ends. `n` counts what there is to see. -/
inductive Ends (heap : Nat → RV) : List RV → Nat → Prop
  | nil : Ends heap [] 0
  | leaf {t v : Nat} {q : List RV} {n : Nat} : Ends heap q n → Ends heap (.leaf t v :: q) (n + 1)
  | nilptr {q : List RV} {n : Nat} : Ends heap q n → Ends heap (.ptr none :: q) (n + 1)
  | ptr {a : Nat} {q : List RV} {n : Nat} : Ends heap (heap a :: q) n → Ends heap (.ptr (some a) :: q) (n + 1)
  | struct {fs : List F} {q : List RV} {m n : Nat} : Ends heap (fs.map F.value) m → Ends heap q n →
      Ends heap (.struct fs :: q) (m + n + 1)

/-! ## Proofs -/

/-- What an answer of `scan` means. -/
def Hit (name : Str) (ty want : Nat) (ro : Bool) (fs : List F) (r : Res) : Prop :=
  ∃ f ∈ fs, f.name = name ∧
    ((r = .panicked ∧ (ro || !f.exported) = true) ∨
      ((ro || !f.exported) = false ∧ ∃ v, f.value = .leaf ty v ∧ ((r = .yes ∧ v = want) ∨ (r = .no ∧ v ≠ want))))

theorem scan_some (name : Str) (ty want : Nat) (ro : Bool) : ∀ (fs : List F) (r : Res), scan name ty want ro fs = some r →
    Hit name ty want ro fs r
  | [], _, h => by cases h
  | f :: fs, r, h => by
    unfold scan at h
    have next : scan name ty want ro fs = some r → Hit name ty want ro (f :: fs) r := fun h => by
      obtain ⟨g, hg, h'⟩ := scan_some name ty want ro fs r h
      exact ⟨g, List.mem_cons_of_mem _ hg, h'⟩
    by_cases hn : f.name = name
    · rw [if_pos hn] at h
      by_cases hr : (ro || !f.exported) = true
      · rw [if_pos hr] at h
        cases h
        exact ⟨f, List.mem_cons_self .., hn, Or.inl ⟨rfl, hr⟩⟩
      · rw [if_neg hr] at h
        cases hv : f.value with
        | leaf t v =>
          rw [hv] at h
          simp only at h
          by_cases ht : t = ty
          · rw [if_pos ht] at h
            subst ht
            refine ⟨f, List.mem_cons_self .., hn, Or.inr ⟨by simpa using hr, v, hv, ?_⟩⟩
            by_cases hw : v = want
            · rw [if_pos hw] at h
              exact Or.inl ⟨(Option.some.inj h).symm, hw⟩
            · rw [if_neg hw] at h
              exact Or.inr ⟨(Option.some.inj h).symm, hw⟩
          · rw [if_neg ht] at h
            exact next h
        | ptr a => rw [hv] at h; exact next h
        | struct gs => rw [hv] at h; exact next h
    · rw [if_neg hn] at h
      exact next h

theorem scan_none (name : Str) (ty want : Nat) (ro : Bool) : ∀ (fs : List F), scan name ty want ro fs = none →
    ∀ f ∈ fs, f.name = name → ∀ v, f.value ≠ .leaf ty v
  | [], _ => nofun
  | f :: fs, h => by
    unfold scan at h
    intro g hg hgn v hv
    by_cases hn : f.name = name
    · rw [if_pos hn] at h
      by_cases hr : (ro || !f.exported) = true
      · rw [if_pos hr] at h; cases h
      · rw [if_neg hr] at h
        rcases List.mem_cons.1 hg with rfl | hg
        · rw [hv] at h
          simp only [if_true] at h
          cases h
        · cases hv' : f.value with
          | leaf t v' =>
            rw [hv'] at h
            simp only at h
            by_cases ht : t = ty
            · rw [if_pos ht] at h; cases h
            · rw [if_neg ht] at h
              exact scan_none name ty want ro fs h g hg hgn v hv
          | ptr a => rw [hv'] at h; exact scan_none name ty want ro fs h g hg hgn v hv
          | struct gs => rw [hv'] at h; exact scan_none name ty want ro fs h g hg hgn v hv
    · rw [if_neg hn] at h
      rcases List.mem_cons.1 hg with rfl | hg
      · exact hn hgn
      · exact scan_none name ty want ro fs h g hg hgn v hv

/-- What an answer means, for all entries of the queue. -/
structure Says (heap : Nat → RV) (name : Str) (ty want : Nat) (q : List (RV × Bool)) (res : Res) : Prop where
  yes : res = .yes → ∃ x ∈ q, ∃ f, Inside heap x.1 x.2 f false ∧ f.name = name ∧ f.value = .leaf ty want
  no : res = .no → (∀ x ∈ q, ∀ f r, Inside heap x.1 x.2 f r → f.name = name → f.value ≠ .leaf ty want) ∨
    ∃ x ∈ q, ∃ f v, Inside heap x.1 x.2 f false ∧ f.name = name ∧ f.value = .leaf ty v ∧ v ≠ want
  panicked : res = .panicked → ∃ x ∈ q, ∃ f, Inside heap x.1 x.2 f true ∧ f.name = name

theorem search_spec (heap : Nat → RV) (name : Str) (ty want : Nat) : ∀ (n : Nat) (q : List (RV × Bool)) (res : Res),
    search heap name ty want n q = some res → Says heap name ty want q res
  | 0, _, _, h => by cases h
  | n + 1, [], res, h => by
    cases h
    exact ⟨nofun, fun _ => Or.inl nofun, nofun⟩
  | n + 1, (v, ro) :: q, res, h => by
    have skip : (∀ f r, ¬ Inside heap v ro f r) → search heap name ty want n q = some res →
        Says heap name ty want ((v, ro) :: q) res := fun hv h => by
      obtain ⟨h1, h2, h3⟩ := search_spec heap name ty want n q res h
      refine ⟨?_, ?_, ?_⟩
      · intro e
        obtain ⟨x, hx, h⟩ := h1 e
        exact ⟨x, List.mem_cons_of_mem _ hx, h⟩
      · intro e
        rcases h2 e with h | ⟨x, hx, h⟩
        · refine Or.inl (fun x hx => ?_)
          rcases List.mem_cons.1 hx with rfl | hx
          · exact fun f r hi => absurd hi (hv f r)
          · exact h x hx
        · exact Or.inr ⟨x, List.mem_cons_of_mem _ hx, h⟩
      · intro e
        obtain ⟨x, hx, h⟩ := h3 e
        exact ⟨x, List.mem_cons_of_mem _ hx, h⟩
    cases v with
    | leaf t w => exact skip (fun f r hi => by cases hi) h
    | ptr a =>
      cases a with
      | none => exact skip (fun f r hi => by cases hi) h
      | some a =>
        obtain ⟨h1, h2, h3⟩ := search_spec heap name ty want n ((heap a, ro) :: q) res h
        have back : ∀ x ∈ (heap a, ro) :: q, ∃ y ∈ (RV.ptr (some a), ro) :: q, ∀ f r, Inside heap x.1 x.2 f r → Inside heap y.1 y.2 f r := by
          intro x hx
          rcases List.mem_cons.1 hx with rfl | hx
          · exact ⟨_, List.mem_cons_self .., fun f r hi => .ptr hi⟩
          · exact ⟨x, List.mem_cons_of_mem _ hx, fun _ _ hi => hi⟩
        refine ⟨?_, ?_, ?_⟩
        · intro e
          obtain ⟨x, hx, f, hi, h⟩ := h1 e
          obtain ⟨y, hy, hb⟩ := back x hx
          exact ⟨y, hy, f, hb _ _ hi, h⟩
        · intro e
          rcases h2 e with h | ⟨x, hx, f, v, hi, h⟩
          · refine Or.inl (fun x hx => ?_)
            rcases List.mem_cons.1 hx with rfl | hx
            · intro f r hi
              cases hi with
              | ptr hi => exact h _ (List.mem_cons_self ..) f r hi
            · exact h x (List.mem_cons_of_mem _ hx)
          · obtain ⟨y, hy, hb⟩ := back x hx
            exact Or.inr ⟨y, hy, f, v, hb _ _ hi, h⟩
        · intro e
          obtain ⟨x, hx, f, hi, h⟩ := h3 e
          obtain ⟨y, hy, hb⟩ := back x hx
          exact ⟨y, hy, f, hb _ _ hi, h⟩
    | struct fs =>
      simp only [search] at h
      cases hs : scan name ty want ro fs with
      | some r =>
        rw [hs] at h
        cases h
        obtain ⟨f, hf, hn, hcase⟩ := scan_some name ty want ro fs res hs
        have hin : Inside heap (.struct fs) ro f (ro || !f.exported) := .here hf
        rcases hcase with ⟨rfl, hr⟩ | ⟨hr, v, hv, ⟨rfl, rfl⟩ | ⟨rfl, hw⟩⟩
        · exact ⟨nofun, nofun, fun _ => ⟨_, List.mem_cons_self .., f, hr ▸ hin, hn⟩⟩
        · exact ⟨fun _ => ⟨_, List.mem_cons_self .., f, hr ▸ hin, hn, hv⟩, nofun, nofun⟩
        · exact ⟨nofun, fun _ => Or.inr ⟨_, List.mem_cons_self .., f, v, hr ▸ hin, hn, hv, hw⟩, nofun⟩
      | none =>
        rw [hs] at h
        simp only at h
        obtain ⟨h1, h2, h3⟩ := search_spec heap name ty want n _ res h
        have back : ∀ x ∈ q ++ fs.map (fun f => (f.value, ro || !f.exported)), ∃ y ∈ (RV.struct fs, ro) :: q,
            ∀ f r, Inside heap x.1 x.2 f r → Inside heap y.1 y.2 f r := by
          intro x hx
          rcases List.mem_append.1 hx with hx | hx
          · exact ⟨x, List.mem_cons_of_mem _ hx, fun _ _ hi => hi⟩
          · obtain ⟨g, hg, rfl⟩ := List.mem_map.1 hx
            exact ⟨_, List.mem_cons_self .., fun f r hi => .sub hg hi⟩
        refine ⟨?_, ?_, ?_⟩
        · intro e
          obtain ⟨x, hx, f, hi, h⟩ := h1 e
          obtain ⟨y, hy, hb⟩ := back x hx
          exact ⟨y, hy, f, hb _ _ hi, h⟩
        · intro e
          rcases h2 e with h | ⟨x, hx, f, v, hi, h⟩
          · refine Or.inl (fun x hx => ?_)
            rcases List.mem_cons.1 hx with rfl | hx
            · intro f r hi
              cases hi with
              | here hf => exact fun hn => scan_none name ty want ro fs hs f hf hn want
              | sub hg hi => exact h _ (List.mem_append_right _ (List.mem_map.2 ⟨_, hg, rfl⟩)) f r hi
            · exact h x (List.mem_append_left _ hx)
          · obtain ⟨y, hy, hb⟩ := back x hx
            exact Or.inr ⟨y, hy, f, v, hb _ _ hi, h⟩
        · intro e
          obtain ⟨x, hx, f, hi, h⟩ := h3 e
          obtain ⟨y, hy, hb⟩ := back x hx
          exact ⟨y, hy, f, hb _ _ hi, h⟩

/-- **C120.** The answer yes is right, for every value. -/
theorem C120_yes (heap : Nat → RV) (v : RV) (name : Str) (ty want n : Nat)
    (h : fieldValueExists heap v name ty want n = some .yes) : Has heap v name ty want := by
  obtain ⟨x, hx, f, hi, hn, hv⟩ := (search_spec heap name ty want n _ _ h).yes rfl
  rw [List.mem_singleton] at hx
  subst hx
  exact ⟨f, false, hi, hn, hv⟩

/-- **C120 (partial).** If all fields of that name and type have one value, and no field of that name is hidden, the answer is
yes exactly when a field has the value, and it is never a panic. Missing for the full claim: fields with different values,
hidden fields. -/
theorem C120_exact_partial (heap : Nat → RV) (v : RV) (name : Str) (ty want n : Nat) (res : Res)
    (h : fieldValueExists heap v name ty want n = some res)
    (hone : ∀ f g r r' a b, Inside heap v false f r → Inside heap v false g r' → f.name = name → g.name = name →
      f.value = .leaf ty a → g.value = .leaf ty b → a = b)
    (hvis : ∀ f r, Inside heap v false f r → f.name = name → r = false) :
    res ≠ .panicked ∧ (res = .yes ↔ Has heap v name ty want) := by
  have hs := search_spec heap name ty want n _ res h
  refine ⟨fun e => ?_, fun e => C120_yes heap v name ty want n (e ▸ h), ?_⟩
  · obtain ⟨x, hx, f, hi, hn⟩ := hs.panicked e
    rw [List.mem_singleton] at hx
    subst hx
    cases hvis f true hi hn
  · rintro ⟨f, r, hi, hn, hv⟩
    cases res with
    | yes => rfl
    | no =>
      rcases hs.no rfl with h | ⟨x, hx, g, w, hi', hn', hv', hw⟩
      · exact absurd hv (h _ (List.mem_singleton.2 rfl) f r hi hn)
      · rw [List.mem_singleton] at hx
        subst hx
        exact absurd (hone g f false r w want hi' hi hn' hn hv' hv) hw
    | panicked =>
      obtain ⟨x, hx, g, hi', hn'⟩ := hs.panicked rfl
      rw [List.mem_singleton] at hx
      subst hx
      cases hvis g true hi' hn'

theorem ends_append {heap : Nat → RV} {p q : List RV} {m n : Nat} (hp : Ends heap p m) (hq : Ends heap q n) :
    Ends heap (p ++ q) (m + n) := by
  induction hp with
  | nil => simpa using hq
  | leaf _ ih => rw [Nat.add_right_comm]; exact .leaf ih
  | nilptr _ ih => rw [Nat.add_right_comm]; exact .nilptr ih
  | ptr _ ih => rw [Nat.add_right_comm]; exact .ptr ih
  | @struct fs q' a b h1 _ _ ih => rw [Nat.add_right_comm, Nat.add_assoc a b n]; exact .struct h1 ih

theorem ends_split {heap : Nat → RV} : ∀ {n : Nat} {v : RV} {q : List RV}, Ends heap (v :: q) n →
    ∃ a b, Ends heap [v] a ∧ Ends heap q b ∧ a + b = n := by
  intro n
  induction n with
  | zero => intro v q h; cases h
  | succ n ih =>
    intro v q h
    cases h with
    | leaf h => exact ⟨1, n, .leaf .nil, h, by omega⟩
    | nilptr h => exact ⟨1, n, .nilptr .nil, h, by omega⟩
    | ptr h =>
      obtain ⟨a, b, h1, h2, e⟩ := ih h
      exact ⟨a + 1, b, .ptr h1, h2, by omega⟩
    | @struct fs _ a b h1 h2 => exact ⟨a + 0 + 1, b, .struct h1 .nil, h2, by omega⟩

theorem search_ends (heap : Nat → RV) (name : Str) (ty want : Nat) : ∀ (n : Nat) (q : List (RV × Bool)),
    Ends heap (q.map (·.1)) n → search heap name ty want (n + 1) q ≠ none
  | 0, q, h => by
    cases q with
    | nil => nofun
    | cons x q => rw [List.map_cons] at h; generalize x.1 = v at h; cases h
  | n + 1, q, h => by
    cases q with
    | nil => nofun
    | cons x q =>
      obtain ⟨v, ro⟩ := x
      cases v with
      | leaf t w =>
        cases h with
        | leaf h => exact search_ends heap name ty want n q h
      | ptr a =>
        cases a with
        | none =>
          cases h with
          | nilptr h => exact search_ends heap name ty want n q h
        | some a =>
          cases h with
          | ptr h => exact search_ends heap name ty want n ((heap a, ro) :: q) h
      | struct fs =>
        rw [search]
        cases hs : scan name ty want ro fs with
        | some r => nofun
        | none =>
          refine search_ends heap name ty want n _ ?_
          have hm : ((q ++ fs.map (fun f => (f.value, ro || !f.exported))).map (·.1)) = q.map (·.1) ++ fs.map F.value := by
            rw [List.map_append, List.map_map]
            rfl
          rw [hm]
          generalize hk : n + 1 = k at h
          cases h with
          | @struct _ _ a b h1 h2 =>
            have : n = b + a := by omega
            rw [this]
            exact ends_append h2 h1

/-- **C120.** On values without cycles, the search ends. -/
theorem C120_ends (heap : Nat → RV) (v : RV) (name : Str) (ty want m : Nat) (h : Ends heap [v] m) :
    fieldValueExists heap v name ty want (m + 1) ≠ none := search_ends heap name ty want m _ h

/-! ## Violations -/

/-- **C120 is violated** as soon as two structs inside the value have a field of that name with different values: only the one
found first counts. -/
theorem C120_violated_first (heap : Nat → RV) (name a b : Str) (ty v w : Nat) (ha : a ≠ name) (hb : b ≠ name) (hvw : v ≠ w) :
    let x : RV := .struct [.mk a true (.struct [.mk name true (.leaf ty v)]), .mk b true (.struct [.mk name true (.leaf ty w)])]
    Has heap x name ty w ∧ ∀ n, fieldValueExists heap x name ty w (n + 2) = some .no := by
  intro x
  refine ⟨⟨.mk name true (.leaf ty w), false, ?_, rfl, rfl⟩, fun n => ?_⟩
  · exact .sub (g := .mk b true _) (List.mem_cons_of_mem _ (List.mem_cons_self ..)) (.here (List.mem_cons_self ..))
  · simp [fieldValueExists, search, x, scan, F.name, F.exported, F.value, ha, hb, hvw]

/-- **C120 is violated** for values that point to themselves: there is no answer, ever. -/
theorem C120_violated_cycle (heap : Nat → RV) (a : Nat) (self name : Str) (hs : self ≠ name)
    (h : heap a = .struct [.mk self true (.ptr (some a))]) (ty want n : Nat) :
    fieldValueExists heap (.ptr (some a)) name ty want n = none := by
  have key : ∀ n, search heap name ty want n [(.ptr (some a), false)] = none ∧
      search heap name ty want n [(heap a, false)] = none := by
    intro n
    induction n with
    | zero => exact ⟨rfl, rfl⟩
    | succ n ih =>
      refine ⟨?_, ?_⟩
      · rw [search]
        exact ih.2
      · rw [h, search]
        simp only [scan, F.name, if_neg hs, List.nil_append, List.map_cons, List.map_nil, F.value, F.exported, Bool.not_true,
          Bool.or_false]
        exact ih.1
  exact (key n).1

/-- **C120 is violated** for values with an unexported field of that name, or with one inside an unexported field: a panic. -/
theorem C120_violated_hidden (heap : Nat → RV) (name a : Str) (ty v want n : Nat) (ha : a ≠ name) :
    fieldValueExists heap (.struct [.mk name false (.leaf ty v)]) name ty want (n + 1) = some .panicked ∧
    fieldValueExists heap (.struct [.mk a false (.struct [.mk name true (.leaf ty v)])]) name ty want (n + 2) = some .panicked := by
  simp [fieldValueExists, search, scan, F.name, F.exported, F.value, ha]

/-! ## An example -/

/-- `struct { A *struct { Kind int } ; N int }`, with the inner struct at address 0. -/
def heap0 : Nat → RV := fun _ => .struct [.mk ['K'] true (.leaf 0 7)]
def value0 : RV := .struct [.mk ['A'] true (.ptr (some 0)), .mk ['N'] true (.leaf 0 3)]

example : fieldValueExists heap0 value0 ['K'] 0 7 6 = some .yes ∧ fieldValueExists heap0 value0 ['K'] 0 8 6 = some .no ∧
    fieldValueExists heap0 value0 ['X'] 0 8 6 = some .no := ⟨rfl, rfl, rfl⟩

example : Ends heap0 [value0] 5 :=
  .struct (m := 4) (n := 0) (.ptr (.struct (m := 1) (n := 1) (.leaf .nil) (.leaf .nil))) .nil

/-- The hypotheses of C120_exact_partial hold. -/
example : (∀ f g r r' a b, Inside heap0 value0 false f r → Inside heap0 value0 false g r' → f.name = ['K'] → g.name = ['K'] →
      f.value = .leaf 0 a → g.value = .leaf 0 b → a = b) ∧
    ∀ f r, Inside heap0 value0 false f r → f.name = ['K'] → r = false := by
  have key : ∀ f r, Inside heap0 value0 false f r → f.name = ['K'] → r = false ∧ f.value = .leaf 0 7 := by
    intro f r h hn
    cases h with
    | here hf =>
      simp only [List.mem_cons, List.not_mem_nil, or_false] at hf
      rcases hf with rfl | rfl <;> cases hn
    | sub hg h =>
      simp only [List.mem_cons, List.not_mem_nil, or_false] at hg
      rcases hg with rfl | rfl
      · cases h with
        | ptr h =>
          simp only [heap0] at h
          cases h with
          | here hf =>
            simp only [List.mem_cons, List.not_mem_nil, or_false] at hf
            subst hf
            exact ⟨rfl, rfl⟩
          | sub hg h =>
            simp only [List.mem_cons, List.not_mem_nil, or_false] at hg
            subst hg
            cases h
      · cases h
  refine ⟨fun f g r r' a b hf hg hn hn' ha hb => ?_, fun f r h hn => (key f r h hn).1⟩
  rw [(key f r hf hn).2] at ha
  rw [(key g r' hg hn').2] at hb
  cases ha
  cases hb
  rfl

end Verif.Reflect
