/-!
# Go maps

A Go `map[K]V` is modelled as an association list.  `get` is the comma-ok lookup (`v, ok := m[k]`),
`put` is `m[k] = v`, `del` is `delete(m, k)`.  Go leaves the iteration order of maps unspecified:
code that ranges over a map is modelled as ranging over an arbitrary permutation of the entries.
-/

namespace Verif

/-- A Go map as an association list (well-formed when keys are distinct, see `GoMap.WF`). -/
abbrev GoMap (K V : Type) := List (K × V)

namespace GoMap

variable {K V : Type} [DecidableEq K]

/-- `v, ok := m[k]` -/
def get (m : GoMap K V) (k : K) : Option V :=
  match m with
  | [] => none
  | (k', v) :: rest => if k' = k then some v else get rest k

/-- `delete(m, k)` -/
def del (m : GoMap K V) (k : K) : GoMap K V :=
  m.filter (fun e => !decide (e.1 = k))

/-- `m[k] = v` -/
def put (m : GoMap K V) (k : K) (v : V) : GoMap K V :=
  (k, v) :: del m k

/-- The keys of a map. -/
def keys (m : GoMap K V) : List K := m.map (·.1)

/-- Keys are distinct: what every Go map satisfies. -/
def WF (m : GoMap K V) : Prop := (keys m).Nodup

@[simp] theorem get_nil (k : K) : get ([] : GoMap K V) k = none := rfl

@[simp] theorem get_cons (k' : K) (v : V) (m : GoMap K V) (k : K) :
    get ((k', v) :: m) k = if k' = k then some v else get m k := rfl

theorem get_del (m : GoMap K V) (k k' : K) :
    get (del m k) k' = if k = k' then none else get m k' := by
  induction m with
  | nil => simp [del]
  | cons e m ih =>
    obtain ⟨a, b⟩ := e
    by_cases h : a = k
    · subst h
      have : del ((a, b) :: m) a = del m a := by simp [del]
      rw [this, ih]
      by_cases h2 : a = k' <;> simp [h2]
    · have : del ((a, b) :: m) k = (a, b) :: del m k := by simp [del, h]
      rw [this, get_cons, ih, get_cons]
      by_cases h2 : a = k'
      · subst h2; simp; intro h3; exact absurd h3.symm h
      · simp [h2]

@[simp] theorem get_put (m : GoMap K V) (k k' : K) (v : V) :
    get (put m k v) k' = if k = k' then some v else get m k' := by
  unfold put
  rw [get_cons, get_del]
  split <;> rfl

theorem get_put_self (m : GoMap K V) (k : K) (v : V) : get (put m k v) k = some v := by simp

theorem get_put_of_ne (m : GoMap K V) {k k' : K} (v : V) (h : k ≠ k') :
    get (put m k v) k' = get m k' := by simp [h]

theorem get_eq_none_iff (m : GoMap K V) (k : K) : get m k = none ↔ k ∉ keys m := by
  induction m with
  | nil => simp [keys]
  | cons e m ih =>
    obtain ⟨a, b⟩ := e
    simp only [get_cons, keys, List.map_cons, List.mem_cons, not_or]
    by_cases h : a = k
    · simp [h]
    · simp only [h, if_false, ih]
      constructor
      · intro h'; exact ⟨fun h2 => h h2.symm, h'⟩
      · intro h'; exact h'.2

theorem mem_keys_iff (m : GoMap K V) (k : K) : k ∈ keys m ↔ ∃ v, get m k = some v := by
  have h := get_eq_none_iff m k
  cases hg : get m k with
  | none => simp [h.mp hg]
  | some v =>
    simp only [Option.some.injEq, exists_eq', iff_true]
    apply Decidable.byContradiction
    intro hn
    have := h.mpr hn
    rw [hg] at this
    cases this

theorem mem_of_get {m : GoMap K V} {k : K} {v : V} (h : get m k = some v) : (k, v) ∈ m := by
  induction m with
  | nil => simp at h
  | cons e m ih =>
    obtain ⟨a, b⟩ := e
    simp only [get_cons] at h
    split at h
    · rename_i hk; subst hk; cases h; simp
    · exact List.mem_cons_of_mem _ (ih h)

omit [DecidableEq K] in
theorem wf_nil : WF ([] : GoMap K V) := by simp [WF, keys]

omit [DecidableEq K] in
theorem wf_cons {k : K} {v : V} {m : GoMap K V} : WF ((k, v) :: m) ↔ k ∉ keys m ∧ WF m := by
  simp [WF, keys]

theorem get_of_mem {m : GoMap K V} (h : WF m) {k : K} {v : V} (hm : (k, v) ∈ m) :
    get m k = some v := by
  induction m with
  | nil => simp at hm
  | cons e m ih =>
    obtain ⟨a, b⟩ := e
    rw [wf_cons] at h
    simp only [List.mem_cons, Prod.mk.injEq] at hm
    rcases hm with ⟨rfl, rfl⟩ | hm
    · simp
    · have hk : k ∈ keys m := List.mem_map_of_mem (f := (·.1)) hm
      have : a ≠ k := by rintro rfl; exact h.1 hk
      simp [this, ih h.2 hm]

theorem keys_del (m : GoMap K V) (k : K) :
    keys (del m k) = (keys m).filter (fun x => !decide (x = k)) := by
  simp [keys, del, List.filter_map]; rfl

theorem wf_del {m : GoMap K V} (h : WF m) (k : K) : WF (del m k) := by
  unfold WF; rw [keys_del]; exact h.sublist List.filter_sublist

theorem wf_put {m : GoMap K V} (h : WF m) (k : K) (v : V) : WF (put m k v) := by
  unfold put; rw [wf_cons]
  refine ⟨?_, wf_del h k⟩
  rw [keys_del]; simp

/-- Iteration order does not matter for lookups: permuted maps have the same lookups. -/
theorem get_perm {m m' : GoMap K V} (hp : m.Perm m') (h : WF m) (k : K) : get m k = get m' k := by
  have h' : WF m' := by
    unfold WF keys at *
    exact (hp.map _).nodup_iff.mp h
  cases hg : get m k with
  | some v => exact (get_of_mem h' (hp.mem_iff.mp (mem_of_get hg))).symm
  | none =>
    cases hg' : get m' k with
    | none => rfl
    | some v =>
      have := get_of_mem h (hp.mem_iff.mpr (mem_of_get hg'))
      rw [hg] at this; cases this

omit [DecidableEq K] in
theorem wf_perm {m m' : GoMap K V} (hp : m.Perm m') (h : WF m) : WF m' := by
  unfold WF keys at *
  exact (hp.map _).nodup_iff.mp h

/-- Filling a new map from a sequence of entries (later ones win). -/
def ofEntries (es : List (K × V)) : GoMap K V := es.foldl (fun m e => put m e.1 e.2) []

theorem get_foldl_put (es : List (K × V)) (h : WF es) : ∀ (m : GoMap K V) (k : K),
    get (es.foldl (fun m e => put m e.1 e.2) m) k = (get es k).orElse (fun _ => get m k) := by
  induction es with
  | nil => intro m k; simp
  | cons e es ih =>
    intro m k
    obtain ⟨a, b⟩ := e
    rw [wf_cons] at h
    simp only [List.foldl_cons]
    rw [ih h.2]
    simp only [get_put, get_cons]
    by_cases hk : a = k
    · subst hk
      rw [(get_eq_none_iff es a).mpr h.1]
      simp
    · simp [hk]

theorem get_ofEntries (es : List (K × V)) (h : WF es) (k : K) : get (ofEntries es) k = get es k := by
  unfold ofEntries
  rw [get_foldl_put es h]
  simp

theorem wf_ofEntries (es : List (K × V)) : WF (ofEntries es) := by
  unfold ofEntries
  suffices ∀ m : GoMap K V, WF m → WF (es.foldl (fun m e => put m e.1 e.2) m) from this _ wf_nil
  induction es with
  | nil => intro m h; exact h
  | cons e es ih => intro m h; exact ih _ (wf_put h _ _)

/-- Mapping the values of a map. -/
def mapVals {W : Type} (f : V → W) (m : GoMap K V) : GoMap K W := m.map (fun e => (e.1, f e.2))

theorem get_mapVals {W : Type} (f : V → W) (m : GoMap K V) (k : K) :
    get (mapVals f m) k = (get m k).map f := by
  induction m with
  | nil => rfl
  | cons e m ih =>
    obtain ⟨a, b⟩ := e
    show get ((a, f b) :: mapVals f m) k = _
    simp only [get_cons]
    split
    · rfl
    · exact ih

omit [DecidableEq K] in
theorem wf_mapVals {W : Type} (f : V → W) (m : GoMap K V) (h : WF m) : WF (mapVals f m) := by
  unfold WF keys mapVals at *
  simpa [List.map_map, Function.comp_def] using h

end GoMap
end Verif
