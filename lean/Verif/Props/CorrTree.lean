import Verif.Model.CorrTree

/-! # C52: the correlation ID property -/

namespace Verif.CorrTree

/-- Following a path of property names. -/
def walk : Tree → List Str → Option Tree
  | t, [] => some t
  | t, v :: rest =>
    match t.props.get v with
    | some c => walk c rest
    | none => none

/-- What is at a path. -/
def view (t : Tree) (q : List Str) : Option Info := (walk t q).map Tree.info

theorem props_node (i : Info) (p : List (Str × Tree)) : (Tree.node i p).props = p := rfl

theorem view_nil (t : Tree) : view t [] = some t.info := rfl

theorem view_cons (t : Tree) (v : Str) (q : List Str) : view t (v :: q) = match t.props.get v with
    | some c => view c q
    | none => none := by
  unfold view
  simp only [walk]
  cases t.props.get v <;> rfl

/-- The names of the types used below. -/
theorem type_names : tyString = "string".toList ∧ tyHeader = "header".toList := by decide

/-- What is created at a path. -/
def created (q p : List Str) : Option Info :=
  if q.isPrefixOf p ∧ q ≠ [] then some ⟨if q = p then tyString else tyHeader, [], none⟩ else none

theorem view_down_new (p : List Str) : ∀ (ty : Str) (q : List Str),
    view (down (newSchema ty) p) q = if q = [] then some ⟨ty, [], none⟩ else created q p := by
  induction p with
  | nil =>
    intro ty q
    cases q with
    | nil => rfl
    | cons v q => simp [down, view_cons, newSchema, props_node, GoMap.get_nil, created, List.isPrefixOf]
  | cons w p ih =>
    intro ty q
    cases q with
    | nil => simp [down, view_nil, newSchema, Tree.info]
    | cons v q =>
      simp only [down, view_cons, newSchema, props_node, GoMap.get_nil, GoMap.get_put]
      by_cases hwv : w = v
      · subst hwv
        simp only [if_true]
        have := ih (if p = [] then tyString else tyHeader) q
        rw [show newSchema (if p = [] then tyString else tyHeader) = Tree.node ⟨if p = [] then tyString else tyHeader, [], none⟩ [] from rfl] at this
        rw [this]
        by_cases hq : q = []
        · subst hq
          cases p <;> simp [created, List.isPrefixOf]
        · simp [created, List.isPrefixOf, hq]
      · have hvw : ¬ (v = w) := fun h => hwv h.symm
        simp [hwv, created, List.isPrefixOf, hvw]

/-- **C52 (exactly what changes).** For every schema, every path and every place: what was there is unchanged,
and what is created is exactly the missing part of the path, the last element a string. -/
theorem C52_exactly (p : List Str) : ∀ (t : Tree) (q : List Str), view (down t p) q = match view t q with
    | some i => some i
    | none => created q p := by
  induction p with
  | nil =>
    intro t q
    simp only [down]
    cases h : view t q with
    | some i => rfl
    | none => cases q <;> simp_all [created, List.isPrefixOf, view_nil]
  | cons w p ih =>
    intro t q
    cases q with
    | nil => rfl
    | cons v q =>
      simp only [down, view_cons, props_node, GoMap.get_put]
      by_cases hwv : w = v
      · subst hwv
        simp only [if_true]
        have hcr : ∀ q, created (w :: q) (w :: p) = if q = [] then some ⟨if p = [] then tyString else tyHeader, [], none⟩ else created q p := by
          intro q
          by_cases hq : q = []
          · subst hq; cases p <;> simp [created, List.isPrefixOf]
          · simp [created, List.isPrefixOf, hq]
        cases h : t.props.get w with
        | some c =>
          simp only
          rw [ih c q]
          cases hv : view c q with
          | some i => rfl
          | none =>
            simp only
            rw [hcr]
            cases q with
            | nil => cases hv
            | cons => simp
        | none =>
          simp only
          rw [view_down_new, hcr]
      · have hvw : ¬ (v = w) := fun h => hwv h.symm
        simp only [hwv, if_false]
        cases h : t.props.get v with
        | some c => simp only; cases view c q <;> simp [created, List.isPrefixOf, hvw]
        | none => simp [created, List.isPrefixOf, hvw]

/-- **C52 (reached; partial: the location is in a schema given in place, and what exists at the location is a
string).** For every such schema and non-empty path: following the path reaches a string. Missing: locations
that exist with another type, which are left as they are, and schemas given by reference (below). -/
theorem C52_reached_partial (t : Tree) (p : List Str) (hp : p ≠ []) (h : ∀ i, view t p = some i → i.type = tyString) :
    ∃ i, view (down t p) p = some i ∧ i.type = tyString := by
  rw [C52_exactly]
  cases hv : view t p with
  | some i => exact ⟨i, rfl, h i hv⟩
  | none =>
    refine ⟨⟨tyString, [], none⟩, ?_, rfl⟩
    have : p.isPrefixOf p = true := by simp
    simp [created, hp]

/-- **C52 (unchanged).** For every message and location: whatever was in the headers and the payload is
unchanged. -/
theorem C52_unchanged (msg : Msg) (location : Str) (q : List Str) (i : Info) :
    (∀ t, msg.headers = some t → view t q = some i → ∃ t', (createTree msg location).headers = some t' ∧ view t' q = some i) ∧
    (∀ t, msg.payload = some t → view t q = some i → ∃ t', (createTree msg location).payload = some t' ∧ view t' q = some i) := by
  unfold createTree
  constructor
  · intro t ht hv
    cases fieldOf location
    · exact ⟨_, rfl, by rw [ht]; simp only [placeholder]; rw [C52_exactly, hv]⟩
    · exact ⟨t, ht, hv⟩
    · exact ⟨t, ht, hv⟩
  · intro t ht hv
    cases fieldOf location
    · exact ⟨t, ht, hv⟩
    · exact ⟨_, rfl, by rw [ht]; simp only [placeholder]; rw [C52_exactly, hv]⟩
    · exact ⟨t, ht, hv⟩

theorem split_prefix (pre : Str) (hpre : '/' ∉ pre) (ts : List Str) (hne : ts ≠ []) (hts : ∀ t ∈ ts, '/' ∉ t) :
    pathOf (pre ++ '/' :: Str.join '/' ts) = ts := by
  unfold pathOf
  rw [Str.split_append '/' pre _ hpre, List.tail_cons, Str.split_join '/' ts hne hts]

theorem isPrefixOf_append (a b : Str) : a.isPrefixOf (a ++ b) = true := by
  rw [List.isPrefixOf_iff_prefix]; exact List.prefix_append a b

theorem createTree_location (msg : Msg) (ts : List Str) (hne : ts ≠ []) (hts : ∀ t ∈ ts, '/' ∉ t) :
    createTree msg (headerPrefix ++ '/' :: Str.join '/' ts) = { msg with headers := some (down (placeholder msg.headers) ts) } ∧
    createTree msg (payloadPrefix ++ '/' :: Str.join '/' ts) = { msg with payload := some (down (placeholder msg.payload) ts) } := by
  have h1 : fieldOf (headerPrefix ++ '/' :: Str.join '/' ts) = .header := by
    unfold fieldOf
    rw [if_neg (by simp), if_pos (isPrefixOf_append _ _)]
  have h2 : fieldOf (payloadPrefix ++ '/' :: Str.join '/' ts) = .payload := by
    unfold fieldOf
    have hn : headerPrefix.isPrefixOf (payloadPrefix ++ '/' :: Str.join '/' ts) = false := by
      simp [headerPrefix, payloadPrefix, List.isPrefixOf]
    rw [if_neg (by simp), if_neg (by rw [hn]; simp), if_pos (isPrefixOf_append _ _)]
  unfold createTree
  rw [h1, h2, split_prefix headerPrefix (by decide) ts hne hts, split_prefix payloadPrefix (by decide) ts hne hts]
  exact ⟨rfl, rfl⟩

/-- What is at a path of the headers or the payload, if any. -/
def viewPart (o : Option Tree) (q : List Str) : Option Info :=
  match o with
  | some t => view t q
  | none => none

/-- What should be at a path once the correlation ID is created: what was there, an object for a part that was
missing, what is created on the path. -/
def afterwards (o : Option Tree) (ts q : List Str) : Option Info :=
  match viewPart o q with
  | some i => some i
  | none => if q = [] then some ⟨"object".toList, [], none⟩ else created q ts

theorem view_placeholder (o : Option Tree) (ts q : List Str) : view (down (placeholder o) ts) q = afterwards o ts q := by
  unfold afterwards viewPart
  cases o with
  | none => simp only [placeholder]; rw [view_down_new]; rfl
  | some t =>
    simp only [placeholder]
    rw [C52_exactly]
    cases hv : view t q with
    | some i => rfl
    | none =>
      cases q with
      | nil => rw [view_nil] at hv; cases hv
      | cons v q => rfl

/-- **C52 (location).** For every message and every non-empty path of names without `/`: a location in the
headers creates the path in the headers, one in the payload creates it in the payload, and the other part of
the message is unchanged. -/
theorem C52_location (msg : Msg) (ts : List Str) (hne : ts ≠ []) (hts : ∀ t ∈ ts, '/' ∉ t) :
    (let m := createTree msg ("$message.header#/".toList ++ Str.join '/' ts)
     m.payload = msg.payload ∧ ∀ q, viewPart m.headers q = afterwards msg.headers ts q) ∧
    (let m := createTree msg ("$message.payload#/".toList ++ Str.join '/' ts)
     m.headers = msg.headers ∧ ∀ q, viewPart m.payload q = afterwards msg.payload ts q) := by
  obtain ⟨h1, h2⟩ := createTree_location msg ts hne hts
  have e1 : "$message.header#/".toList ++ Str.join '/' ts = headerPrefix ++ '/' :: Str.join '/' ts := rfl
  have e2 : "$message.payload#/".toList ++ Str.join '/' ts = payloadPrefix ++ '/' :: Str.join '/' ts := rfl
  rw [e1, e2, h1, h2]
  exact ⟨⟨rfl, fun q => view_placeholder _ _ _⟩, ⟨rfl, fun q => view_placeholder _ _ _⟩⟩

/-- The parent of a path that exists. -/
theorem parentOf_down (p : List Str) : ∀ (t : Tree), p ≠ [] → ∃ q, parentOf (down t p) p = some q ∧
    ∃ i, view (down t p) p.dropLast = some i ∧ q.info = i := by
  induction p with
  | nil => intro t h; exact absurd rfl h
  | cons v p ih =>
    intro t _
    cases p with
    | nil => exact ⟨_, rfl, _, rfl, rfl⟩
    | cons w p =>
      simp only [down]
      obtain ⟨q, hq, i, hi, e⟩ := ih (match t.props.get v with | some c => c | none => newSchema (if w :: p = [] then tyString else tyHeader)) (by simp)
      refine ⟨q, ?_, i, ?_, e⟩
      · simp only [parentOf, props_node, GoMap.get_put, if_true]
        exact hq
      · rw [List.dropLast_cons_cons, view_cons]
        simp only [props_node, GoMap.get_put, if_true]
        exact hi

theorem isInSlice_eq (l : List Str) (x : Str) : Dedup.isInSlice l x = decide (x ∈ l) := by
  induction l with
  | nil => simp [Dedup.isInSlice]
  | cons a l ih =>
    simp only [Dedup.isInSlice, List.mem_cons]
    by_cases h : a = x
    · simp [h]
    · simp [h, ih, Ne.symm h]

/-- Is the last element of a path required by what holds it? What is created requires nothing. -/
def requires (o : Option Tree) (ts : List Str) (hne : ts ≠ []) : Bool :=
  match viewPart o ts.dropLast with
  | some i => decide (ts.getLast hne ∈ i.required)
  | none => false

theorem requires_eq (o : Option Tree) (ts : List Str) (hne : ts ≠ []) :
    ∃ q, parentOf (down (placeholder o) ts) ts = some q ∧
      Dedup.isInSlice q.info.required (ts.getLast hne) = requires o ts hne := by
  obtain ⟨q, hq, i, hi, e⟩ := parentOf_down ts (placeholder o) hne
  refine ⟨q, hq, ?_⟩
  rw [view_placeholder] at hi
  unfold afterwards at hi
  unfold requires
  rw [isInSlice_eq, e]
  cases hv : viewPart o ts.dropLast with
  | some j => rw [hv] at hi; cases hi; rfl
  | none =>
    rw [hv] at hi
    simp only at hi
    split at hi
    · cases hi; simp
    · unfold created at hi
      split at hi
      · cases hi; simp
      · cases hi

/-- **C52 (requirement).** For every message and path: the correlation ID is called required exactly when the
schema that holds it in the document requires it. -/
theorem C52_required (msg : Msg) (ts : List Str) (hne : ts ≠ []) (hts : ∀ t ∈ ts, '/' ∉ t) :
    (generate msg ("$message.header#/".toList ++ Str.join '/' ts)).2 = .ok (requires msg.headers ts hne) ∧
    (generate msg ("$message.payload#/".toList ++ Str.join '/' ts)).2 = .ok (requires msg.payload ts hne) := by
  have e1 : "$message.header#/".toList ++ Str.join '/' ts = headerPrefix ++ '/' :: Str.join '/' ts := rfl
  have e2 : "$message.payload#/".toList ++ Str.join '/' ts = payloadPrefix ++ '/' :: Str.join '/' ts := rfl
  rw [e1, e2]
  have h1 : fieldOf (headerPrefix ++ '/' :: Str.join '/' ts) = .header := by
    unfold fieldOf
    rw [if_neg (by simp), if_pos (isPrefixOf_append _ _)]
  have h2 : fieldOf (payloadPrefix ++ '/' :: Str.join '/' ts) = .payload := by
    unfold fieldOf
    have hn : headerPrefix.isPrefixOf (payloadPrefix ++ '/' :: Str.join '/' ts) = false := by
      simp [headerPrefix, payloadPrefix, List.isPrefixOf]
    rw [if_neg (by simp), if_neg (by rw [hn]; simp), if_pos (isPrefixOf_append _ _)]
  have hlast : ∀ pre : Str, '/' ∉ pre →
      (Str.split '/' (pre ++ '/' :: Str.join '/' ts)).getLast? = some (ts.getLast hne) := by
    intro pre hp
    rw [Str.split_append '/' pre _ hp, Str.split_join '/' ts hne hts, List.getLast?_cons, List.getLast?_eq_some_getLast hne]
    rfl
  constructor
  · obtain ⟨q, hq, e⟩ := requires_eq msg.headers ts hne
    simp only [generate, isRequired, (createTree_location msg ts hne hts).1, h1, top,
      split_prefix headerPrefix (by decide) ts hne hts, hq, hlast headerPrefix (by decide), e]
  · obtain ⟨q, hq, e⟩ := requires_eq msg.payload ts hne
    simp only [generate, isRequired, (createTree_location msg ts hne hts).2, h2, top,
      split_prefix payloadPrefix (by decide) ts hne hts, hq, hlast payloadPrefix (by decide), e]

/-- **C52 (elsewhere).** A location that is neither in the headers nor in the payload leaves the message as it is, and
the correlation ID is not required. -/
theorem C52_elsewhere (msg : Msg) (location : Str) (h1 : ¬ "$message.header#".toList <+: location)
    (h2 : ¬ "$message.payload#".toList <+: location) : generate msg location = (msg, .ok false) := by
  have hf : fieldOf location = .nowhere := by
    have h1 : ¬ headerPrefix <+: location := h1
    have h2 : ¬ payloadPrefix <+: location := h2
    unfold fieldOf
    split
    · rfl
    · rw [if_neg (fun h => h1 (List.isPrefixOf_iff_prefix.1 h)), if_neg (fun h => h2 (List.isPrefixOf_iff_prefix.1 h))]
  simp [generate, createTree, isRequired, hf]

example : ¬ "$message.header#".toList <+: "$message.headers#/id".toList ∧
    ¬ "$message.payload#".toList <+: "$message.headers#/id".toList := by decide

/-- **C52 is violated** (1): a location that exists with another type stays so. -/
theorem C52_violated_type : ∃ (t : Tree) (p : List Str), p ≠ [] ∧ (view (down t p) p).map (·.type) = some ['i', 'n', 't'] :=
  ⟨.node ⟨tyObject, [], none⟩ [(['a'], .node ⟨['i', 'n', 't'], [], none⟩ [])], [['a']], by simp, by rw [C52_exactly]; decide⟩

/-- The schema that is generated for a schema: the referenced one if it is a reference (v3/schema.go:472-477). -/
def follow (env : Nat → Tree) (t : Tree) : Tree :=
  match t.info.ref with
  | some k => env k
  | none => t

/-- **C52 is violated** (2): when the headers or the payload are given by reference, the property is created
next to the reference, not in the referenced schema. -/
theorem C52_violated_reference (env : Nat → Tree) (k : Nat) (p : List Str) (h : walk (env k) p = none) :
    walk (follow env (down (.node ⟨[], [], some k⟩ []) p)) p = none := by
  cases p with
  | nil => cases h
  | cons v p => exact h

/-- **C52 is violated** (3): a requirement in a referenced schema is not seen. -/
theorem C52_violated_reference_required (k : Nat) (p : List Str) (hp : p ≠ []) :
    (parentOf (down (.node ⟨[], [], some k⟩ []) p) p).map (fun t => t.info.required) = some [] := by
  obtain ⟨q, hq, i, hi, e⟩ := parentOf_down p (.node ⟨[], [], some k⟩ []) hp
  rw [hq]
  rw [C52_exactly] at hi
  simp only [Option.map_some, e, Option.some.injEq]
  cases hd : p.dropLast with
  | nil => rw [hd, view_nil] at hi; cases hi; rfl
  | cons v q =>
    rw [hd, view_cons] at hi
    simp only [props_node, GoMap.get_nil, created] at hi
    split at hi
    · cases hi; rfl
    · cases hi

/-- **C52 is violated** (4): a location without path, which designates the whole headers or payload, panics. -/
theorem C52_violated_panic (msg : Msg) :
    (generate msg headerPrefix).2 = .panic ∧ (generate msg payloadPrefix).2 = .panic := by
  have h1 : fieldOf headerPrefix = .header := by decide
  have h2 : fieldOf payloadPrefix = .payload := by decide
  have p1 : pathOf headerPrefix = [] := by decide
  have p2 : pathOf payloadPrefix = [] := by decide
  simp [generate, createTree, isRequired, h1, h2, p1, p2, top, parentOf]

/-- Non-vacuity: a payload with an object, and a location below it that is missing. -/
example : view (down (.node ⟨tyObject, [], none⟩ [(['m'], .node ⟨tyObject, [], none⟩ [])]) [['m'], ['i', 'd']]) [['m'], ['i', 'd']] =
    some ⟨tyString, [], none⟩ := by rw [C52_exactly]; decide

end Verif.CorrTree
