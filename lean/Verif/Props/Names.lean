import Verif.Model.Names
import Verif.Proofs.Naming

/-! # C69: names given to different places -/

namespace Verif.Names
open Naming

/-- The word that separates the parts of a name. -/
def from_ : Bytes := lit "From"

theorem cap_sep_append (p : Nat) (a n : Bytes) : cap p (a ++ 95 :: n) = cap p a ++ 95 :: cap 95 n := by
  induction a generalizing p with
  | nil =>
    simp only [List.nil_append, cap]
    rw [show up 95 = 95 by decide]
    simp
  | cons b s ih => simp only [List.cons_append, cap, ih]

theorem cap_name {n : Bytes} (h : IsName n) : cap 95 n = n := by
  cases n with
  | nil => rfl
  | cons b t =>
    obtain ⟨_, hu, ha⟩ := isUpper_facts (h.2 b t rfl)
    simp only [cap, show isAlnum 95 = false by decide, Bool.false_eq_true, if_false, hu]
    rw [cap_alnum t b ha (fun c hc => h.1 c (List.mem_cons_of_mem _ hc))]

theorem dropWhile_append_name (x n : Bytes) (h : IsName n) : (x ++ n).dropWhile isDigit = x.dropWhile isDigit ++ n := by
  induction x with
  | nil =>
    cases n with
    | nil => rfl
    | cons b t =>
      obtain ⟨hd, _, _⟩ := isUpper_facts (h.2 b t rfl)
      simp [hd]
  | cons a x ih =>
    simp only [List.cons_append, List.dropWhile_cons]
    split
    · exact ih
    · rfl

/-- A name after a separator is kept. -/
theorem finish_append (x n : Bytes) (h : IsName n) : finish (x ++ n) = finish x ++ n := by
  unfold finish
  rw [List.filter_append, List.filter_eq_self.mpr h.1, dropWhile_append_name _ n h]
  cases (x.filter isAlnum).dropWhile isDigit with
  | cons b t => rfl
  | nil =>
    cases n with
    | nil => rfl
    | cons b t =>
      obtain ⟨_, hu, _⟩ := isUpper_facts (h.2 b t rfl)
      simp [hu]

theorem finish_sep (x n : Bytes) (h : IsName n) : finish (x ++ 95 :: n) = finish x ++ n := by
  have : finish (x ++ 95 :: n) = finish ((x ++ [95]) ++ n) := by simp
  rw [this, finish_append _ n h]
  congr 1
  unfold finish
  rw [List.filter_append]
  simp [show isAlnum 95 = false by decide]

theorem ascii_append {a b : Bytes} (ha : Ascii a) (hb : Ascii b) : Ascii (a ++ b) := by
  intro x hx
  rcases List.mem_append.1 hx with h | h
  · exact ha x h
  · exact hb x h

theorem ascii_name {n : Bytes} (h : IsName n) : Ascii n := fun b hb => isAlnum_lt (h.1 b hb)

theorem namify_sep (u : Uni) (a n : Bytes) (ha : Ascii a) (hn : IsName n) :
    namify u (a ++ 95 :: n) = (namify u a).map (· ++ n) := by
  have h1 : Ascii (a ++ 95 :: n) := ascii_append ha (fun x hx => by
    rcases List.mem_cons.1 hx with rfl | hx
    · decide
    · exact ascii_name hn x hx)
  rw [namify_ascii u _ h1, namify_ascii u a ha, cap_sep_append, cap_name hn, finish_sep _ n hn]
  rfl

/-- The name of a property is the name of its key, `PropertyFrom`, the name of the parent; items and additional
properties are named with `ItemFrom` and `AdditionalPropertiesFrom`. -/
def prefixOf (u : Uni) : Step → Option Bytes
  | .prop k => (namify u k).map (· ++ lit "Property")
  | .item => some (lit "Item")
  | .extra => some (lit "AdditionalProperties")

theorem isName_lit_property : IsName (lit "Property") := by
  constructor
  · decide
  · intro b t h; cases h; decide

theorem isName_from : IsName from_ := by
  constructor
  · decide
  · intro b t h; cases h; decide

theorem isName_append {a b : Bytes} (ha : IsName a) (hb : IsName b) : IsName (a ++ b) := by
  refine ⟨?_, ?_⟩
  · intro x hx
    rcases List.mem_append.1 hx with h | h
    · exact ha.1 x h
    · exact hb.1 x h
  · intro x t h
    cases a with
    | nil => exact hb.2 x t h
    | cons y s => cases h; exact ha.2 _ _ rfl

theorem namify_isName (u : Uni) {s n : Bytes} (h : Ascii s) (hn : namify u s = some n) : IsName n := by
  rw [namify_ascii u s h] at hn
  cases hn
  exact ⟨finish_alnum _, finish_head _⟩

theorem fullName_gen (u : Uni) (parent name n t : Bytes) (hp : IsName parent) (hp0 : parent ≠ []) (ha : Ascii name)
    (hn : namify u name = some n) (ht : IsName t) : fullName u parent name t = some (n ++ t ++ from_ ++ parent) := by
  have hname := namify_isName u ha hn
  unfold fullName
  rw [namify_name u hp, hn, namify_name u ht]
  simp only [if_pos hp0]
  have e : n ++ lit "_" ++ t ++ lit "_" ++ (lit "From_" ++ parent) = ((n ++ 95 :: t) ++ 95 :: from_) ++ 95 :: parent := by
    simp [lit, from_]
  have a1 : Ascii (n ++ 95 :: t) := ascii_append (ascii_name hname) (fun x hx => by
    rcases List.mem_cons.1 hx with rfl | hx
    · decide
    · exact ascii_name ht x hx)
  have a2 : Ascii ((n ++ 95 :: t) ++ 95 :: from_) := ascii_append a1 (by unfold Ascii from_; decide)
  rw [e, namify_sep u _ parent a2 hp, namify_sep u _ from_ a1 isName_from, namify_sep u n t (ascii_name hname) ht,
    namify_name u hname]
  rfl

theorem isName_nil : IsName [] := ⟨by simp, by simp⟩

theorem fullName_eq (u : Uni) (parent name n : Bytes) (hp : IsName parent) (hp0 : parent ≠ []) (ha : Ascii name)
    (hn : namify u name = some n) : fullName u parent name [] = some (n ++ from_ ++ parent) := by
  have := fullName_gen u parent name n [] hp hp0 ha hn isName_nil
  simpa using this

/-- Names without a parent. -/
theorem fullName_root (u : Uni) (name n t : Bytes) (ha : Ascii name) (hn : namify u name = some n) (ht : IsName t) :
    fullName u [] name t = some (n ++ t) := by
  have hname := namify_isName u ha hn
  unfold fullName
  rw [show namify u [] = some [] from rfl, hn, namify_name u ht]
  simp only [ne_eq, not_true_eq_false, if_false, List.append_nil]
  have e : n ++ lit "_" ++ t ++ lit "_" = (n ++ 95 :: t) ++ 95 :: [] := by simp [lit]
  have a1 : Ascii (n ++ 95 :: t) := ascii_append (ascii_name hname) (fun x hx => by
    rcases List.mem_cons.1 hx with rfl | hx
    · decide
    · exact ascii_name ht x hx)
  rw [e, namify_sep u _ [] a1 isName_nil, namify_sep u n t (ascii_name hname) ht, namify_name u hname]
  simp

theorem stepName_eq (u : Uni) (parent : Bytes) (hp : IsName parent) (hp0 : parent ≠ []) (s : Step)
    (hs : ∀ k, s = .prop k → Ascii k) :
    ∃ a, prefixOf u s = some a ∧ IsName a ∧ stepName u parent s = some (a ++ from_ ++ parent) := by
  cases s with
  | prop k =>
    have ak := hs k rfl
    obtain ⟨n, hn⟩ : ∃ n, namify u k = some n := ⟨_, namify_ascii u k ak⟩
    have h1 : namify u (k ++ lit "_Property") = some (n ++ lit "Property") := by
      have := namify_sep u k (lit "Property") ak isName_lit_property
      rw [hn] at this
      exact this
    refine ⟨n ++ lit "Property", by simp [prefixOf, hn], isName_append (namify_isName u ak hn) isName_lit_property, ?_⟩
    exact fullName_eq u parent _ _ hp hp0 (ascii_append ak (by unfold Ascii; decide)) h1
  | extra =>
    have h1 : namify u (lit "Additional_Properties") = some (lit "AdditionalProperties") := by
      rw [namify_ascii u _ (by unfold Ascii; decide)]
      rfl
    refine ⟨_, rfl, ⟨by decide, by intro b t h; cases h; decide⟩, ?_⟩
    exact fullName_eq u parent _ _ hp hp0 (by unfold Ascii; decide) h1
  | item =>
    refine ⟨_, rfl, ⟨by decide, by intro b t h; cases h; decide⟩, ?_⟩
    unfold stepName fullName
    have h1 : namify u (lit "Item_From_" ++ parent) = some (lit "Item" ++ from_ ++ parent) := by
      have e : lit "Item_From_" ++ parent = (lit "Item" ++ 95 :: from_) ++ 95 :: parent := by simp [lit, from_]
      rw [e, namify_sep u _ parent (by unfold Ascii from_; decide) hp, namify_sep u _ from_ (by unfold Ascii; decide) isName_from]
      rw [namify_ascii u (lit "Item") (by unfold Ascii; decide)]
      rfl
    have hname : IsName (lit "Item" ++ from_ ++ parent) :=
      isName_append (isName_append ⟨by decide, by intro b t h; cases h; decide⟩ isName_from) hp
    rw [show namify u [] = some [] from rfl, h1]
    simp only [ne_eq, not_true_eq_false, if_false, List.append_nil]
    have e : lit "Item" ++ from_ ++ parent ++ lit "_" ++ lit "_" = (lit "Item" ++ from_ ++ parent ++ [95]) ++ 95 :: [] := by simp [lit]
    rw [e, namify_sep u _ [] (ascii_append (ascii_name hname) (by unfold Ascii; decide)) ⟨by simp, by simp⟩]
    have a3 := namify_sep u (lit "Item" ++ from_ ++ parent) [] (ascii_name hname) ⟨by simp, by simp⟩
    rw [a3, namify_name u hname]
    simp

/-- The word `From` occurs in a name. -/
def HasFrom (s : Bytes) : Prop := ∃ a b, s = a ++ from_ ++ b

theorem HasFrom.cons {s : Bytes} (c : Nat) (h : HasFrom s) : HasFrom (c :: s) := by
  obtain ⟨a, b, rfl⟩ := h
  exact ⟨c :: a, b, rfl⟩

/-- A text is split in one way at the first `From`. -/
theorem split_from : ∀ (a b p q : Bytes), ¬ HasFrom a → ¬ HasFrom b → a ++ from_ ++ p = b ++ from_ ++ q → a = b ∧ p = q
  | [], [], p, q, _, _, h => by
    simp only [List.nil_append] at h
    exact ⟨rfl, List.append_cancel_left h⟩
  | x :: a, y :: b, p, q, ha, hb, h => by
    simp only [List.cons_append, List.cons.injEq] at h
    obtain ⟨rfl, h⟩ := h
    obtain ⟨rfl, rfl⟩ := split_from a b p q (fun h => ha (h.cons x)) (fun h => hb (h.cons x)) h
    exact ⟨rfl, rfl⟩
  | [], y :: b, p, q, _, hb, h => by
    exfalso
    have f : from_ = [70, 114, 111, 109] := rfl
    rw [f] at h
    match b, hb, h with
    | [], _, h => simp at h
    | [z], _, h => simp at h
    | [z, w], _, h => simp at h
    | z :: w :: v :: b, hb, h =>
      simp only [List.cons_append, List.nil_append, List.cons.injEq] at h
      obtain ⟨rfl, rfl, rfl, rfl, _⟩ := h
      exact hb ⟨[], b, rfl⟩
  | x :: a, [], p, q, ha, _, h => by
    exfalso
    have f : from_ = [70, 114, 111, 109] := rfl
    rw [f] at h
    match a, ha, h with
    | [], _, h => simp at h
    | [z], _, h => simp at h
    | [z, w], _, h => simp at h
    | z :: w :: v :: a, ha, h =>
      simp only [List.cons_append, List.nil_append, List.cons.injEq] at h
      obtain ⟨rfl, rfl, rfl, rfl, _⟩ := h
      exact ha ⟨[], a, rfl⟩

/-- `From` does not come from a suffix without `F` that begins with an upper-case letter. -/
theorem hasFrom_suffix (c : Nat) (p : Bytes) (h70 : 70 ∉ c :: p) (hc : isUpper c = true) :
    ∀ n : Bytes, HasFrom (n ++ c :: p) → HasFrom n
  | [], ⟨a, b, h⟩ => by
    exfalso
    apply h70
    rw [List.nil_append] at h
    rw [h]
    exact List.mem_append_left _ (List.mem_append_right _ (by decide))
  | x :: n, ⟨y :: a, b, h⟩ => by
    simp only [List.cons_append, List.cons.injEq] at h
    exact (hasFrom_suffix c p h70 hc n ⟨a, b, h.2⟩).cons x
  | x :: n, ⟨[], b, h⟩ => by
    have f : from_ = [70, 114, 111, 109] := rfl
    rw [f] at h
    match n, h with
    | [], h =>
      simp only [List.cons_append, List.nil_append, List.cons.injEq] at h
      rw [h.2.1] at hc
      exact absurd hc (by decide)
    | [z], h =>
      simp only [List.cons_append, List.nil_append, List.cons.injEq] at h
      rw [h.2.2.1] at hc
      exact absurd hc (by decide)
    | [z, w], h =>
      simp only [List.cons_append, List.nil_append, List.cons.injEq] at h
      rw [h.2.2.2.1] at hc
      exact absurd hc (by decide)
    | z :: w :: v :: n, h =>
      simp only [List.cons_append, List.nil_append, List.cons.injEq] at h
      obtain ⟨rfl, rfl, rfl, rfl, _⟩ := h
      exact ⟨[], n, rfl⟩

theorem not_hasFrom_property (n : Bytes) : HasFrom (n ++ lit "Property") → HasFrom n :=
  hasFrom_suffix 80 (lit "roperty") (by decide) (by decide) n

/-! ## The specification -/

/-- Where a step leads, up to the spelling of keys that give the same Go name. -/
inductive Place
  | prop (goName : Option Bytes)
  | item
  | extra
  deriving DecidableEq, Repr

def place (u : Uni) : Step → Place
  | .prop k => .prop (namify u k)
  | .item => .item
  | .extra => .extra

/-- Keys in the scope of the theorem: ASCII, and the word `From` is not in the Go name. -/
def KeyOk (u : Uni) (k : Bytes) : Prop := Ascii k ∧ ∀ n, namify u k = some n → ¬ HasFrom n

/-- Steps in scope. -/
def StepOk (u : Uni) : Step → Prop
  | .prop k => KeyOk u k
  | .item => True
  | .extra => True

/-- Names of top-level schemas, messages and headers in scope: a Go name, not made like the name of a property, of items
or of additional properties. -/
def RootOk (r : Bytes) : Prop :=
  IsName r ∧ r ≠ [] ∧
  ∀ a p, ¬ HasFrom a → r = a ++ from_ ++ p → a ≠ lit "Item" ∧ a ≠ lit "AdditionalProperties" ∧ ∀ n, a ≠ n ++ lit "Property"

/-! ## The theorem -/

theorem prefix_ok (u : Uni) (s : Step) (a : Bytes) (hs : StepOk u s) (h : prefixOf u s = some a) : ¬ HasFrom a := by
  cases s with
  | prop k =>
    obtain ⟨n, hn, rfl⟩ := Option.map_eq_some_iff.1 h
    exact fun hf => hs.2 n hn (not_hasFrom_property n hf)
  | item =>
    cases h
    rintro ⟨a, b, h⟩
    have : 70 ∈ lit "Item" := by
      rw [h]; exact List.mem_append_left _ (List.mem_append_right _ (by decide))
    exact absurd this (by decide)
  | extra =>
    cases h
    rintro ⟨a, b, h⟩
    have : 70 ∈ lit "AdditionalProperties" := by
      rw [h]; exact List.mem_append_left _ (List.mem_append_right _ (by decide))
    exact absurd this (by decide)

theorem last_ne {a : Bytes} {x y : Nat} (l m : Bytes) (h : a ++ l = m) (hl : l.getLast? = some x) (hm : m.getLast? = some y)
    (hxy : x ≠ y) : False := by
  rw [← h, List.getLast?_append, hl] at hm
  exact hxy (by simpa using hm)

theorem prefix_inj (u : Uni) (s t : Step) (a : Bytes) (h1 : prefixOf u s = some a) (h2 : prefixOf u t = some a) :
    place u s = place u t := by
  cases s with
  | prop k =>
    obtain ⟨n, hn, rfl⟩ := Option.map_eq_some_iff.1 h1
    cases t with
    | prop k' =>
      obtain ⟨n', hn', h⟩ := Option.map_eq_some_iff.1 h2
      have := List.append_cancel_right h
      simp only [place]
      rw [hn, hn', this]
    | item => exact (last_ne (x := 121) (y := 109) _ _ (Option.some.inj h2).symm rfl rfl (by decide)).elim
    | extra => exact (last_ne (x := 121) (y := 115) _ _ (Option.some.inj h2).symm rfl rfl (by decide)).elim
  | item =>
    cases h1
    cases t with
    | prop k' =>
      obtain ⟨n', hn', h⟩ := Option.map_eq_some_iff.1 h2
      exact (last_ne (x := 121) (y := 109) _ _ h rfl rfl (by decide)).elim
    | item => rfl
    | extra => exact absurd (Option.some.inj h2) (by decide)
  | extra =>
    cases h1
    cases t with
    | prop k' =>
      obtain ⟨n', hn', h⟩ := Option.map_eq_some_iff.1 h2
      exact (last_ne (x := 121) (y := 115) _ _ h rfl rfl (by decide)).elim
    | item => exact absurd (Option.some.inj h2) (by decide)
    | extra => rfl

theorem root_prefix (u : Uni) (r : Bytes) (h : RootOk r) (s : Step) (hs : StepOk u s) (a p : Bytes)
    (ha : prefixOf u s = some a) (e : r = a ++ from_ ++ p) : False := by
  obtain ⟨h1, h2, h3⟩ := h.2.2 a p (prefix_ok u s a hs ha) e
  cases s with
  | prop k =>
    obtain ⟨n, _, rfl⟩ := Option.map_eq_some_iff.1 ha
    exact h3 n rfl
  | item => cases ha; exact h1 rfl
  | extra => cases ha; exact h2 rfl

theorem nameAt_append (u : Uni) (r : Bytes) (ps : List Step) (s : Step) :
    nameAt u r (ps ++ [s]) = (nameAt u r ps).bind (fun n => stepName u n s) := by
  induction ps generalizing r with
  | nil =>
    simp only [List.nil_append, nameAt, Option.bind_some]
    cases stepName u r s <;> rfl
  | cons t ps ih =>
    simp only [List.cons_append, nameAt]
    cases stepName u r t with
    | none => rfl
    | some n => exact ih n

/-- Names below a root are Go names. -/
theorem nameAt_name (u : Uni) (r : Bytes) (h : IsName r) (h0 : r ≠ []) :
    ∀ ps : List Step, (∀ s ∈ ps, StepOk u s) → ∃ n, nameAt u r ps = some n ∧ IsName n ∧ n ≠ [] := by
  intro ps
  induction ps generalizing r with
  | nil => intro _; exact ⟨r, rfl, h, h0⟩
  | cons s ps ih =>
    intro hs
    have hk : ∀ k, s = .prop k → Ascii k := by
      intro k e
      have := hs s (List.mem_cons_self ..)
      rw [e] at this
      exact this.1
    obtain ⟨a, _, ha, e⟩ := stepName_eq u r h h0 s hk
    have hn : IsName (a ++ from_ ++ r) := isName_append (isName_append ha isName_from) h
    obtain ⟨n, hn', hn''⟩ := ih (a ++ from_ ++ r) hn (by simp [h0]) (fun t ht => hs t (List.mem_cons_of_mem _ ht))
    refine ⟨n, ?_, hn''⟩
    simp only [nameAt, e]
    exact hn'

theorem nameAt_snoc (u : Uni) (r : Bytes) (h : RootOk r) (ps : List Step) (s : Step) (hs : ∀ t ∈ ps ++ [s], StepOk u t) :
    ∃ a n, prefixOf u s = some a ∧ nameAt u r ps = some n ∧ nameAt u r (ps ++ [s]) = some (a ++ from_ ++ n) := by
  obtain ⟨n, hn, hname, h0⟩ := nameAt_name u r h.1 h.2.1 ps (fun t ht => hs t (List.mem_append_left _ ht))
  have hs' : StepOk u s := hs s (List.mem_append_right _ (List.mem_singleton_self s))
  obtain ⟨a, ha, _, e⟩ := stepName_eq u n hname h0 s (by rintro k rfl; exact hs'.1)
  refine ⟨a, n, ha, hn, ?_⟩
  rw [nameAt_append, hn]
  exact e

theorem nameAt_inj_rev (u : Uni) (r r' : Bytes) (hr : RootOk r) (hr' : RootOk r') :
    ∀ ps qs : List Step, (∀ s ∈ ps, StepOk u s) → (∀ s ∈ qs, StepOk u s) →
      nameAt u r ps.reverse = nameAt u r' qs.reverse → r = r' ∧ ps.map (place u) = qs.map (place u)
  | [], [], _, _, h => by simpa [nameAt] using h
  | [], t :: qs, _, hq, h => by
    exfalso
    rw [List.reverse_cons] at h
    obtain ⟨a, n, ha, _, e⟩ := nameAt_snoc u r' hr' qs.reverse t (by simpa [or_comm, and_comm] using hq)
    rw [e] at h
    exact root_prefix u r hr t (hq t (List.mem_cons_self ..)) a n ha (Option.some.inj h)
  | s :: ps, [], hp, _, h => by
    exfalso
    rw [List.reverse_cons] at h
    obtain ⟨a, n, ha, _, e⟩ := nameAt_snoc u r hr ps.reverse s (by simpa [or_comm, and_comm] using hp)
    rw [e] at h
    exact root_prefix u r' hr' s (hp s (List.mem_cons_self ..)) a n ha (Option.some.inj h).symm
  | s :: ps, t :: qs, hp, hq, h => by
    rw [List.reverse_cons, List.reverse_cons] at h
    obtain ⟨a, n, ha, hn, e⟩ := nameAt_snoc u r hr ps.reverse s (by simpa [or_comm, and_comm] using hp)
    obtain ⟨b, m, hb, hm, e'⟩ := nameAt_snoc u r' hr' qs.reverse t (by simpa [or_comm, and_comm] using hq)
    rw [e, e'] at h
    obtain ⟨rfl, rfl⟩ := split_from a b n m (prefix_ok u s a (hp s (List.mem_cons_self ..)) ha)
      (prefix_ok u t b (hq t (List.mem_cons_self ..)) hb) (Option.some.inj h)
    obtain ⟨h1, h2⟩ := nameAt_inj_rev u r r' hr hr' ps qs (fun x hx => hp x (List.mem_cons_of_mem _ hx))
      (fun x hx => hq x (List.mem_cons_of_mem _ hx)) (by rw [hn, hm])
    exact ⟨h1, by simp [prefix_inj u s t a ha hb, h2]⟩

/-- **C69** (v3): two places below two roots are given the same Go name only if the roots have the same name and the
paths are the same, up to keys with the same Go name. Missing for the full claim: keys whose Go name contains `From`
(see below), and what is not a place of this kind. -/
theorem names_inj (u : Uni) (r r' : Bytes) (hr : RootOk r) (hr' : RootOk r') (ps qs : List Step)
    (hp : ∀ s ∈ ps, StepOk u s) (hq : ∀ s ∈ qs, StepOk u s) :
    (∃ n, nameAt u r ps = some n ∧ IsName n) ∧
    (nameAt u r ps = nameAt u r' qs → r = r' ∧ ps.map (place u) = qs.map (place u)) := by
  obtain ⟨n, hn, hname, _⟩ := nameAt_name u r hr.1 hr.2.1 ps hp
  refine ⟨⟨n, hn, hname⟩, fun h => ?_⟩
  have := nameAt_inj_rev u r r' hr hr' ps.reverse qs.reverse (by simpa using hp) (by simpa using hq) (by simpa using h)
  simpa using this

/-! ## Roots -/

/-- A root, up to the spelling of keys that give the same Go name. -/
inductive RootPlace
  | schema (k : Option Bytes)
  | message (c : Option (Option Bytes)) (k : Option Bytes)
  | payload (c : Option (Option Bytes)) (k : Option Bytes)
  | headers (c : Option (Option Bytes)) (k : Option Bytes)
  deriving DecidableEq, Repr

def rootPlace (u : Uni) : Root → RootPlace
  | .schema k => .schema (namify u k)
  | .message c m => .message (c.map (namify u)) (namify u m)
  | .payload c m => .payload (c.map (namify u)) (namify u m)
  | .headers c m => .headers (c.map (namify u)) (namify u m)

/-- Keys of a root are in scope. -/
def RootKeysOk (u : Uni) : Root → Prop
  | .schema k => KeyOk u k
  | .message c m | .payload c m | .headers c m => KeyOk u m ∧ ∀ k, c = some k → KeyOk u k

def joinFrom : List Bytes → Bytes
  | [] => []
  | [x] => x
  | x :: y :: xs => x ++ from_ ++ joinFrom (y :: xs)

theorem joinFrom_inj : ∀ xs ys : List Bytes, xs ≠ [] → ys ≠ [] → (∀ x ∈ xs, ¬ HasFrom x) → (∀ y ∈ ys, ¬ HasFrom y) →
    joinFrom xs = joinFrom ys → xs = ys
  | [], _, h, _, _, _, _ => (h rfl).elim
  | _ :: _, [], _, h, _, _, _ => (h rfl).elim
  | [x], [y], _, _, _, _, h => by simp only [joinFrom] at h; rw [h]
  | [x], y :: z :: ys, _, _, hx, _, h => by
    simp only [joinFrom] at h
    exact (hx x (List.mem_singleton_self x) ⟨_, _, h⟩).elim
  | x :: z :: xs, [y], _, _, _, hy, h => by
    simp only [joinFrom] at h
    exact (hy y (List.mem_singleton_self y) ⟨_, _, h.symm⟩).elim
  | x :: x' :: xs, y :: y' :: ys, _, _, hx, hy, h => by
    simp only [joinFrom] at h
    obtain ⟨rfl, h'⟩ := split_from x y _ _ (hx x (List.mem_cons_self ..)) (hy y (List.mem_cons_self ..)) h
    rw [joinFrom_inj (x' :: xs) (y' :: ys) (by simp) (by simp) (fun a ha => hx a (List.mem_cons_of_mem _ ha))
      (fun a ha => hy a (List.mem_cons_of_mem _ ha)) h']

/-- The parts of the name of a root. -/
def parts (u : Uni) : Root → Option (List Bytes)
  | .schema k => (namify u k).map (fun n => [n ++ lit "Schema"])
  | .message none m => (namify u m).map (fun n => [n ++ lit "Message"])
  | .payload none m => (namify u m).map (fun n => [n ++ lit "MessagePayload"])
  | .headers none m => (namify u m).map (fun n => [lit "Headers", n ++ lit "Message"])
  | .message (some c) m => (namify u m).bind (fun n => (namify u c).map (fun d => [n ++ lit "Message", d ++ lit "Channel"]))
  | .payload (some c) m =>
    (namify u m).bind (fun n => (namify u c).map (fun d => [n ++ lit "Message", d ++ lit "ChannelPayload"]))
  | .headers (some c) m =>
    (namify u m).bind (fun n => (namify u c).map (fun d => [lit "Headers", n ++ lit "Message", d ++ lit "Channel"]))

theorem namify_total (u : Uni) (k : Bytes) (h : Ascii k) : ∃ n, namify u k = some n ∧ IsName n :=
  ⟨_, namify_ascii u k h, namify_isName u h (namify_ascii u k h)⟩

theorem isName_of_check {s : Bytes} (h : (s.all isAlnum && (s.head?.map isUpper == some true)) = true) : IsName s := by
  simp only [Bool.and_eq_true, List.all_eq_true, beq_iff_eq] at h
  refine ⟨h.1, ?_⟩
  rintro b t rfl
  simpa using h.2

theorem message_parts (u : Uni) (c : Option Bytes) (m : Bytes) (hm : Ascii m) (hc : ∀ k, c = some k → Ascii k) :
    ∃ l, parts u (.message c m) = some l ∧ messageName u m c = some (joinFrom l) ∧ IsName (joinFrom l) ∧ joinFrom l ≠ [] := by
  obtain ⟨n, hn, hname⟩ := namify_total u m hm
  have hM : IsName (lit "Message") := isName_of_check (by decide)
  cases c with
  | none =>
    refine ⟨[n ++ lit "Message"], by simp [parts, hn], ?_, isName_append hname hM, by simp [joinFrom, lit]⟩
    exact fullName_root u m n _ hm hn hM
  | some c =>
    obtain ⟨d, hd, hdname⟩ := namify_total u c (hc c rfl)
    have hC : IsName (lit "Channel") := isName_of_check (by decide)
    have h1 : chanName u c = some (d ++ lit "Channel") := fullName_root u c d _ (hc c rfl) hd hC
    have hcn := isName_append hdname hC
    refine ⟨[n ++ lit "Message", d ++ lit "Channel"], by simp [parts, hn, hd], ?_,
      isName_append (isName_append (isName_append hname hM) isName_from) hcn, by simp [joinFrom, lit]⟩
    simp only [messageName, h1, Option.bind_some, joinFrom]
    exact fullName_gen u _ m n _ hcn (by simp [lit]) hm hn hM

theorem payload_join (u : Uni) (c : Option Bytes) (m : Bytes) (l : List Bytes) (h : parts u (.message c m) = some l) :
    ∃ l', parts u (.payload c m) = some l' ∧ joinFrom l' = joinFrom l ++ lit "Payload" := by
  cases c with
  | none =>
    obtain ⟨n, hn, rfl⟩ := Option.map_eq_some_iff.1 h
    exact ⟨[n ++ lit "MessagePayload"], by simp [parts, hn], by simp [joinFrom, lit]⟩
  | some c =>
    obtain ⟨n, hn, h⟩ := Option.bind_eq_some_iff.1 h
    obtain ⟨d, hd, rfl⟩ := Option.map_eq_some_iff.1 h
    exact ⟨[n ++ lit "Message", d ++ lit "ChannelPayload"], by simp [parts, hn, hd], by simp [joinFrom, lit]⟩

theorem headers_join (u : Uni) (c : Option Bytes) (m : Bytes) (l : List Bytes) (h : parts u (.message c m) = some l) :
    ∃ l', parts u (.headers c m) = some l' ∧ joinFrom l' = lit "Headers" ++ from_ ++ joinFrom l := by
  cases c with
  | none =>
    obtain ⟨n, hn, rfl⟩ := Option.map_eq_some_iff.1 h
    exact ⟨[lit "Headers", n ++ lit "Message"], by simp [parts, hn], by simp [joinFrom]⟩
  | some c =>
    obtain ⟨n, hn, h⟩ := Option.bind_eq_some_iff.1 h
    obtain ⟨d, hd, rfl⟩ := Option.map_eq_some_iff.1 h
    exact ⟨[lit "Headers", n ++ lit "Message", d ++ lit "Channel"], by simp [parts, hn, hd], by simp [joinFrom]⟩

theorem root_parts (u : Uni) (r : Root) (hr : RootKeysOk u r) :
    ∃ l, parts u r = some l ∧ rootName u r = some (joinFrom l) ∧ IsName (joinFrom l) ∧ joinFrom l ≠ [] := by
  cases r with
  | schema k =>
    obtain ⟨n, hn, hname⟩ := namify_total u k hr.1
    have hS : IsName (lit "Schema") := isName_of_check (by decide)
    refine ⟨[n ++ lit "Schema"], by simp [parts, hn], ?_, isName_append hname hS, by simp [joinFrom, lit]⟩
    have h1 := namify_sep u k (lit "Schema") hr.1 hS
    rw [hn] at h1
    have := fullName_root u (k ++ 95 :: lit "Schema") _ [] (ascii_append hr.1 (by unfold Ascii; decide)) h1 isName_nil
    simp only [rootName, show lit "_Schema" = 95 :: lit "Schema" from rfl]
    simpa [joinFrom] using this
  | message c m => exact message_parts u c m hr.1.1 (fun k hk => (hr.2 k hk).1)
  | payload c m =>
    obtain ⟨l, hl, hn, hname, h0⟩ := message_parts u c m hr.1.1 (fun k hk => (hr.2 k hk).1)
    obtain ⟨l', hl', e⟩ := payload_join u c m l hl
    have hP : IsName (lit "Payload") := isName_of_check (by decide)
    refine ⟨l', hl', ?_, by rw [e]; exact isName_append hname hP, by rw [e]; simp [lit]⟩
    simp only [rootName, hn, Option.bind_some, e, show lit "_Payload" = 95 :: lit "Payload" from rfl]
    have h1 := namify_sep u (joinFrom l) (lit "Payload") (ascii_name hname) hP
    rw [namify_name u hname] at h1
    have := fullName_root u (joinFrom l ++ 95 :: lit "Payload") _ []
      (ascii_append (ascii_name hname) (by unfold Ascii; decide)) h1 isName_nil
    simpa using this
  | headers c m =>
    obtain ⟨l, hl, hn, hname, h0⟩ := message_parts u c m hr.1.1 (fun k hk => (hr.2 k hk).1)
    obtain ⟨l', hl', e⟩ := headers_join u c m l hl
    have hH : IsName (lit "Headers") := isName_of_check (by decide)
    refine ⟨l', hl', ?_, by rw [e]; exact isName_append (isName_append hH isName_from) hname, by rw [e]; simp [lit]⟩
    simp only [rootName, hn, Option.bind_some, e]
    exact fullName_eq u _ _ _ hname h0 (ascii_name hH) (namify_name u hH)

theorem not_hasFrom_lit {s : Bytes} (h : 70 ∉ s) : ¬ HasFrom s := by
  rintro ⟨a, b, rfl⟩
  exact h (List.mem_append_left _ (List.mem_append_right _ (by decide)))

theorem parts_ok (u : Uni) (r : Root) (hr : RootKeysOk u r) (l : List Bytes) (h : parts u r = some l) :
    l ≠ [] ∧ ∀ x ∈ l, ¬ HasFrom x := by
  have hs : ∀ (k : Bytes) (n : Bytes), KeyOk u k → namify u k = some n → ∀ c p, 70 ∉ c :: p → isUpper c = true →
      ¬ HasFrom (n ++ c :: p) := fun k n hk hn c p h70 hc hf => hk.2 n hn (hasFrom_suffix c p h70 hc n hf)
  have hH : ¬ HasFrom (lit "Headers") := not_hasFrom_lit (by decide)
  have case1 : ∀ (k : Bytes) (s : Bytes) c p, s = c :: p → KeyOk u k → 70 ∉ c :: p → isUpper c = true →
      ∀ l, (namify u k).map (fun n => [n ++ s]) = some l → l ≠ [] ∧ ∀ x ∈ l, ¬ HasFrom x := by
    intro k s c p e hk h70 hc l h
    obtain ⟨n, hn, rfl⟩ := Option.map_eq_some_iff.1 h
    refine ⟨by simp, fun x hx => ?_⟩
    rw [List.mem_singleton.1 hx, e]
    exact hs k n hk hn c p h70 hc
  cases r with
  | schema k => exact case1 k (lit "Schema") 83 (lit "chema") rfl hr (by decide) (by decide) l h
  | message c m =>
    cases c with
    | none => exact case1 m (lit "Message") 77 (lit "essage") rfl hr.1 (by decide) (by decide) l h
    | some c =>
      obtain ⟨n, hn, h⟩ := Option.bind_eq_some_iff.1 h
      obtain ⟨d, hd, rfl⟩ := Option.map_eq_some_iff.1 h
      refine ⟨by simp, fun x hx => ?_⟩
      simp only [List.mem_cons, List.not_mem_nil, or_false] at hx
      rcases hx with rfl | rfl
      · exact hs m n hr.1 hn 77 (lit "essage") (by decide) (by decide)
      · exact hs c d (hr.2 c rfl) hd 67 (lit "hannel") (by decide) (by decide)
  | payload c m =>
    cases c with
    | none => exact case1 m (lit "MessagePayload") 77 (lit "essagePayload") rfl hr.1 (by decide) (by decide) l h
    | some c =>
      obtain ⟨n, hn, h⟩ := Option.bind_eq_some_iff.1 h
      obtain ⟨d, hd, rfl⟩ := Option.map_eq_some_iff.1 h
      refine ⟨by simp, fun x hx => ?_⟩
      simp only [List.mem_cons, List.not_mem_nil, or_false] at hx
      rcases hx with rfl | rfl
      · exact hs m n hr.1 hn 77 (lit "essage") (by decide) (by decide)
      · exact hs c d (hr.2 c rfl) hd 67 (lit "hannelPayload") (by decide) (by decide)
  | headers c m =>
    cases c with
    | none =>
      obtain ⟨n, hn, rfl⟩ := Option.map_eq_some_iff.1 h
      refine ⟨by simp, fun x hx => ?_⟩
      simp only [List.mem_cons, List.not_mem_nil, or_false] at hx
      rcases hx with rfl | rfl
      · exact hH
      · exact hs m n hr.1 hn 77 (lit "essage") (by decide) (by decide)
    | some c =>
      obtain ⟨n, hn, h⟩ := Option.bind_eq_some_iff.1 h
      obtain ⟨d, hd, rfl⟩ := Option.map_eq_some_iff.1 h
      refine ⟨by simp, fun x hx => ?_⟩
      simp only [List.mem_cons, List.not_mem_nil, or_false] at hx
      rcases hx with rfl | rfl | rfl
      · exact hH
      · exact hs m n hr.1 hn 77 (lit "essage") (by decide) (by decide)
      · exact hs c d (hr.2 c rfl) hd 67 (lit "hannel") (by decide) (by decide)

/-- How many parts a root has, and the last byte of its name: they tell the kinds of roots apart. -/
def sig : Root → Nat × Nat
  | .schema _ => (1, 97)
  | .message none _ => (1, 101)
  | .payload none _ => (1, 100)
  | .headers none _ => (2, 101)
  | .message (some _) _ => (2, 108)
  | .payload (some _) _ => (2, 100)
  | .headers (some _) _ => (3, 108)

theorem parts_sig (u : Uni) (r : Root) (l : List Bytes) (h : parts u r = some l) :
    (l.length, l.getLast?.bind List.getLast?) = ((sig r).1, some (sig r).2) := by
  have g : ∀ (n s : Bytes) (b : Nat), s.getLast? = some b → (n ++ s).getLast? = some b := by
    intro n s b h
    rw [List.getLast?_append, h]
    rfl
  cases r with
  | schema k =>
    obtain ⟨n, hn, rfl⟩ := Option.map_eq_some_iff.1 h
    exact Prod.ext rfl (g _ _ _ rfl)
  | message c m =>
    cases c with
    | none =>
      obtain ⟨n, hn, rfl⟩ := Option.map_eq_some_iff.1 h
      exact Prod.ext rfl (g _ _ _ rfl)
    | some c =>
      obtain ⟨n, hn, h⟩ := Option.bind_eq_some_iff.1 h
      obtain ⟨d, hd, rfl⟩ := Option.map_eq_some_iff.1 h
      exact Prod.ext rfl (g _ _ _ rfl)
  | payload c m =>
    cases c with
    | none =>
      obtain ⟨n, hn, rfl⟩ := Option.map_eq_some_iff.1 h
      exact Prod.ext rfl (g _ _ _ rfl)
    | some c =>
      obtain ⟨n, hn, h⟩ := Option.bind_eq_some_iff.1 h
      obtain ⟨d, hd, rfl⟩ := Option.map_eq_some_iff.1 h
      exact Prod.ext rfl (g _ _ _ rfl)
  | headers c m =>
    cases c with
    | none =>
      obtain ⟨n, hn, rfl⟩ := Option.map_eq_some_iff.1 h
      exact Prod.ext rfl (g _ _ _ rfl)
    | some c =>
      obtain ⟨n, hn, h⟩ := Option.bind_eq_some_iff.1 h
      obtain ⟨d, hd, rfl⟩ := Option.map_eq_some_iff.1 h
      exact Prod.ext rfl (g _ _ _ rfl)

theorem root_inj (u : Uni) (r r' : Root) (hr : RootKeysOk u r) (hr' : RootKeysOk u r')
    (h : rootName u r = rootName u r') : rootPlace u r = rootPlace u r' := by
  obtain ⟨l, hl, e, _⟩ := root_parts u r hr
  obtain ⟨l', hl', e', _⟩ := root_parts u r' hr'
  rw [e, e'] at h
  have hll : l = l' := joinFrom_inj l l' (parts_ok u r hr l hl).1 (parts_ok u r' hr' l' hl').1
    (parts_ok u r hr l hl).2 (parts_ok u r' hr' l' hl').2 (Option.some.inj h)
  subst hll
  have hsig : sig r = sig r' := by
    have := (parts_sig u r l hl).symm.trans (parts_sig u r' l hl')
    simp only [Prod.mk.injEq, Option.some.injEq] at this
    exact Prod.ext this.1 this.2
  have hp : parts u r = parts u r' := hl.trans hl'.symm
  rw [hl] at hp
  have one : ∀ (a b : Option Bytes) (s : Bytes), a.map (fun n => [n ++ s]) = some l →
      b.map (fun n => [n ++ s]) = some l → a = b := by
    intro a b s ha hb
    obtain ⟨n, rfl, rfl⟩ := Option.map_eq_some_iff.1 ha
    obtain ⟨n', rfl, e⟩ := Option.map_eq_some_iff.1 hb
    simpa using e.symm
  rcases r with k | ⟨_ | c, m⟩ | ⟨_ | c, m⟩ | ⟨_ | c, m⟩ <;> rcases r' with k' | ⟨_ | c', m'⟩ | ⟨_ | c', m'⟩ | ⟨_ | c', m'⟩ <;>
    first
    | (exfalso; simp [sig] at hsig; done)
    | (simp only [rootPlace, Option.map_none, one _ _ _ hl hl'])
    | skip
  · obtain ⟨n, hn, h⟩ := Option.bind_eq_some_iff.1 hl
    obtain ⟨d, hd, rfl⟩ := Option.map_eq_some_iff.1 h
    obtain ⟨n', hn', h'⟩ := Option.bind_eq_some_iff.1 hl'
    obtain ⟨d', hd', e⟩ := Option.map_eq_some_iff.1 h'
    simp only [List.cons.injEq, List.append_cancel_right_eq, and_true] at e
    simp only [rootPlace, Option.map_some, hn, hn', hd, hd', e.1, e.2]
  · obtain ⟨n, hn, h⟩ := Option.bind_eq_some_iff.1 hl
    obtain ⟨d, hd, rfl⟩ := Option.map_eq_some_iff.1 h
    obtain ⟨n', hn', h'⟩ := Option.bind_eq_some_iff.1 hl'
    obtain ⟨d', hd', e⟩ := Option.map_eq_some_iff.1 h'
    simp only [List.cons.injEq, List.append_cancel_right_eq, and_true] at e
    simp only [rootPlace, Option.map_some, hn, hn', hd, hd', e.1, e.2]
  · obtain ⟨n, hn, rfl⟩ := Option.map_eq_some_iff.1 hl
    obtain ⟨n', hn', e⟩ := Option.map_eq_some_iff.1 hl'
    simp only [List.cons.injEq, List.append_cancel_right_eq, and_true, true_and] at e
    simp only [rootPlace, Option.map_none, hn, hn', e]
  · obtain ⟨n, hn, h⟩ := Option.bind_eq_some_iff.1 hl
    obtain ⟨d, hd, rfl⟩ := Option.map_eq_some_iff.1 h
    obtain ⟨n', hn', h'⟩ := Option.bind_eq_some_iff.1 hl'
    obtain ⟨d', hd', e⟩ := Option.map_eq_some_iff.1 h'
    simp only [List.cons.injEq, List.append_cancel_right_eq, and_true, true_and] at e
    simp only [rootPlace, Option.map_some, hn, hn', hd, hd', e.1, e.2]

/-- A name of several parts is a root name when its first part is none of those of steps. -/
theorem rootOk_join (x : Bytes) (xs : List Bytes) (hn : IsName (joinFrom (x :: xs))) (h0 : joinFrom (x :: xs) ≠ [])
    (hx : ¬ HasFrom x) (h : x ≠ lit "Item" ∧ x ≠ lit "AdditionalProperties" ∧ ∀ n, x ≠ n ++ lit "Property") :
    RootOk (joinFrom (x :: xs)) := by
  refine ⟨hn, h0, fun a p ha e => ?_⟩
  cases xs with
  | nil =>
    simp only [joinFrom] at e
    exact (hx ⟨a, p, e⟩).elim
  | cons y ys =>
    simp only [joinFrom] at e
    rw [← (split_from x a _ p hx ha e).1]
    exact h

theorem rootName_ok (u : Uni) (r : Root) (hr : RootKeysOk u r) : ∃ n, rootName u r = some n ∧ RootOk n := by
  obtain ⟨l, hl, e, hname, h0⟩ := root_parts u r hr
  obtain ⟨_, hf⟩ := parts_ok u r hr l hl
  refine ⟨joinFrom l, e, ?_⟩
  have ne : ∀ (n s : Bytes) (b : Nat), s.getLast? = some b → b ≠ 109 → b ≠ 115 → b ≠ 121 →
      n ++ s ≠ lit "Item" ∧ n ++ s ≠ lit "AdditionalProperties" ∧ ∀ m, n ++ s ≠ m ++ lit "Property" := by
    intro n s b hb h1 h2 h3
    have hl : (n ++ s).getLast? = some b := by rw [List.getLast?_append, hb]; rfl
    refine ⟨fun h => ?_, fun h => ?_, fun m h => ?_⟩
    · rw [h] at hl; exact h1 (Option.some.inj hl).symm
    · rw [h] at hl; exact h2 (Option.some.inj hl).symm
    · rw [h, List.getLast?_append] at hl
      exact h3 (Option.some.inj hl).symm
  have neH : lit "Headers" ≠ lit "Item" ∧ lit "Headers" ≠ lit "AdditionalProperties" ∧ ∀ m, lit "Headers" ≠ m ++ lit "Property" := by
    refine ⟨by decide, by decide, fun m h => ?_⟩
    exact last_ne (x := 121) (y := 115) _ _ h.symm rfl rfl (by decide)
  rcases r with k | ⟨_ | c, m⟩ | ⟨_ | c, m⟩ | ⟨_ | c, m⟩
  · obtain ⟨n, hn, rfl⟩ := Option.map_eq_some_iff.1 hl
    exact rootOk_join _ _ hname h0 (hf _ (List.mem_cons_self ..)) (ne _ _ 97 rfl (by decide) (by decide) (by decide))
  · obtain ⟨n, hn, rfl⟩ := Option.map_eq_some_iff.1 hl
    exact rootOk_join _ _ hname h0 (hf _ (List.mem_cons_self ..)) (ne _ _ 101 rfl (by decide) (by decide) (by decide))
  · obtain ⟨n, hn, h⟩ := Option.bind_eq_some_iff.1 hl
    obtain ⟨d, hd, rfl⟩ := Option.map_eq_some_iff.1 h
    exact rootOk_join _ _ hname h0 (hf _ (List.mem_cons_self ..)) (ne _ _ 101 rfl (by decide) (by decide) (by decide))
  · obtain ⟨n, hn, rfl⟩ := Option.map_eq_some_iff.1 hl
    exact rootOk_join _ _ hname h0 (hf _ (List.mem_cons_self ..)) (ne _ _ 100 rfl (by decide) (by decide) (by decide))
  · obtain ⟨n, hn, h⟩ := Option.bind_eq_some_iff.1 hl
    obtain ⟨d, hd, rfl⟩ := Option.map_eq_some_iff.1 h
    exact rootOk_join _ _ hname h0 (hf _ (List.mem_cons_self ..)) (ne _ _ 101 rfl (by decide) (by decide) (by decide))
  · obtain ⟨n, hn, rfl⟩ := Option.map_eq_some_iff.1 hl
    exact rootOk_join _ _ hname h0 (hf _ (List.mem_cons_self ..)) neH
  · obtain ⟨n, hn, h⟩ := Option.bind_eq_some_iff.1 hl
    obtain ⟨d, hd, rfl⟩ := Option.map_eq_some_iff.1 h
    exact rootOk_join _ _ hname h0 (hf _ (List.mem_cons_self ..)) neH

/-- **C69** (v3): two places of a document — a component schema, a message of the components or of a channel, its payload
or its headers, and what is below them through properties, items and additional properties — are given the same Go type
name only when they are the same place, up to keys that have the same Go name. The names are Go names. Missing for the
full claim: keys whose Go name contains the word `From` or is not ASCII, equal Go names of different keys (C42), branches
of compositions, oneOf messages. -/
theorem C69_names_partial (u : Uni) (r r' : Root) (ps qs : List Step) (hr : RootKeysOk u r) (hr' : RootKeysOk u r')
    (hp : ∀ s ∈ ps, StepOk u s) (hq : ∀ s ∈ qs, StepOk u s) :
    (∃ n, docName u r ps = some n ∧ IsName n) ∧
    (docName u r ps = docName u r' qs → rootPlace u r = rootPlace u r' ∧ ps.map (place u) = qs.map (place u)) := by
  obtain ⟨n, hn, hok⟩ := rootName_ok u r hr
  obtain ⟨n', hn', hok'⟩ := rootName_ok u r' hr'
  obtain ⟨h1, h2⟩ := names_inj u n n' hok hok' ps qs hp hq
  unfold docName
  rw [hn, hn']
  refine ⟨h1, fun h => ?_⟩
  obtain ⟨rfl, h4⟩ := h2 h
  exact ⟨root_inj u r r' hr hr' (by rw [hn, hn']), h4⟩

theorem keyOk_lit (u : Uni) (k : Bytes) (h : (k.all (· < 128) && !(finish (cap 95 k)).contains 70) = true) :
    KeyOk u k := by
  simp only [Bool.and_eq_true, List.all_eq_true, decide_eq_true_eq, Bool.not_eq_true', List.contains_eq_mem,
    decide_eq_false_iff_not] at h
  refine ⟨h.1, ?_⟩
  intro n hn hf
  rw [namify_ascii u k h.1] at hn
  cases hn
  exact not_hasFrom_lit h.2 hf

/-- `unicode` restricted to ASCII. -/
def uni0 : Uni := ⟨isAlnum, up, fun _ _ => rfl, fun _ _ => rfl⟩

-- the hypotheses of `C69_names_partial` hold of places that differ in one step, and of different roots
example : RootKeysOk uni0 (.payload (some (lit "user/signup")) (lit "ask-now")) ∧ RootKeysOk uni0 (.headers none (lit "bob")) ∧
    ∀ s ∈ [Step.prop (lit "last_name"), .item, .extra, .prop (lit "id")], StepOk uni0 s := by
  refine ⟨⟨keyOk_lit _ _ (by decide), fun k h => ?_⟩, ⟨keyOk_lit _ _ (by decide), fun k h => by cases h⟩, ?_⟩
  · cases h; exact keyOk_lit _ _ (by decide)
  · intro s hs
    simp only [List.mem_cons, List.not_mem_nil, or_false] at hs
    rcases hs with rfl | rfl | rfl | rfl
    · exact keyOk_lit _ _ (by decide)
    · trivial
    · trivial
    · exact keyOk_lit _ _ (by decide)
example : docName uni0 (.payload (some (lit "user")) (lit "ask")) [.prop (lit "names"), .item] =
    some (lit "ItemFromNamesPropertyFromAskMessageFromUserChannelPayload") := by decide
example : docName uni0 (.headers none (lit "ask")) [.extra] = some (lit "AdditionalPropertiesFromHeadersFromAskMessage") := by decide

/-- **C69 is violated** by keys with the word `From`: the property `b` of the property `a`, and a property
`bPropertyFromA`, of one schema, get the same type name. -/
theorem C69_violated_names :
    docName uni0 (.schema (lit "x")) [.prop (lit "a"), .prop (lit "b")] =
      docName uni0 (.schema (lit "x")) [.prop (lit "bPropertyFromA")] ∧
    (docName uni0 (.schema (lit "x")) [.prop (lit "bPropertyFromA")]).isSome = true ∧
    (∀ s ∈ [Step.prop (lit "a"), .prop (lit "b"), .prop (lit "bPropertyFromA")], ∀ k, s = .prop k → Ascii k) := by
  refine ⟨by decide, by decide, ?_⟩
  intro s hs k e
  subst e
  simp only [List.mem_cons, Step.prop.injEq, List.not_mem_nil, or_false] at hs
  rcases hs with rfl | rfl | rfl <;> (unfold Ascii; decide)

/-- In v2 a child gets the name of its parent followed by the name of its key, `Item` or `AdditionalProperties`. -/
def suffixOf (u : Uni) : Step → Option Bytes
  | .prop k => namify u k
  | .item => some (lit "Item")
  | .extra => some (lit "AdditionalProperties")

theorem stepName2_eq (u : Uni) {parent : Bytes} (hp : IsName parent) (s : Step) (hs : ∀ k, s = .prop k → Ascii k) :
    stepName2 u parent s = (suffixOf u s).map (parent ++ ·) := by
  have item : IsName (lit "Item") := isName_of_check (by decide)
  have extra : IsName (lit "AdditionalProperties") := isName_of_check (by decide)
  cases s with
  | prop k =>
    obtain ⟨n, hn, hname⟩ := namify_total u k (hs k rfl)
    unfold stepName2 suffixOf
    simp only [hn, Option.bind_some, Option.map_some]
    exact namify_name u (isName_append hp hname)
  | item => exact namify_name u (isName_append hp item)
  | extra => exact namify_name u (isName_append hp extra)

/-- **C69, v2** The children of one schema have different names, unless two keys have the same Go name, or a key has the Go
name `Item` or `AdditionalProperties`. -/
theorem C69_siblings_v2_partial (u : Uni) {parent : Bytes} (hp : IsName parent) (s t : Step)
    (hs : ∀ k, s = .prop k → Ascii k) (ht : ∀ k, t = .prop k → Ascii k)
    (h : stepName2 u parent s = stepName2 u parent t) :
    s = t ∨ ∃ k, (s = .prop k ∧ (namify u k = some (lit "Item") ∨ namify u k = some (lit "AdditionalProperties") ∨
        ∃ k', t = .prop k' ∧ namify u k = namify u k')) ∨
      (t = .prop k ∧ (namify u k = some (lit "Item") ∨ namify u k = some (lit "AdditionalProperties"))) := by
  rw [stepName2_eq u hp s hs, stepName2_eq u hp t ht] at h
  have h : suffixOf u s = suffixOf u t := by
    revert h
    cases suffixOf u s with
    | none => cases suffixOf u t with
      | none => exact fun _ => rfl
      | some _ => nofun
    | some a => cases suffixOf u t with
      | none => nofun
      | some b => intro h; rw [List.append_cancel_left (Option.some.inj h)]
  cases s with
  | prop k =>
    cases t with
    | prop k' => exact .inr ⟨k, .inl ⟨rfl, .inr (.inr ⟨k', rfl, h⟩)⟩⟩
    | item => exact .inr ⟨k, .inl ⟨rfl, .inl h⟩⟩
    | extra => exact .inr ⟨k, .inl ⟨rfl, .inr (.inl h)⟩⟩
  | item =>
    cases t with
    | prop k' => exact .inr ⟨k', .inr ⟨rfl, .inl h.symm⟩⟩
    | item => exact .inl rfl
    | extra => exact absurd (show some (lit "Item") = some (lit "AdditionalProperties") from h) (by decide)
  | extra =>
    cases t with
    | prop k' => exact .inr ⟨k', .inr ⟨rfl, .inr h.symm⟩⟩
    | item => exact absurd (show some (lit "AdditionalProperties") = some (lit "Item") from h) (by decide)
    | extra => exact .inl rfl

example : stepName2 uni0 (lit "User") .item = some (lit "UserItem") ∧
    stepName2 uni0 (lit "User") .extra = some (lit "UserAdditionalProperties") ∧
    stepName2 uni0 (lit "User") (.prop (lit "first_name")) = some (lit "UserFirstName") := by decide
example : stepName2 uni0 (lit "User") (.prop (lit "a")) ≠ stepName2 uni0 (lit "User") (.prop (lit "b")) := fun h => by
  have ascii : ∀ {k j : Bytes}, Step.prop j = .prop k → (j.all (· < 128)) = true → Ascii k := by
    intro k j e hj
    cases e
    exact fun b hb => by simpa using List.all_eq_true.1 hj b hb
  rcases C69_siblings_v2_partial uni0 (isName_of_check (by decide)) _ _ (fun k e => ascii e (by decide))
    (fun k e => ascii e (by decide)) h with h | ⟨k, ⟨h, h'⟩ | ⟨h, h'⟩⟩
  · exact absurd h (by decide)
  · cases h
    rcases h' with h' | h' | ⟨k', e, h'⟩
    · exact absurd h' (by decide)
    · exact absurd h' (by decide)
    · cases e; exact absurd h' (by decide)
  · cases h
    rcases h' with h' | h' <;> exact absurd h' (by decide)

/-- **C69 is violated** in v2, where names are put one after the other: the property `c` of the property `b` and the
property `bC`. -/
theorem C69_violated_names_v2 :
    (stepName2 uni0 (lit "A") (.prop (lit "b"))).bind (fun n => stepName2 uni0 n (.prop (lit "c"))) =
      stepName2 uni0 (lit "A") (.prop (lit "bC")) ∧
    stepName2 uni0 (lit "A") (.prop (lit "bC")) = some (lit "ABC") ∧
    namify uni0 (lit "b") ≠ namify uni0 (lit "bC") := by decide

end Verif.Names
