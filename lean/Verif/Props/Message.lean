import Verif.Model.Message
import Verif.Props.SchemaMerge
import Verif.Props.CorrTree

/-!
# C61, C62, C63: traits, alternatives, references
-/

namespace Verif.Message

open SchemaMerge (Sch Ref orElse brings C48_properties)

/-! ## C61 -/

/-- "Filled, never overridden", for a text. -/
def FilledStr (own trait result : Str) : Prop := (own ≠ [] → result = own) ∧ (own = [] → result = trait)

/-- "Filled, never overridden", for an optional element. -/
def FilledOpt {α : Type} (own trait result : Option α) : Prop :=
  (∀ x, own = some x → result = some x) ∧ (own = none → result = trait)

theorem filledStr (own trait : Str) : FilledStr own trait (fillStr own trait) := by
  unfold FilledStr fillStr; by_cases h : own = [] <;> simp [h]

theorem filledOpt {α : Type} (own trait : Option α) : FilledOpt own trait (fillOpt own trait) := by
  cases own <;> cases trait <;> simp [FilledOpt, fillOpt]

theorem mergeHeaders_fields {α : Type} (look : Ref → Sch) (prep : Sch → Sch) (m : Msg α) (h : Option Sch) :
    ∃ hd, mergeHeaders look prep m h = { m with headers := hd } := by
  unfold mergeHeaders
  split
  · exact ⟨m.headers, rfl⟩
  · split <;> exact ⟨_, rfl⟩

theorem mergePayload_fields {α : Type} (look : Ref → Sch) (prep : Sch → Sch) (m : Msg α) (h : Option Sch) :
    ∃ hd pl, mergePayload look prep m h = { m with headers := hd, payload := pl } := by
  unfold mergePayload
  split
  · exact ⟨m.headers, m.payload, rfl⟩
  · split
    · exact ⟨m.headers, _, rfl⟩
    · exact ⟨_, m.payload, rfl⟩

/-- Everything but headers and payload: what the message defines is kept, what it does not define is taken
from the trait; tags are those of both without duplicate names, the message's first; examples are those of
both. -/
theorem C61_fields {α : Type} (look : Ref → Sch) (prep : Sch → Sch) (m : Msg α) (t : Trait α) :
    let r := applyTrait look prep m t
    FilledOpt m.correlationID t.correlationID r.correlationID ∧
    FilledStr m.contentType t.contentType r.contentType ∧ FilledStr m.title t.title r.title ∧
    FilledStr m.summary t.summary r.summary ∧ FilledStr m.description t.description r.description ∧
    FilledOpt m.externalDocs t.externalDocs r.externalDocs ∧
    r.tags = Dedup.firsts (·.1) (m.tags ++ t.tags) ∧ r.examples = m.examples ++ t.examples := by
  obtain ⟨hd, e1⟩ := mergeHeaders_fields look prep m t.headers
  obtain ⟨hd', pl, e2⟩ := mergePayload_fields look prep { m with headers := hd } t.payload
  simp only [applyTrait, e1, e2]
  exact ⟨filledOpt _ _, filledStr _ _, filledStr _ _, filledStr _ _, filledStr _ _, filledOpt _ _,
    (Dedup.C64_named _ _).exactly, trivial⟩

/-- The first of several traits that defines a text gives it, if the message does not. -/
theorem C61_first_wins {α : Type} (look : Ref → Sch) (prep : Sch → Sch) (m : Msg α) (ts : List (Trait α)) :
    (applyTraits look prep m ts).title =
      ((m.title :: ts.map (·.title)).find? (fun s => !decide (s = []))).getD [] := by
  unfold applyTraits
  induction ts generalizing m with
  | nil => by_cases h : m.title = [] <;> simp [h]
  | cons t ts ih =>
    rw [List.foldl_cons, ih]
    have h := (C61_fields look prep m t).2.2.1
    by_cases hm : m.title = []
    · rw [h.2 hm]; simp [List.find?_cons, hm]
    · rw [h.1 hm]; simp [hm]

/-- Headers, when the message has headers and the trait no payload: a property the message has is unchanged, the
others are those the trait brings. -/
theorem C61_headers_partial {α : Type} (look : Ref → Sch) (prep : Sch → Sch) (m : Msg α) (t : Trait α) (s h : Sch)
    (hm : m.headers = some s) (ht : t.headers = some h) (hp : t.payload = none) :
    ∃ s', (applyTrait look prep m t).headers = some s' ∧
      ∀ k, s'.props.get k = orElse (s.props.get k) (brings look h k) := by
  refine ⟨SchemaMerge.mergeWith look s h, ?_, (C48_properties look s h).2⟩
  simp [applyTrait, mergeHeaders, mergePayload, ht, hm, hp, mergePtr]

/-- The schema an element stands for: itself, or what it refers to. -/
def StandsFor (look : Ref → Sch) (s t : Sch) : Prop :=
  (s.refTo = none ∧ t = s) ∨ ∃ r, s.refTo = some r ∧ t = look r

/-- A message without headers (payload) gets those of the trait, the referenced ones if the trait gives a
reference. -/
theorem C61_missing {α : Type} (look : Ref → Sch) (prep : Sch → Sch) (m : Msg α) (t : Trait α) (h p : Sch)
    (hm : m.headers = none) (hmp : m.payload = none) (ht : t.headers = some h) (hp : t.payload = some p) :
    ∃ h' p', StandsFor look h h' ∧ StandsFor look p p' ∧
      (applyTrait look prep m t).headers = some (prep h') ∧ (applyTrait look prep m t).payload = some (prep p') := by
  have key : ∀ s, StandsFor look s (followSch look s) := by
    intro s
    unfold StandsFor followSch
    cases s.refTo with
    | none => exact .inl ⟨rfl, rfl⟩
    | some r => exact .inr ⟨r, rfl, rfl⟩
  exact ⟨_, _, key h, key p, by simp [applyTrait, mergeHeaders, mergePayload, ht, hm, hp, hmp]⟩

/-- A trait with headers by reference. -/
example : StandsFor (fun _ => { props := [(['a'], .ptr 1)] }) { refTo := some (.ptr 7) } { props := [(['a'], .ptr 1)] } :=
  .inr ⟨.ptr 7, rfl, rfl⟩

/-- A trait without headers and payload changes neither. -/
theorem C61_untouched {α : Type} (look : Ref → Sch) (prep : Sch → Sch) (m : Msg α) (t : Trait α)
    (ht : t.headers = none) (hp : t.payload = none) :
    (applyTrait look prep m t).headers = m.headers ∧ (applyTrait look prep m t).payload = m.payload := by
  simp [applyTrait, mergeHeaders, mergePayload, ht, hp]

/-- The payload of a message that has one never receives anything from a trait. -/
theorem C61_violated_payload {α : Type} (look : Ref → Sch) (prep : Sch → Sch) (m : Msg α) (t : Trait α)
    (hm : m.payload ≠ none) : (applyTrait look prep m t).payload = m.payload := by
  cases hp : m.payload with
  | none => exact absurd hp hm
  | some s =>
    cases ht : t.headers <;> cases hh : m.headers <;> cases htp : t.payload <;>
      simp [applyTrait, mergeHeaders, mergePayload, ht, hh, htp, hp]

/-- Instead, the headers of the message receive the payload properties of the trait. -/
theorem C61_violated_headers {α : Type} (look : Ref → Sch) (prep : Sch → Sch) (m : Msg α) (t : Trait α) (s p q : Sch)
    (k : Str) (r : Ref) (hm : m.headers = some s) (hmp : m.payload = some q) (ht : t.headers = none)
    (hp : t.payload = some p) (hk : p.props.get k = some r) (hs : s.props.get k = none) :
    ∃ s', (applyTrait look prep m t).headers = some s' ∧ s'.props.get k = some r := by
  refine ⟨SchemaMerge.mergeWith look s p, ?_, ?_⟩
  · simp [applyTrait, mergeHeaders, mergePayload, ht, hm, hp, hmp, mergePtr]
  · rw [(C48_properties look s p).2 k, hs, brings, hk]; rfl

/-- Operations: what the operation defines is kept, what it does not define is taken from the trait. -/
theorem C61_operation {α : Type} (o t : Op α) :
    let r := applyOpTrait o t
    FilledStr o.title t.title r.title ∧ FilledStr o.summary t.summary r.summary ∧
    FilledStr o.description t.description r.description ∧ FilledOpt o.externalDocs t.externalDocs r.externalDocs ∧
    FilledOpt o.bindings t.bindings r.bindings ∧
    r.security = Dedup.firsts (·.1) (o.security ++ t.security) ∧ r.tags = Dedup.firsts (·.1) (o.tags ++ t.tags) :=
  ⟨filledStr _ _, filledStr _ _, filledStr _ _, filledOpt _ _, filledOpt _ _, (Dedup.C64_named _ _).exactly,
    (Dedup.C64_named _ _).exactly⟩

/-- A correlation ID that comes from a trait arrives after the correlation ID property has been created where it
was missing: no property is created for it. -/
theorem C61_violated_correlation (m : CMsg) (l : Str) (ts : List (Option Str)) (hm : m.location = none) :
    (m.process (some l :: ts)).location = some l ∧ (m.process (some l :: ts)).tree = m.tree := by
  have key : ∀ (ts : List (Option Str)) (m : CMsg), m.location = some l →
      ((ts.foldl (fun m t => { m with location := fillOpt m.location t }) m).location = some l ∧
        (ts.foldl (fun m t => { m with location := fillOpt m.location t }) m).tree = m.tree) := by
    intro ts
    induction ts with
    | nil => intro m h; exact ⟨h, rfl⟩
    | cons t ts ih =>
      intro m h
      rw [List.foldl_cons]
      obtain ⟨a, b⟩ := ih { m with location := fillOpt m.location t } (by
        show fillOpt m.location t = some l
        rw [h]; cases t <;> rfl)
      exact ⟨a, b⟩
  have h0 : m.metadata = m := by unfold CMsg.metadata; rw [hm]
  unfold CMsg.process
  rw [h0, List.foldl_cons]
  obtain ⟨a, b⟩ := key ts { m with location := fillOpt m.location (some l) } (by
    show fillOpt m.location (some l) = some l
    rw [hm]; rfl)
  exact ⟨a, b⟩

/-- Whereas a correlation ID of the message itself is created before. -/
theorem C61_own_correlation (m : CMsg) (l : Str) (ts : List (Option Str)) (hm : m.location = some l) :
    (m.process ts).location = some l ∧ (m.process ts).tree = CorrTree.createTree m.tree l := by
  have key : ∀ (ts : List (Option Str)) (m : CMsg), m.location = some l →
      ((ts.foldl (fun m t => { m with location := fillOpt m.location t }) m).location = some l ∧
        (ts.foldl (fun m t => { m with location := fillOpt m.location t }) m).tree = m.tree) := by
    intro ts
    induction ts with
    | nil => intro m h; exact ⟨h, rfl⟩
    | cons t ts ih =>
      intro m h
      rw [List.foldl_cons]
      obtain ⟨a, b⟩ := ih { m with location := fillOpt m.location t } (by
        show fillOpt m.location t = some l
        rw [h]; cases t <;> rfl)
      exact ⟨a, b⟩
  unfold CMsg.process
  have h0 : m.metadata = { m with tree := CorrTree.createTree m.tree l } := by
    unfold CMsg.metadata; rw [hm]
  rw [h0]
  exact key ts _ hm

example : (applyTrait (α := Nat) (fun _ => {}) id
    ⟨some { props := [(['a'], .ptr 1)] }, none, none, [], ['T'], [], [], [(['x'], 1)], none, []⟩
    ⟨some { props := [(['a'], .ptr 2), (['b'], .ptr 3)] }, none, some 7, ['j'], ['U'], [], [], [(['x'], 2), (['y'], 3)], none, [4]⟩).tags =
    [(['x'], 1), (['y'], 3)] := by decide

/-! ## C62 -/

/-- The property a list of inline alternatives gives to a payload: the first that brings it. -/
def firstBrings (look : Ref → Sch) (k : Str) : List Sch → Option Ref
  | [] => none
  | p :: ps => orElse (brings look p k) (firstBrings look k ps)

theorem mergeMsg_inline (find : Str → Option Alt) (look : Ref → Sch) (n : Nat) (m v : Alt) (hm : m.ref = none)
    (hv : v.ref = none) :
    mergeMsg find look (n + 1) m v = .ok { m with payload := mergePart look m.payload v.payload,
                                                  headers := mergePart look m.headers v.headers } := by
  rw [mergeMsg]
  simp only [hm, hv]

theorem orElse_assoc {α : Type} (a b c : Option α) : orElse (orElse a b) c = orElse a (orElse b c) := by
  cases a <;> rfl

/-- Alternatives written in place: a message with a payload ends up with, in its payload, its own properties and
then, for every other name, the property of the first alternative that brings it. In particular every property
name of every alternative is there. -/
theorem C62_inline_partial (find : Str → Option Alt) (look : Ref → Sch) (n : Nat) (vs : List Alt)
    (hv : ∀ v ∈ vs, v.ref = none) :
    ∀ (m : Alt) (s : Sch), m.ref = none → m.payload = some s →
      ∃ m' s', mergeAll find look (n + 1) m vs = .ok m' ∧ m'.ref = none ∧ m'.payload = some s' ∧
        ∀ k, s'.props.get k = orElse (s.props.get k) (firstBrings look k (vs.filterMap (·.payload))) := by
  induction vs with
  | nil =>
    intro m s hm hs
    refine ⟨m, s, rfl, hm, hs, fun k => ?_⟩
    cases s.props.get k <;> rfl
  | cons v vs ih =>
    intro m s hm hs
    have hv1 := hv v (by simp)
    have hvs : ∀ w ∈ vs, w.ref = none := fun w hw => hv w (List.mem_cons_of_mem _ hw)
    rw [mergeAll, mergeMsg_inline find look n m v hm hv1]
    simp only
    cases hp : v.payload with
    | none =>
      obtain ⟨m', s', h1, h2, h3, h4⟩ := ih hvs
        { m with payload := mergePart look m.payload none, headers := mergePart look m.headers v.headers } s hm hs
      exact ⟨m', s', h1, h2, h3, fun k => by rw [h4 k, List.filterMap_cons_none hp]⟩
    | some p =>
      obtain ⟨m', s', h1, h2, h3, h4⟩ := ih hvs
        { m with payload := mergePart look m.payload (some p), headers := mergePart look m.headers v.headers }
        (SchemaMerge.mergeWith look s p) hm (by simp [hs, mergePart])
      refine ⟨m', s', h1, h2, h3, fun k => ?_⟩
      rw [h4 k, List.filterMap_cons_some hp, (C48_properties look s p).2 k, firstBrings, orElse_assoc]

/-- The same without a payload of its own: the first alternative's payload is taken whole. -/
theorem C62_no_payload_partial (find : Str → Option Alt) (look : Ref → Sch) (n : Nat) (v : Alt) (vs : List Alt)
    (hv : ∀ w ∈ v :: vs, w.ref = none) (m : Alt) (hm : m.ref = none) (hp : m.payload = none) (p : Sch)
    (hvp : v.payload = some p) :
    ∃ m' s', mergeAll find look (n + 1) m (v :: vs) = .ok m' ∧ m'.payload = some s' ∧
      ∀ k, s'.props.get k = orElse (p.props.get k) (firstBrings look k (vs.filterMap (·.payload))) := by
  rw [mergeAll, mergeMsg_inline find look n m v hm (hv v (by simp))]
  simp only
  obtain ⟨m', s', h1, _, h3, h4⟩ := C62_inline_partial find look n vs (fun w hw => hv w (List.mem_cons_of_mem _ hw))
    { m with payload := mergePart look m.payload v.payload, headers := mergePart look m.headers v.headers } p hm
    (by simp [hp, hvp, mergePart])
  exact ⟨m', s', h1, h3, h4⟩

/-- A property a message is given is found under its name: what the two theorems above say of one alternative. -/
theorem C62_every (look : Ref → Sch) (k : Str) (ps : List Sch) (p : Sch) (hp : p ∈ ps) (r : Ref)
    (hk : p.props.get k = some r) : firstBrings look k ps ≠ none := by
  induction ps with
  | nil => cases hp
  | cons q ps ih =>
    rw [firstBrings]
    rcases List.mem_cons.1 hp with rfl | hp
    · rw [brings, hk]; intro h; cases h
    · have := ih hp
      cases hb : brings look q k with
      | some x => intro h; cases h
      | none => exact this

/-- An alternative given by reference adds nothing at all, whatever it refers to. -/
theorem C62_violated_reference (find : Str → Option Alt) (look : Ref → Sch) (n : Nat) (m : Alt) (hm : m.ref = none)
    (r : Str) (t : Alt) (hf : find r = some t) (ht : t.ref = none) :
    mergeMsg find look (n + 3) m ⟨some r, none, none⟩ = .ok m := by
  have h1 : ∃ x, mergeMsg find look (n + 2) ⟨some r, none, none⟩ t = .ok x := by
    rw [mergeMsg]
    simp only [hf, mergeMsg_inline find look n ⟨none, none, none⟩ t rfl ht, ht]
    exact ⟨_, rfl⟩
  obtain ⟨x, hx⟩ := h1
  rw [mergeMsg]
  simp only [hm, hf, hx]
  rw [← hm]; rfl

/-- An alternative whose reference leads nowhere is an error, wherever it stands behind alternatives written in place. -/
theorem C62_missing (find : Str → Option Alt) (look : Ref → Sch) (n : Nat) (vs ws : List Alt) (hv : ∀ v ∈ vs, v.ref = none)
    (w : Alt) (r : Str) (hw : w.ref = some r) (hf : find r = none) (m : Alt) (hm : m.ref = none) :
    mergeAll find look (n + 1) m (vs ++ w :: ws) = .err := by
  induction vs generalizing m with
  | nil =>
    have h : mergeMsg find look (n + 1) m w = .err := by
      rw [mergeMsg]
      simp only [hm, hw, hf]
    rw [List.nil_append, mergeAll, h]
  | cons v vs ih =>
    rw [List.cons_append, mergeAll, mergeMsg_inline find look n m v hm (hv v (by simp))]
    exact ih (fun x hx => hv x (List.mem_cons_of_mem _ hx)) _ hm

example : mergeAll (fun _ => none) (fun _ => {}) 1 ⟨none, none, some {}⟩
    [⟨none, none, some {}⟩, ⟨some ['R'], none, none⟩] = .err :=
  C62_missing _ _ 0 [_] [] (by simp) _ _ rfl rfl _ rfl

/-- A reference from a message to itself, as an alternative, is not reported: the merge never ends. -/
theorem C62_violated_cycle (find : Str → Option Alt) (look : Ref → Sch) (m : Alt) (hm : m.ref = none) (r : Str)
    (hf : find r = some ⟨some r, none, none⟩) (n : Nat) :
    mergeMsg find look n m ⟨some r, none, none⟩ = .fuel := by
  have key : ∀ n, (∀ m, m.ref = none → mergeMsg find look n m ⟨some r, none, none⟩ = .fuel) ∧
      mergeMsg find look n ⟨some r, none, none⟩ ⟨some r, none, none⟩ = .fuel := by
    intro n
    induction n with
    | zero => exact ⟨fun _ _ => rfl, rfl⟩
    | succ n ih =>
      constructor
      · intro m hm
        rw [mergeMsg]
        simp only [hm, hf, ih.2]
      · rw [mergeMsg]
        simp only [hf]
        rw [ih.1 ⟨none, none, none⟩ rfl]
  exact (key n).1 m hm

/-- Two alternatives in place, one by reference: the last one is lost. -/
example : (match mergeAll (fun _ => some ⟨none, none, some { props := [(['c'], .ptr 3)] }⟩) (fun _ => {}) 3
    ⟨none, none, some {}⟩
    [⟨none, none, some { props := [(['a'], .ptr 1)] }⟩, ⟨none, none, some { props := [(['b'], .ptr 2)] }⟩,
     ⟨some ['R'], none, none⟩] with
    | .ok m => m.payload.map (·.props.keys)
    | _ => none) = some [['b'], ['a']] := by decide

/-! ## C63 -/

/-- A chain of references from one element to another, of any length. -/
inductive Chain {β : Type} (to : β → Option β) : Nat → β → β → Prop
  | here (x : β) : Chain to 0 x x
  | step {n : Nat} {x y z : β} (h : to x = some y) (hc : Chain to n y z) : Chain to (n + 1) x z

/-- v2 messages: following ends, at `y`, exactly when there is a chain of references to `y` and `y` is not a
reference. -/
theorem C63_all {β : Type} (to : β → Option β) (x y : β) :
    (∃ n, followAll to n x = some y) ↔ to y = none ∧ ∃ n, Chain to n x y := by
  constructor
  · rintro ⟨n, h⟩
    induction n generalizing x with
    | zero => cases h
    | succ n ih =>
      rw [followAll] at h
      cases hx : to x with
      | none => rw [hx] at h; cases h; exact ⟨hx, 0, .here _⟩
      | some z =>
        rw [hx] at h
        obtain ⟨h1, k, h2⟩ := ih z h
        exact ⟨h1, k + 1, .step hx h2⟩
  · rintro ⟨hy, n, hc⟩
    refine ⟨n + 1, ?_⟩
    induction hc with
    | here => rw [followAll, hy]
    | step h _ ih => rw [followAll, h]; exact ih hy

/-- A ranking of the elements that decreases along references: no cycle, no infinite chain. -/
theorem C63_acyclic_partial {β : Type} (to : β → Option β) (rank : β → Nat)
    (hr : ∀ x y, to x = some y → rank y < rank x) (x : β) :
    ∃ n y, followAll to n x = some y ∧ to y = none := by
  have key : ∀ k x, rank x ≤ k → ∃ n y, followAll to n x = some y ∧ to y = none := by
    intro k
    induction k with
    | zero =>
      intro x hx
      cases h : to x with
      | none => exact ⟨1, x, by rw [followAll, h], h⟩
      | some y => have := hr x y h; omega
    | succ k ih =>
      intro x hx
      cases h : to x with
      | none => exact ⟨1, x, by rw [followAll, h], h⟩
      | some y =>
        have := hr x y h
        obtain ⟨n, z, h1, h2⟩ := ih y (by omega)
        exact ⟨n + 1, z, by rw [followAll, h]; exact h1, h2⟩
  exact key (rank x) x (Nat.le_refl _)

theorem chain_snoc {β : Type} {to : β → Option β} {n : Nat} {x y z : β} (h : Chain to n x y) (hz : to y = some z) :
    Chain to (n + 1) x z := by
  induction h with
  | here => exact .step hz (.here _)
  | step hs _ ih => exact .step hs (ih hz)

/-- v2 messages on a cycle of any length: following never ends, nothing is reported. -/
theorem C63_violated_cycle {β : Type} (to : β → Option β) (n : Nat) (x : β) (h : Chain to (n + 1) x x) (k : Nat) :
    followAll to k x = none := by
  induction k generalizing x with
  | zero => rfl
  | succ k ih =>
    cases h with
    | step hs hc =>
      rw [followAll, hs]
      exact ih _ (chain_snoc hc hs)

/-- Everything else follows one reference: the result is not a reference exactly when the chain has at most one
link. -/
theorem C63_one {β : Type} (to : β → Option β) (x : β) :
    to (follow to x) = none ↔ ∃ y, to y = none ∧ (Chain to 0 x y ∨ Chain to 1 x y) := by
  unfold follow
  cases h : to x with
  | none =>
    simp only [h, true_iff]
    exact ⟨x, h, Or.inl (.here x)⟩
  | some z =>
    constructor
    · intro hz
      exact ⟨z, hz, Or.inr (.step h (.here z))⟩
    · rintro ⟨y, hy, hc | hc⟩
      · cases hc; rw [h] at hy; cases hy
      · cases hc with
        | step hs hc =>
          cases hc
          rw [h] at hs; cases hs; exact hy

/-- A reference to a reference is followed to a reference. -/
theorem C63_violated_chain {β : Type} (to : β → Option β) (x y z : β) (hx : to x = some y) (hy : to y = some z) :
    to (follow to x) ≠ none := by
  unfold follow; rw [hx]; simp [hy]

/-- A chain of three references, followed to its end. -/
example : followAll (fun n : Nat => if n = 0 then none else some (n - 1)) 10 3 = some 0 := rfl

end Verif.Message
