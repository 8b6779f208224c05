import Verif.Model.Fields

/-! # C49, C50, C51: constraints and tags -/

namespace Verif.Validations

/-- The constraints a schema can declare. -/
inductive Fld
  | required | multipleOf | maximum | exclusiveMaximum | minimum | exclusiveMinimum | maxLength | minLength
  | pattern | maxItems | minItems | uniqueItems | maxProperties | minProperties | enum | const | allOf | anyOf
  | oneOf | isRequired | shouldOmitEmpty
  deriving DecidableEq, Repr

/-- Their values. -/
inductive FVal
  | names (l : List Str)
  | num (n : Int)
  | text (s : Str)
  | flag (b : Bool)
  | enum (l : List AnyV)
  | const (c : Option AnyV)
  | ptrs (l : List Nat)
  | opt (o : Option Bool)
  deriving DecidableEq, Repr

def V.get (v : V) : Fld → FVal
  | .required => .names v.required
  | .multipleOf => .names v.multipleOf
  | .maximum => .num v.maximum
  | .exclusiveMaximum => .num v.exclusiveMaximum
  | .minimum => .num v.minimum
  | .exclusiveMinimum => .num v.exclusiveMinimum
  | .maxLength => .num v.maxLength
  | .minLength => .num v.minLength
  | .pattern => .text v.pattern
  | .maxItems => .num v.maxItems
  | .minItems => .num v.minItems
  | .uniqueItems => .flag v.uniqueItems
  | .maxProperties => .num v.maxProperties
  | .minProperties => .num v.minProperties
  | .enum => .enum v.enum
  | .const => .const v.const
  | .allOf => .ptrs v.allOf
  | .anyOf => .ptrs v.anyOf
  | .oneOf => .ptrs v.oneOf
  | .isRequired => .flag v.isRequired
  | .shouldOmitEmpty => .opt v.shouldOmitEmpty

/-- Is a constraint declared, as far as the decoded document tells: is it other than the zero value? -/
def declared : FVal → Bool
  | .names l => !l.isEmpty
  | .num n => n != 0
  | .text s => !s.isEmpty
  | .flag b => b
  | .enum l => !l.isEmpty
  | .const c => c.isSome
  | .ptrs l => !l.isEmpty
  | .opt o => o.isSome

/-- **C49 (partial: constraints whose value is not zero).** For all schemas and every constraint: the merged
schema has the referenced one's if that declares it, its own otherwise. Missing: constraints declared with
value zero, which are lost (below). -/
theorem C49_inherits_partial (v n : V) (f : Fld) :
    (merge v n).get f = if declared (n.get f) then n.get f else v.get f := by
  have hl : ∀ {α : Type} (l m : List α), (if l.length > 0 then l else m) = if (!l.isEmpty) = true then l else m := by
    intro α l m; cases l <;> simp
  have ho : ∀ {α : Type} [DecidableEq α] (a b : Option α), (if a ≠ none then a else b) = if a.isSome = true then a else b := by
    intro α _ a b; cases a <;> simp
  have happ : ∀ {α : Type} (c : Bool) (g : α → FVal) (a b : α), g (if c = true then a else b) = if c = true then g a else g b := by
    intro α c g a b; split <;> rfl
  cases f
  case required => simp only [merge, V.get, declared, hl]; exact happ _ FVal.names _ _
  case multipleOf => simp only [merge, V.get, declared, hl]; exact happ _ FVal.names _ _
  case maximum => simp only [merge, V.get, declared]; by_cases h : n.maximum = 0 <;> simp [h]
  case exclusiveMaximum => simp only [merge, V.get, declared]; by_cases h : n.exclusiveMaximum = 0 <;> simp [h]
  case minimum => simp only [merge, V.get, declared]; by_cases h : n.minimum = 0 <;> simp [h]
  case exclusiveMinimum => simp only [merge, V.get, declared]; by_cases h : n.exclusiveMinimum = 0 <;> simp [h]
  case maxLength => simp only [merge, V.get, declared]; by_cases h : n.maxLength = 0 <;> simp [h]
  case minLength => simp only [merge, V.get, declared]; by_cases h : n.minLength = 0 <;> simp [h]
  case pattern =>
    simp only [merge, V.get, declared]
    by_cases h : n.pattern = []
    · simp [h]
    · have h' : List.isEmpty n.pattern = false := by
        cases hn : n.pattern with
        | nil => exact absurd hn h
        | cons => rfl
      simp [h, h']
  case maxItems => simp only [merge, V.get, declared]; by_cases h : n.maxItems = 0 <;> simp [h]
  case minItems => simp only [merge, V.get, declared]; by_cases h : n.minItems = 0 <;> simp [h]
  case uniqueItems => simp only [merge, V.get, declared]; exact happ _ FVal.flag _ _
  case maxProperties => simp only [merge, V.get, declared]; by_cases h : n.maxProperties = 0 <;> simp [h]
  case minProperties => simp only [merge, V.get, declared]; by_cases h : n.minProperties = 0 <;> simp [h]
  case enum => simp only [merge, V.get, declared, hl]; exact happ _ FVal.enum _ _
  case const => simp only [merge, V.get, declared, ho]; exact happ _ FVal.const _ _
  case allOf => simp only [merge, V.get, declared, hl]; exact happ _ FVal.ptrs _ _
  case anyOf => simp only [merge, V.get, declared, hl]; exact happ _ FVal.ptrs _ _
  case oneOf => simp only [merge, V.get, declared, hl]; exact happ _ FVal.ptrs _ _
  case isRequired => simp only [merge, V.get, declared]; exact happ _ FVal.flag _ _
  case shouldOmitEmpty => simp only [merge, V.get, declared, ho]; exact happ _ FVal.opt _ _

theorem V.ext_get {v w : V} (h : ∀ f, v.get f = w.get f) : v = w := by
  have a := fun f => h f
  cases v; cases w
  have h1 := a .required; have h2 := a .multipleOf; have h3 := a .maximum; have h4 := a .exclusiveMaximum
  have h5 := a .minimum; have h6 := a .exclusiveMinimum; have h7 := a .maxLength; have h8 := a .minLength
  have h9 := a .pattern; have h10 := a .maxItems; have h11 := a .minItems; have h12 := a .uniqueItems
  have h13 := a .maxProperties; have h14 := a .minProperties; have h15 := a .enum; have h16 := a .const
  have h17 := a .allOf; have h18 := a .anyOf; have h19 := a .oneOf; have h20 := a .isRequired
  have h21 := a .shouldOmitEmpty
  simp only [V.get, FVal.names.injEq, FVal.num.injEq, FVal.text.injEq, FVal.flag.injEq, FVal.enum.injEq,
    FVal.const.injEq, FVal.ptrs.injEq, FVal.opt.injEq, Int.ofNat_inj] at *
  subst_vars
  rfl

/-- **C49 (twice).** Inheriting twice from the same schema changes nothing, for all schemas. -/
theorem C49_idempotent (v n : V) : merge (merge v n) n = merge v n := by
  apply V.ext_get
  intro f
  rw [C49_inherits_partial (merge v n) n f]
  split
  · rename_i h; rw [C49_inherits_partial v n f, if_pos h]
  · rfl

/-- A number of the document, once decoded: absent is zero. -/
def decodeNum : Option Int → Int
  | none => 0
  | some n => n

/-- **C49 is violated**: a referenced `minimum: 0` (or `maximum: 0`) is lost. -/
theorem C49_violated_zero : (merge { minimum := 5 } { minimum := decodeNum (some 0) }).minimum = 5 := by decide

example : (merge { minLength := 2, maximum := 7 } { minLength := 3, pattern := ['x'] }) =
    { minLength := 3, maximum := 7, pattern := ['x'] } := by decide

/-! ## C50 -/

/-- How the validator reads a directive: name and parameter. -/
def splitEq : Str → Str × Str
  | [] => ([], [])
  | c :: s => if c = '=' then ([], s) else (c :: (splitEq s).1, (splitEq s).2)

/-- How the validator (go-playground/validator) reads a tag: directives separated by commas, alternatives by
bars. -/
def readTag (tag : Str) : List (List (Str × Str)) :=
  (Str.split ',' tag).map (fun d => (Str.split '|' d).map splitEq)

/-- Reading the values of `oneof`: quoted words (unquoted ones are not used here). -/
def oneofVals : Option Str → Str → List Str
  | _, [] => []
  | none, c :: s => if c = '\'' then oneofVals (some []) s else oneofVals none s
  | some acc, c :: s => if c = '\'' then acc :: oneofVals none s else oneofVals (some (acc ++ [c])) s

/-- No separator of the tag syntax. -/
def Plain (s : Str) : Prop := ',' ∉ s ∧ '|' ∉ s

/-- The constraints of a schema are printable in a tag: strings and numbers have no separator of the tag
syntax, enumerated values no quote. -/
structure Printable (g : Int → Str) (v : V) : Prop where
  num : ∀ n, Plain (g n)
  enum : ∀ s, AnyV.str s ∈ v.enum → Plain s ∧ '\'' ∉ s
  const : ∀ s, v.const = some (.str s) → Plain s

theorem plain_append {a b : Str} (ha : Plain a) (hb : Plain b) : Plain (a ++ b) := by
  unfold Plain at *
  simp only [List.mem_append, not_or]
  exact ⟨⟨ha.1, hb.1⟩, ⟨ha.2, hb.2⟩⟩

theorem plain_join (ts : List Str) (h : ∀ t ∈ ts, Plain t) : Plain (Str.join ' ' ts) := by
  induction ts with
  | nil => exact ⟨by simp [Str.join], by simp [Str.join]⟩
  | cons t ts ih =>
    cases ts with
    | nil => exact h t (by simp)
    | cons u us =>
      have hi := ih (fun x hx => h x (List.mem_cons_of_mem _ hx))
      have : Str.join ' ' (t :: u :: us) = t ++ ([' '] ++ Str.join ' ' (u :: us)) := by
        simp [Str.join]
      rw [this]
      exact plain_append (h t (by simp)) (plain_append ⟨by decide, by decide⟩ hi)

/-- The directives that do not depend on whether the property is required. -/
def core (v : V) : List Dir :=
  ifDefined "min".toList v.minLength ++ ifDefined "max".toList v.maxLength ++
    ifDefined "gte".toList v.minimum ++ ifDefined "lte".toList v.maximum ++
    ifDefined "gt".toList v.exclusiveMinimum ++ ifDefined "lt".toList v.exclusiveMaximum ++
    (if v.uniqueItems then [.unique] else []) ++ enumDirs v ++ constDirs v

theorem directives_eq (v : V) (isPointer isArray : Bool) :
    directives v isPointer isArray =
      (let ds := (if v.isRequired && (isPointer || isArray) then [Dir.required] else []) ++ core v
       if ds.length > 0 then (if v.isRequired then ds else .omitempty :: ds) else []) := by
  unfold directives core
  simp only [List.append_assoc]

theorem directives_mem (v : V) (isPointer isArray : Bool) (d : Dir) (h : d ∈ directives v isPointer isArray) :
    d = .required ∨ d = .omitempty ∨ d ∈ core v := by
  rw [directives_eq] at h
  generalize core v = c at h
  simp only at h
  cases v.isRequired <;> cases isPointer <;> cases isArray <;> cases c <;> simp at h ⊢ <;> grind

theorem plain_num (g : Int → Str) (hg : ∀ n, Plain (g n)) (name : Str) (n : Int) (hn : Plain name) :
    ∀ d ∈ ifDefined name n, Plain (d.print g) := by
  intro d hd
  unfold ifDefined at hd
  split at hd
  · simp only [List.mem_singleton] at hd
    subst hd
    show Plain (name ++ ('=' :: g n))
    have h1 : Plain ['='] := ⟨by decide, by decide⟩
    exact plain_append hn (plain_append h1 (hg n))
  · cases hd

theorem plain_enum (g : Int → Str) (v : V) (h : ∀ s, AnyV.str s ∈ v.enum → Plain s) :
    ∀ d ∈ enumDirs v, Plain (d.print g) := by
  intro d hd
  have hd' : ∃ vals, d = .oneof vals ∧ ∀ s ∈ vals, AnyV.str s ∈ v.enum := by
    unfold enumDirs at hd
    refine ⟨v.enum.filterMap asStr, ?_, ?_⟩
    · grind
    · intro s hs
      rw [List.mem_filterMap] at hs
      obtain ⟨a, ha, has⟩ := hs
      cases a with
      | other i => cases has
      | str s' => cases has; exact ha
  obtain ⟨vals, rfl, hv⟩ := hd'
  have h1 : Plain ['\''] := ⟨by decide, by decide⟩
  have h2 : Plain "oneof=".toList := ⟨by decide, by decide⟩
  refine plain_append h2 (plain_join _ ?_)
  intro t ht
  rw [List.mem_map] at ht
  obtain ⟨s, hs, rfl⟩ := ht
  exact plain_append h1 (plain_append (h s (hv s hs)) h1)

theorem plain_const (g : Int → Str) (v : V) (h : ∀ s, v.const = some (.str s) → Plain s) :
    ∀ d ∈ constDirs v, Plain (d.print g) := by
  intro d hd
  unfold constDirs at hd
  split at hd
  · rename_i s hs
    simp only [List.mem_singleton] at hd
    subst hd
    have h2 : Plain "eq=".toList := ⟨by decide, by decide⟩
    exact plain_append h2 (h s hs)
  · cases hd

theorem directives_plain (g : Int → Str) (v : V) (hp : Printable g v) (isPointer isArray : Bool) :
    ∀ d ∈ directives v isPointer isArray, Plain (d.print g) := by
  intro d hd
  have hr : Plain ((Dir.required).print g) := by
    show Plain "required".toList
    exact ⟨by decide, by decide⟩
  have ho : Plain ((Dir.omitempty).print g) := by
    show Plain "omitempty".toList
    exact ⟨by decide, by decide⟩
  have hu : Plain ((Dir.unique).print g) := by
    show Plain "unique".toList
    exact ⟨by decide, by decide⟩
  rcases directives_mem v isPointer isArray d hd with rfl | rfl | hd
  · exact hr
  · exact ho
  · unfold core at hd
    simp only [List.mem_append] at hd
    rcases hd with (((((((hd | hd) | hd) | hd) | hd) | hd) | hd) | hd) | hd
    · exact plain_num g hp.num _ _ ⟨by decide, by decide⟩ d hd
    · exact plain_num g hp.num _ _ ⟨by decide, by decide⟩ d hd
    · exact plain_num g hp.num _ _ ⟨by decide, by decide⟩ d hd
    · exact plain_num g hp.num _ _ ⟨by decide, by decide⟩ d hd
    · exact plain_num g hp.num _ _ ⟨by decide, by decide⟩ d hd
    · exact plain_num g hp.num _ _ ⟨by decide, by decide⟩ d hd
    · split at hd
      · simp only [List.mem_singleton] at hd; subst hd; exact hu
      · cases hd
    · exact plain_enum g v (fun s hs => (hp.enum s hs).1) d hd
    · exact plain_const g v hp.const d hd

/-- A directive of the schema is read back from the tag. -/
theorem readTag_mem (g : Int → Str) (v : V) (hp : Printable g v) (isPointer isArray : Bool) (d : Dir)
    (hd : d ∈ directives v isPointer isArray) :
    [splitEq (d.print g)] ∈ readTag (validateTag g v isPointer isArray) := by
  have hpl := directives_plain g v hp isPointer isArray
  unfold readTag validateTag
  rw [Str.split_join ',']
  · rw [List.map_map, List.mem_map]
    refine ⟨d, hd, ?_⟩
    simp [Function.comp, Str.split_single '|' _ (hpl d hd).2]
  · cases hds : directives v isPointer isArray with
    | nil => rw [hds] at hd; cases hd
    | cons => simp
  · intro t ht
    rw [List.mem_map] at ht
    obtain ⟨d', hd', rfl⟩ := ht
    exact (hpl d' hd').1

theorem core_mem (v : V) (isPointer isArray : Bool) (d : Dir) (h : d ∈ core v) : d ∈ directives v isPointer isArray := by
  rw [directives_eq]
  generalize core v = c at h
  have hl : 0 < c.length := List.length_pos_of_mem h
  simp only [List.length_append]
  rw [if_pos (by omega)]
  split
  · exact List.mem_append_right _ h
  · exact List.mem_cons_of_mem _ (List.mem_append_right _ h)

theorem splitEq_append (name rest : Str) (h : '=' ∉ name) : splitEq (name ++ '=' :: rest) = (name, rest) := by
  induction name with
  | nil => simp [splitEq]
  | cons c name ih =>
    simp only [List.mem_cons, not_or] at h
    simp [splitEq, Ne.symm h.1, ih h.2]

theorem oneofVals_join (vals : List Str) (h : ∀ s ∈ vals, '\'' ∉ s) :
    oneofVals none (Str.join ' ' (vals.map (fun s => '\'' :: (s ++ ['\''])))) = vals := by
  have hq : ∀ (s acc rest : Str), '\'' ∉ s → oneofVals (some acc) (s ++ '\'' :: rest) = (acc ++ s) :: oneofVals none rest := by
    intro s
    induction s with
    | nil => intro acc rest _; simp [oneofVals]
    | cons c s ih =>
      intro acc rest hs
      simp only [List.mem_cons, not_or] at hs
      simp [oneofVals, Ne.symm hs.1, ih (acc ++ [c]) rest hs.2]
  have hone : ∀ (s rest : Str), '\'' ∉ s → oneofVals none ('\'' :: (s ++ '\'' :: rest)) = s :: oneofVals none rest := by
    intro s rest hs
    have := hq s [] rest hs
    simpa [oneofVals] using this
  induction vals with
  | nil => rfl
  | cons s vals ih =>
    have ih := ih (fun x hx => h x (List.mem_cons_of_mem _ hx))
    cases vals with
    | nil =>
      have := hone s [] (h s (by simp))
      simpa [Str.join, oneofVals] using this
    | cons t vals =>
      have e : Str.join ' ' ((s :: t :: vals).map (fun s => '\'' :: (s ++ ['\'']))) =
          '\'' :: (s ++ '\'' :: ' ' :: Str.join ' ' ((t :: vals).map (fun s => '\'' :: (s ++ ['\''])))) := by
        simp [Str.join]
      rw [e, hone s _ (h s (by simp))]
      congr 1

/-- **C50 (partial: lengths, bounds, uniqueness, enumerations of strings and string constants, not zero and
printable in a tag).** For every such schema, required or not, pointer or not: the validator reads each
constraint from the tag. Missing: the other constraints, which are lost or misread (below). -/
theorem C50_enforced_partial (g : Int → Str) (v : V) (hp : Printable g v) (isPointer isArray : Bool) :
    let tag := readTag (validateTag g v isPointer isArray)
    (v.minLength ≠ 0 → [("min".toList, g v.minLength)] ∈ tag) ∧
    (v.maxLength ≠ 0 → [("max".toList, g v.maxLength)] ∈ tag) ∧
    (v.minimum ≠ 0 → [("gte".toList, g v.minimum)] ∈ tag) ∧
    (v.maximum ≠ 0 → [("lte".toList, g v.maximum)] ∈ tag) ∧
    (v.exclusiveMinimum ≠ 0 → [("gt".toList, g v.exclusiveMinimum)] ∈ tag) ∧
    (v.exclusiveMaximum ≠ 0 → [("lt".toList, g v.exclusiveMaximum)] ∈ tag) ∧
    (v.uniqueItems = true → [("unique".toList, [])] ∈ tag) ∧
    (∀ strs, strs ≠ [] → v.enum = strs.map .str → ∃ p, [("oneof".toList, p)] ∈ tag ∧ oneofVals none p = strs) ∧
    (∀ s, v.const = some (.str s) → [("eq".toList, s)] ∈ tag) := by
  intro tag
  have key : ∀ d ∈ core v, [splitEq (d.print g)] ∈ tag := fun d hd =>
    readTag_mem g v hp isPointer isArray d (core_mem v isPointer isArray d hd)
  have hn : ∀ (name : Str) (n : Int), '=' ∉ name → splitEq ((Dir.num name n).print g) = (name, g n) :=
    fun name n h => splitEq_append name (g n) h
  have hmem : ∀ (name : Str) (n : Int), '=' ∉ name → n ≠ 0 → (∀ d ∈ ifDefined name n, d ∈ core v) → [(name, g n)] ∈ tag := by
    intro name n h1 h2 h3
    have := key (.num name n) (h3 _ (by simp [ifDefined, h2]))
    rwa [hn name n h1] at this
  refine ⟨?_, ?_, ?_, ?_, ?_, ?_, ?_, ?_, ?_⟩
  · intro h
    exact hmem _ _ (by decide) (by omega) (fun d hd => by simp only [core, List.mem_append, hd, true_or])
  · intro h
    exact hmem _ _ (by decide) (by omega) (fun d hd => by simp only [core, List.mem_append, hd, true_or, or_true])
  · intro h
    exact hmem _ _ (by decide) h (fun d hd => by simp only [core, List.mem_append, hd, true_or, or_true])
  · intro h
    exact hmem _ _ (by decide) h (fun d hd => by simp only [core, List.mem_append, hd, true_or, or_true])
  · intro h
    exact hmem _ _ (by decide) h (fun d hd => by simp only [core, List.mem_append, hd, true_or, or_true])
  · intro h
    exact hmem _ _ (by decide) h (fun d hd => by simp only [core, List.mem_append, hd, true_or, or_true])
  · intro h
    exact key .unique (by simp [core, h])
  · intro strs hne he
    refine ⟨Str.join ' ' (strs.map (fun s => '\'' :: (s ++ ['\'']))), ?_, ?_⟩
    · have hf : (strs.map AnyV.str).filterMap asStr = strs := by
        rw [List.filterMap_map]
        have : (asStr ∘ AnyV.str) = some := by funext s; rfl
        rw [this, List.filterMap_some]
      have hd : Dir.oneof strs ∈ core v := by
        have : enumDirs v = [.oneof strs] := by
          unfold enumDirs
          rw [he, hf]
          cases strs with
          | nil => exact absurd rfl hne
          | cons => simp
        simp [core, this]
      have := key _ hd
      have e : splitEq ((Dir.oneof strs).print g) = ("oneof".toList, Str.join ' ' (strs.map (fun s => '\'' :: (s ++ ['\''])))) :=
        splitEq_append "oneof".toList _ (by decide)
      rwa [e] at this
    · apply oneofVals_join
      intro s hs
      exact (hp.enum s (by rw [he]; exact List.mem_map_of_mem hs)).2
  · intro s hs
    have hd : Dir.eq s ∈ core v := by simp [core, constDirs, hs]
    have := key _ hd
    have e : splitEq ((Dir.eq s).print g) = ("eq".toList, s) := splitEq_append "eq".toList s (by decide)
    rwa [e] at this

theorem filterMap_all (l : List AnyV) (h : l.length = (l.filterMap asStr).length) :
    l = (l.filterMap asStr).map AnyV.str := by
  induction l with
  | nil => rfl
  | cons a l ih =>
    have hle : (l.filterMap asStr).length ≤ l.length := List.length_filterMap_le _ _
    cases a with
    | str s =>
      simp only [List.filterMap_cons, asStr, List.length_cons, List.map_cons] at h ⊢
      rw [← ih (by omega)]
    | other i =>
      simp only [List.filterMap_cons, asStr, List.length_cons] at h
      omega

/-- What justifies a directive: a constraint of the schema. -/
inductive Justified (v : V) : Dir → Prop
  | required : v.isRequired = true → Justified v .required
  | omitempty : v.isRequired = false → Justified v .omitempty
  | min : v.minLength ≠ 0 → Justified v (.num "min".toList v.minLength)
  | max : v.maxLength ≠ 0 → Justified v (.num "max".toList v.maxLength)
  | gte : v.minimum ≠ 0 → Justified v (.num "gte".toList v.minimum)
  | lte : v.maximum ≠ 0 → Justified v (.num "lte".toList v.maximum)
  | gt : v.exclusiveMinimum ≠ 0 → Justified v (.num "gt".toList v.exclusiveMinimum)
  | lt : v.exclusiveMaximum ≠ 0 → Justified v (.num "lt".toList v.exclusiveMaximum)
  | unique : v.uniqueItems = true → Justified v .unique
  | oneof (vals : List Str) : v.enum = vals.map AnyV.str → Justified v (.oneof vals)
  | eq (s : Str) : v.const = some (.str s) → Justified v (.eq s)

/-- **C50 (nothing invented).** For every schema, each directive of the tag is justified by a constraint. -/
theorem C50_justified (v : V) (isPointer isArray : Bool) : ∀ d ∈ directives v isPointer isArray, Justified v d := by
  intro d hd
  have hnum : ∀ (name : Str) (n : Int), d ∈ ifDefined name n → d = .num name n ∧ n ≠ 0 := by
    intro name n h
    unfold ifDefined at h
    split at h
    · exact ⟨List.mem_singleton.mp h, by assumption⟩
    · cases h
  have hcore : d ∈ core v → Justified v d := by
    intro h
    unfold core at h
    simp only [List.mem_append] at h
    rcases h with (((((((h | h) | h) | h) | h) | h) | h) | h) | h
    · obtain ⟨rfl, h'⟩ := hnum _ _ h; exact .min (by omega)
    · obtain ⟨rfl, h'⟩ := hnum _ _ h; exact .max (by omega)
    · obtain ⟨rfl, h'⟩ := hnum _ _ h; exact .gte h'
    · obtain ⟨rfl, h'⟩ := hnum _ _ h; exact .lte h'
    · obtain ⟨rfl, h'⟩ := hnum _ _ h; exact .gt h'
    · obtain ⟨rfl, h'⟩ := hnum _ _ h; exact .lt h'
    · split at h
      · rw [List.mem_singleton.mp h]; exact .unique (by assumption)
      · cases h
    · have : d = .oneof (v.enum.filterMap asStr) := by unfold enumDirs at h; grind
      subst this
      refine .oneof _ ?_
      have hlen : v.enum.length = (v.enum.filterMap asStr).length := by unfold enumDirs at h; grind
      exact filterMap_all v.enum hlen
    · unfold constDirs at h
      split at h
      · rw [List.mem_singleton.mp h]; exact .eq _ (by assumption)
      · cases h
  rw [directives_eq] at hd
  generalize core v = c at hd hcore
  simp only at hd
  cases hr : v.isRequired
  · simp only [hr, Bool.false_and] at hd
    cases c with
    | nil => simp at hd
    | cons x xs =>
      simp at hd
      rcases hd with rfl | hd
      · exact .omitempty hr
      · exact hcore (by simpa using hd)
  · simp only [hr, Bool.true_and] at hd
    cases h2 : (isPointer || isArray)
    · simp only [h2] at hd
      cases c with
      | nil => simp at hd
      | cons x xs => simp at hd; exact hcore (by simpa using hd)
    · simp only [h2] at hd
      simp at hd
      rcases hd with rfl | hd
      · exact .required hr
      · exact hcore hd

/-- **C50 (required).** A required property that is a pointer or an array is checked for presence, for every
schema. -/
theorem C50_required (g : Int → Str) (v : V) (hp : Printable g v) (isPointer isArray : Bool) (hr : v.isRequired = true)
    (h : isPointer = true ∨ isArray = true) :
    [("required".toList, [])] ∈ readTag (validateTag g v isPointer isArray) := by
  have : Dir.required ∈ directives v isPointer isArray := by
    rw [directives_eq]
    generalize core v = c
    rcases h with rfl | rfl <;> simp [hr]
  exact readTag_mem g v hp isPointer isArray _ this

/-- **C50 is violated** (1): `minItems`, `maxItems`, `pattern`, `multipleOf`, `minProperties`, `maxProperties`
never reach the tag. -/
theorem C50_violated_ignored (g : Int → Str) (a b : Nat) (p : Str) (m : List Str) (c d : Nat) (isPointer isArray : Bool) :
    validateTag g { minItems := a, maxItems := b, pattern := p, multipleOf := m, minProperties := c, maxProperties := d }
      isPointer isArray = [] := by
  rfl

/-- **C50 is violated** (2): a bound of zero, an enumeration of numbers, a constant number are lost. -/
theorem C50_violated_zero_and_numbers (g : Int → Str) (isPointer isArray : Bool) :
    validateTag g { minimum := decodeNum (some 0), enum := [.other 1, .other 2], const := some (.other 3) } isPointer isArray = [] := by
  rfl

/-- **C50 is violated** (3): a constant with a comma is read as two directives. -/
theorem C50_violated_comma (g : Int → Str) : readTag (validateTag g { const := some (.str "a,b".toList), isRequired := true } false false) =
    [[("eq".toList, "a".toList)], [("b".toList, [])]] := by
  have hd : directives { const := some (.str ['a', ',', 'b']), isRequired := true } false false = [.eq ['a', ',', 'b']] := rfl
  have hv : validateTag g { const := some (.str ['a', ',', 'b']), isRequired := true } false false = ['e', 'q', '=', 'a', ',', 'b'] := by
    unfold validateTag; rw [hd]; rfl
  show readTag (validateTag g { const := some (.str ['a', ',', 'b']), isRequired := true } false false) = _
  rw [hv]
  decide

/-- Non-vacuity of `C50_enforced_partial`. -/
example : Printable (fun _ => "1".toList) { minLength := 1, enum := [.str "a b".toList], const := some (.str "x".toList) } := by
  refine ⟨fun _ => ⟨by decide, by decide⟩, ?_, ?_⟩
  · intro s hs
    simp only [List.mem_singleton, AnyV.str.injEq] at hs
    subst hs
    exact ⟨⟨by decide, by decide⟩, by decide⟩
  · intro s hs
    simp only [Option.some.injEq, AnyV.str.injEq] at hs
    subst hs
    exact ⟨by decide, by decide⟩

end Verif.Validations

namespace Verif.Fields

open Validations (V shouldAddOmitEmpty isFieldPointer)

variable {J : Type}

/-- Nothing written. -/
def Wire.isAbsent : Wire J → Bool
  | .absent => true
  | _ => false

/-- **C51 (required; partial: the property itself is marked required).** For every value: it is written, unless
`x-omitempty` asks otherwise. Missing: properties that became required by a merge, for which it is false
(below). -/
theorem C51_required_present_partial (t : Ty J) (v : V) (hr : v.isRequired = true) (hx : v.shouldOmitEmpty ≠ some true)
    (x : Val J) : (encode t (shouldAddOmitEmpty v) x).isAbsent = false := by
  have ho : shouldAddOmitEmpty v = false := by
    unfold shouldAddOmitEmpty
    rw [if_pos hr]
    match h : v.shouldOmitEmpty with
    | none => rfl
    | some false => rfl
    | some true => exact absurd h hx
  rw [ho]
  cases x <;> rfl

/-- **C51 (optional).** An absent optional property (a nil pointer or slice) is not written, unless
`x-omitempty` asks otherwise. -/
theorem C51_optional_absent (t : Ty J) (v : V) (hr : v.isRequired = false) (hx : v.shouldOmitEmpty ≠ some false)
    (isArray : Bool) :
    (encode t (shouldAddOmitEmpty v) (zeroVal t (shape false v isArray))).isAbsent = true := by
  have ho : shouldAddOmitEmpty v = true := by
    unfold shouldAddOmitEmpty
    rw [if_neg (by simp [hr])]
    match h : v.shouldOmitEmpty with
    | none => rfl
    | some true => rfl
    | some false => exact absurd h hx
  rw [ho]
  cases isArray <;> simp [shape, isFieldPointer, hr, zeroVal, encode, Val.isEmpty, Wire.isAbsent]

/-- **C51 (decoding; partial: not an empty array that is omitted).** Whatever the tag, decoding what was
written gives back the value. Missing: empty arrays omitted by `omitempty`, which come back as nil (below). -/
theorem C51_round_trip_partial (t : Ty J) (omitEmpty : Bool) (s : Shape) (x : Val J) (hs : x.has s)
    (he : omitEmpty = true → ∀ js, x = .slice js → js ≠ []) :
    decode t s (encode t omitEmpty x) = some x := by
  unfold encode
  cases x with
  | nilPtr => cases s <;> simp_all [Val.has, Val.isEmpty] <;> split <;> rfl
  | ptr j => cases s <;> simp_all [Val.has, Val.isEmpty, decode]
  | plain j =>
    cases s <;> simp_all [Val.has, Val.isEmpty]
    split
    · rename_i h
      rw [t.empty_zero j h.2]; rfl
    · rfl
  | nilSlice => cases s <;> simp_all [Val.has, Val.isEmpty] <;> split <;> rfl
  | slice js =>
    cases s <;> simp_all [Val.has, Val.isEmpty]
    rw [if_neg (fun h => he h.1 h.2)]
    rfl

/-- **C51 is violated** (1): a property required by its object but not marked itself (the requirement came
with a merge: `SchemaMerge.C48_required_not_marked`) is a plain field with `omitempty`, so its zero value is
not written. -/
theorem C51_violated_merged_requirement (t : Ty J) (hz : t.empty t.zero = true) (v : V) (hr : v.isRequired = false)
    (hx : v.shouldOmitEmpty = none) :
    shape true v false = .plain ∧ (encode t (shouldAddOmitEmpty v) (.plain t.zero)).isAbsent = true := by
  simp [shape, isFieldPointer, shouldAddOmitEmpty, hr, hx, encode, Val.isEmpty, hz, Wire.isAbsent]

/-- **C51 is violated** (2): an empty optional array comes back as nil. -/
theorem C51_violated_empty_array (t : Ty J) : decode t .slice (encode t true (.slice [])) = some .nilSlice := by
  rfl

/-- Non-vacuity: strings. -/
def strTy : Ty Str := ⟨[], List.isEmpty, fun j h => by cases j <;> simp_all⟩
example : (Val.ptr "x".toList : Val Str).has .pointer := trivial

end Verif.Fields
