import Verif.Model.Convert

/-! # C103: the conversion functions of messages compile -/

namespace Verif.Convert

open Types (Ty Cfg Sch Info schemaName tObject tArray tBoolean tString tInteger tNumber)

/-! ## Specification -/

/-- The format is one of those that become Go times. -/
def Dated (c : Cfg) (f : Str) : Prop := c.dates = true ∧ (f = "date".toList ∨ f = "date-time".toList)

/-- Which payloads can be converted: objects, arrays, integers, strings, except dates, and date-times behind a
reference; a payload whose schema (or the schema it refers to) has no type of its own, if it stands for text. -/
def PayloadOk (c : Cfg) (env : Env) (p : Payload) : Prop :=
  match p.target with
  | none =>
    p.sch.info.type = tObject ∨ p.sch.info.type = tArray ∨ p.sch.info.type = tInteger ∨
    (p.sch.info.type = tString ∧ ¬ (c.dates = true ∧ p.sch.info.format = "date".toList)) ∨
    (p.sch.info.type = [] ∧ ∃ t, schemaName c p.sch = .ok t ∧ underTy env t = some .string)
  | some t =>
    t.info.type = tObject ∨ t.info.type = tArray ∨ t.info.type = tInteger ∨
    (t.info.type = tString ∧ ¬ Dated c t.info.format) ∨
    (t.info.type = [] ∧ env t.info.name = some .string)

/-- Which headers can be converted: objects, strings, date-times (unless required and forced to be pointers) and
references that stand for text; none that only the list of required names requires, unless pointers are forced. -/
def HeaderOk (c : Cfg) (env : Env) (force : Bool) (h : Header) : Prop :=
  (h.required = true ∨ h.listed = false ∨ force = true) ∧
  (h.sch.info.type = tObject ∨
    (h.sch.info.type = tString ∧ ¬ Dated c h.sch.info.format) ∨
    (h.sch.info.type = tString ∧ c.dates = true ∧ h.sch.info.format = "date-time".toList ∧
      ¬ (h.required = true ∧ force = true)) ∨
    (h.sch.info.type = [] ∧ ∃ n, h.ref = some n ∧ env n = some .string))

/-- A header that is a required object. -/
def Header.requiredObject (h : Header) : Bool := h.required && decide (h.sch.info.type = tObject)

/-- Which headers can be converted together: at least one is declared, each can be converted, and at most one is a
required object. -/
def HeadersOk (c : Cfg) (env : Env) (force : Bool) (hs : List Header) : Prop :=
  hs ≠ [] ∧ (∀ h ∈ hs, HeaderOk c env force h) ∧ (hs.filter Header.requiredObject).length ≤ 1

/-- Which messages can be converted. -/
def MsgOk (c : Cfg) (env : Env) (force : Bool) (m : Msg) : Prop :=
  PayloadOk c env m.payload ∧ ∀ hs, m.headers = some hs → HeadersOk c env force hs

/-! ## Hypotheses -/

/-- What generated packages declare: no type is a slice of bytes, none has the name of a type of JSON Schema. -/
structure EnvOk (env : Env) : Prop where
  noBytes : ∀ n, env n ≠ some .bytes
  noJson : ∀ t ∈ [tObject, tArray, tBoolean, tString, tInteger, tNumber], env t = none

/-- The schema of a field has a Go type that exists, and no custom one. -/
def HasType (c : Cfg) (env : Env) (s : Sch) : Prop :=
  s.info.goType = [] ∧ ∃ t, schemaName c s = .ok t ∧ underTy env t ≠ none

/-- A schema that is a reference to the type `n`. -/
structure RefTo (c : Cfg) (s : Sch) (n : Str) : Prop where
  type : s.info.type = []
  format : s.info.format = []
  choice : s.info.choice = false
  ref : s.info.ref = some n
  name : c.nm n = n

/-- What the package declares for a schema (schema_definition.tmpl). -/
def Declared (c : Cfg) (env : Env) (s : Sch) : Prop :=
  if s.info.type = tObject then env s.info.name = some .struct
  else ∃ t, schemaName c s = .ok t ∧ env s.info.name = underTy env t ∧ underTy env t ≠ none

/-- A message as processing leaves it. -/
structure MsgWF (c : Cfg) (env : Env) (m : Msg) : Prop where
  payload : HasType c env m.payload.sch
  target : ∀ t, m.payload.target = some t → RefTo c m.payload.sch t.info.name ∧ t.info.goType = [] ∧ Declared c env t
  headers : ∀ hs, m.headers = some hs → (hs.map Header.key).Nodup ∧
    ∀ h ∈ hs, HasType c env h.sch ∧ ∀ n, h.ref = some n → RefTo c h.sch n

/-! ## Types of fields -/

theorem schemaName_object (c : Cfg) (s : Sch) (h : s.info.goType = []) (ht : s.info.type = tObject) :
    schemaName c s = .ok (.named (c.nm s.info.name)) := by
  obtain ⟨i, p, it, x⟩ := s
  simp only [Sch.info] at h ht
  unfold schemaName
  simp [h, ht, tObject, Sch.info]

theorem schemaName_string (c : Cfg) (s : Sch) (h : s.info.goType = []) (ht : s.info.type = tString) :
    schemaName c s = .ok (if c.dates = true ∧ s.info.format = "date".toList then .date
      else if c.dates = true ∧ s.info.format = "date-time".toList then .time else .string) := by
  obtain ⟨i, p, it, x⟩ := s
  simp only [Sch.info] at h ht
  change schemaName c _ = .ok (if c.dates = true ∧ i.format = "date".toList then .date
      else if c.dates = true ∧ i.format = "date-time".toList then .time else .string)
  unfold schemaName
  simp only [h, ht, show tString ≠ [] by decide, show tString ≠ tObject by decide, show tString ≠ tBoolean by decide,
    ne_eq, not_true_eq_false, not_false_eq_true, if_true, if_false]
  split
  · rfl
  · split <;> rfl

theorem schemaName_integer (c : Cfg) (s : Sch) (h : s.info.goType = []) (ht : s.info.type = tInteger) :
    schemaName c s = .ok (if s.info.format = "int32".toList then .int32 else .int64) := by
  obtain ⟨i, p, it, x⟩ := s
  simp only [Sch.info] at h ht
  change schemaName c _ = .ok (if i.format = "int32".toList then .int32 else .int64)
  unfold schemaName
  simp only [h, ht, show tInteger ≠ [] by decide, show tInteger ≠ tObject by decide, show tInteger ≠ tBoolean by decide,
    show tInteger ≠ tString by decide,
    ne_eq, not_true_eq_false, not_false_eq_true, if_true, if_false]
  split <;> rfl

theorem schemaName_ref (c : Cfg) (s : Sch) (n : Str) (h : s.info.goType = []) (hr : RefTo c s n) :
    schemaName c s = .ok (.named n) := by
  have h1 := hr.type
  have h2 := hr.choice
  have h3 := hr.ref
  have h4 := hr.name
  obtain ⟨i, p, it, x⟩ := s
  simp only [Sch.info] at h h1 h2 h3
  unfold schemaName
  simp [h, h1, h2, h3, h4]

/-- Only the types of strings, and schemas without a type, can be text. -/
theorem schemaName_text (c : Cfg) (env : Env) (s : Sch) (t : Ty) (h : s.info.goType = [])
    (hn : schemaName c s = .ok t) (hu : underTy env t = some .string) :
    s.info.type = tObject ∨ s.info.type = tString ∨ s.info.type = [] := by
  obtain ⟨i, p, it, x⟩ := s
  simp only [Sch.info] at h ⊢
  unfold schemaName at hn
  simp only [h, ne_eq, not_true_eq_false, if_false] at hn
  by_cases h0 : i.type = []
  · exact Or.inr (Or.inr h0)
  by_cases h1 : i.type = tObject
  · exact Or.inl h1
  by_cases h2 : i.type = tString
  · exact Or.inr (Or.inl h2)
  exfalso
  simp only [h0, h1, h2, not_false_eq_true, if_true, if_false] at hn
  repeat' split at hn
  all_goals first
    | (cases hn; simp [underTy] at hu; done)
    | (cases hn; done)
    | skip

theorem schemaName_time (c : Cfg) (s : Sch) (h : s.info.goType = []) (hn : schemaName c s = .ok .time) :
    s.info.type = tString ∧ c.dates = true ∧ s.info.format = "date-time".toList := by
  by_cases ht : s.info.type = tString
  · rw [schemaName_string c s h ht] at hn
    refine ⟨ht, ?_⟩
    split at hn
    · cases hn
    · split at hn
      · assumption
      · cases hn
  · exfalso
    obtain ⟨i, p, it, x⟩ := s
    simp only [Sch.info] at h ht
    unfold schemaName at hn
    simp only [h, ne_eq, not_true_eq_false, if_false, ht] at hn
    repeat' split at hn
    all_goals first
      | (cases hn; done)
      | skip

/-! ## Assignments and conversions -/

theorem assignable_ptr (env : Env) (a b : GT) : assignable env (.ptr a) (.ptr b) = true ↔ a = b := by
  unfold assignable
  simp only [under, isNamed, Bool.or_eq_true, decide_eq_true_eq, Bool.and_eq_true, Option.some.injEq, U.ptr.injEq, reduceCtorEq,
    or_false, GT.ptr.injEq, Bool.not_false, Option.isSome_some, and_true]
  exact ⟨fun h => h.elim id And.left, fun h => Or.inl h⟩

theorem assignable_self (env : Env) (t : GT) : assignable env t t = true := by simp [assignable]

theorem assignable_bytes (env : Env) (t : Ty) (hs : underTy env t = some .string) : assignable env (.ty t) .bytes = false := by
  simp [assignable, under, hs]

theorem convertible_bytes (env : Env) (t : Ty) (hb : underTy env t ≠ some .bytes) :
    convertible env .bytes (.ty t) = true ↔ underTy env t = some .string := by
  have key : ∀ o, underTy env t = o → (convertible env .bytes (.ty t) = true ↔ o = some .string) := by
    intro o hu
    rw [hu] at hb
    rcases o with _ | u
    · simp [convertible, assignable, under, hu]
    · cases u <;> simp [convertible, assignable, under, hu, convertU, U.numeric] at hb ⊢
  exact key _ rfl

theorem underTy_bytes (env : Env) (he : EnvOk env) (t : Ty) : underTy env t ≠ some .bytes := by
  cases t <;> simp [underTy]
  exact he.noBytes _

theorem convertible_string (env : Env) : convertible env (.ty .string) .bytes = true := by
  simp [convertible, assignable, under, underTy, convertU]

theorem hasFormat_ty (t : Ty) : hasFormat (.ty t) = true ↔ t = .time := by
  cases t <;> simp [hasFormat]

theorem hasFormat_ptr (t : Ty) : hasFormat (.ptr (.ty t)) = true ↔ t = .time := by
  cases t <;> simp [hasFormat]

/-! ## Reading a header -/

theorem ctx_cons (x : Str) (t : GT) (c : Ctx) (y : Str) : Ctx.type ((x, t) :: c) y = if x = y then some t else Ctx.type c y := by
  unfold Ctx.type
  by_cases h : x = y
  · simp [h]
  · simp [h]

theorem ctx_nil (y : Str) : Ctx.type [] y = none := rfl

/-- A value that the header's case assigns. -/
theorem read_unmarshal (env : Env) (flds : Fld → Option GT) (outer : Ctx) (hv : outer.type vV = some .bytes) (p : E) :
    blockOk env flds outer [.define [vErr] (.unmarshal (.var vV) p), .check vErr] = true := by
  have h1 : checkSimple env flds outer [] (.define [vErr] (.unmarshal (.var vV) p)) = some [(vErr, .error)] := by
    simp [checkSimple, typesOf, typeOf, hv, assignable_self, declare, ctx_nil]
  have h2 : checkSimple env flds outer [(vErr, .error)] (.check vErr) = some [(vErr, .error)] := by
    simp [checkSimple, ctx_cons, comparableToNil, under]
  unfold blockOk checkBlock
  rw [h1]
  simp only
  unfold checkBlock
  rw [h2]
  simp [checkBlock, usesAll, Simple.uses, E.uses]

theorem read_date (env : Env) (flds : Fld → Option GT) (outer : Ctx) (hv : outer.type vV = some .bytes) (f : Fld) (e : E)
    (he : e = .var vT ∨ e = .addr (.var vT)) (l r : GT) (hl : flds f = some l)
    (hr : typeOf env flds ([(vT, .ty .time), (vErr, .error)] ++ outer) e = some r) :
    blockOk env flds outer [.define [vT, vErr] (.parse (.conv (.ty .string) (.var vV))), .check vErr, .set f e] =
      assignable env l r := by
  have h1 : checkSimple env flds outer [] (.define [vT, vErr] (.parse (.conv (.ty .string) (.var vV)))) =
      some [(vT, .ty .time), (vErr, .error)] := by
    simp [checkSimple, typesOf, typeOf, hv, convertible_string, assignable_self, declare, ctx_nil]
  have h2 : checkSimple env flds outer [(vT, .ty .time), (vErr, .error)] (.check vErr) = some [(vT, .ty .time), (vErr, .error)] := by
    simp [checkSimple, ctx_cons, show vT ≠ vErr by decide, comparableToNil, under]
  unfold blockOk checkBlock
  rw [h1]
  simp only
  unfold checkBlock
  rw [h2]
  simp only
  unfold checkBlock
  have h3 : checkSimple env flds outer [(vT, .ty .time), (vErr, .error)] (.set f e) =
      if assignable env l r then some [(vT, .ty .time), (vErr, .error)] else none := by
    simp only [checkSimple, hl, hr]
  rw [h3]
  cases assignable env l r
  · rfl
  · rcases he with rfl | rfl <;> simp [checkBlock, usesAll, Simple.uses, E.uses]

/-- The conversion of a header's bytes. -/
theorem typeOf_convert_string (env : Env) (flds : Fld → Option GT) (c : Ctx) (hv : c.type vV = some .bytes) :
    typeOf env flds c (.call tString (.var vV)) = some (.ty .string) := by
  simp [typeOf, typeNamed, hv, convertible_string]

theorem typeOf_convert_ref (env : Env) (he : EnvOk env) (flds : Fld → Option GT) (c : Ctx) (hv : c.type vV = some .bytes) (n : Str)
    (hn : env n = some .string) : typeOf env flds c (.call n (.var vV)) = some (.ty (.named n)) := by
  have h1 : n ≠ tString := by
    intro h
    rw [h, he.noJson tString (by decide)] at hn
    cases hn
  have h2 : convertible env (.ty (.named n)) .bytes = true := by
    simp [convertible, under, underTy, hn, convertU]
  simp [typeOf, typeNamed, hv, h1, hn, h2]

theorem read_pointer (env : Env) (flds : Fld → Option GT) (outer : Ctx) (f : Fld) (e : E) (l r : GT)
    (hl : flds f = some l) (hr : typesOf env flds outer e = some [r]) :
    blockOk env flds outer [.define [vH] e, .set f (.addr (.var vH))] = assignable env l (.ptr r) := by
  have h1 : checkSimple env flds outer [] (.define [vH] e) = some [(vH, r)] := by
    simp [checkSimple, hr, declare, ctx_nil]
  unfold blockOk checkBlock
  rw [h1]
  simp only
  unfold checkBlock
  have h3 : checkSimple env flds outer [(vH, r)] (.set f (.addr (.var vH))) =
      if assignable env l (.ptr r) then some [(vH, r)] else none := by
    simp [checkSimple, hl, typeOf, ctx_cons]
  rw [h3]
  cases assignable env l (.ptr r)
  · rfl
  · simp [checkBlock, usesAll, Simple.uses, E.uses]

theorem read_plain (env : Env) (flds : Fld → Option GT) (outer : Ctx) (f : Fld) (e : E) (l r : GT)
    (hl : flds f = some l) (hr : typeOf env flds outer e = some r) :
    blockOk env flds outer [.set f e] = assignable env l r := by
  unfold blockOk checkBlock
  have h3 : checkSimple env flds outer [] (.set f e) = if assignable env l r then some [] else none := by
    simp only [checkSimple, hl, List.nil_append, hr]
  rw [h3]
  cases assignable env l r <;> simp [checkBlock]

/-! ## Headers -/

/-- What writing a header needs. -/
def WriteOk (c : Cfg) (env : Env) (force : Bool) (h : Header) : Prop :=
  (h.required = true ∨ h.pointer force = true) ∧
  (h.sch.info.type = tObject ∨
    (h.sch.info.type ≠ tObject ∧ dateFormat c h.sch.info.format = true ∧ schemaName c h.sch = .ok .time ∧
      ¬ (h.required = true ∧ h.pointer force = true)) ∨
    (h.sch.info.type ≠ tObject ∧ dateFormat c h.sch.info.format = false ∧
      ∃ t, schemaName c h.sch = .ok t ∧ underTy env t = some .string))

theorem pointer_of (force : Bool) (h : Header) (ha : h.sch.info.type ≠ tArray) :
    h.pointer force = (force || !(h.listed || h.required)) := by
  unfold Header.pointer
  cases force <;> simp [ha]

theorem dateFormat_iff (c : Cfg) (f : Str) : dateFormat c f = true ↔ Dated c f := by
  unfold dateFormat Dated
  rw [Bool.and_eq_true, Bool.or_eq_true, decide_eq_true_eq, decide_eq_true_eq]

theorem headerOk_type (c : Cfg) (env : Env) (force : Bool) (h : Header) (hk : HeaderOk c env force h) :
    h.sch.info.type ≠ tArray := by
  obtain ⟨-, h1 | ⟨h1, -⟩ | ⟨h1, -⟩ | ⟨h1, -⟩⟩ := hk <;> rw [h1] <;> decide

theorem writeOk_of_headerOk (c : Cfg) (env : Env) (force : Bool) (h : Header) (ht : HasType c env h.sch)
    (hr : ∀ n, h.ref = some n → RefTo c h.sch n) (hk : HeaderOk c env force h) : WriteOk c env force h := by
  have ha := headerOk_type c env force h hk
  obtain ⟨hf, hk⟩ := hk
  refine ⟨?_, ?_⟩
  · rw [pointer_of force h ha]
    cases h1 : h.required
    · right
      rcases hf with h2 | h2 | h2
      · rw [h1] at h2; cases h2
      · simp [h2]
      · simp [h2]
    · exact Or.inl rfl
  · rcases hk with h1 | ⟨h1, h2⟩ | ⟨h1, h2, h3, h4⟩ | ⟨h1, n, h2, h3⟩
    · exact Or.inl h1
    · right; right
      refine ⟨by rw [h1]; decide, ?_, .string, ?_, rfl⟩
      · rw [← Bool.not_eq_true, dateFormat_iff]; exact h2
      · rw [schemaName_string c _ ht.1 h1, if_neg, if_neg]
        · exact fun h => h2 ⟨h.1, Or.inr h.2⟩
        · exact fun h => h2 ⟨h.1, Or.inl h.2⟩
    · right; left
      refine ⟨by rw [h1]; decide, ?_, ?_, ?_⟩
      · rw [dateFormat_iff]; exact ⟨h2, Or.inr h3⟩
      · rw [schemaName_string c _ ht.1 h1, if_neg, if_pos ⟨h2, h3⟩]
        rw [h3]
        exact fun h => absurd h.2 (by decide)
      · rw [pointer_of force h ha]
        rintro ⟨h5, h6⟩
        refine h4 ⟨h5, ?_⟩
        simpa [h5] using h6
    · right; right
      have h5 := hr n h2
      refine ⟨by rw [h1]; decide, ?_, .named n, schemaName_ref c _ n ht.1 h5, h3⟩
      rw [← Bool.not_eq_true, dateFormat_iff, h5.format]
      rintro ⟨-, h6 | h6⟩
      · exact absurd h6 (by decide)
      · exact absurd h6 (by decide)

/-- The type of the field of a header. -/
def fieldType (force : Bool) (h : Header) (t : Ty) : GT := if h.pointer force then .ptr (.ty t) else .ty t

theorem read_of_headerOk (c : Cfg) (env : Env) (he : EnvOk env) (force : Bool) (h : Header) (t : Ty) (hg : h.sch.info.goType = [])
    (htn : schemaName c h.sch = .ok t)
    (hr : ∀ n, h.ref = some n → RefTo c h.sch n) (flds : Fld → Option GT) (hf : flds (.header h.key) = some (fieldType force h t))
    (outer : Ctx) (hv : outer.type vV = some .bytes) (hk : HeaderOk c env force h) :
    blockOk env flds outer (readHeader c force h) = true := by
  obtain ⟨-, h1 | ⟨h1, h2⟩ | ⟨h1, h2, h3, h4⟩ | ⟨h1, n, h2, h3⟩⟩ := hk
  · unfold readHeader
    simp only [h1, if_true]
    split <;> exact read_unmarshal env flds outer hv _
  · have h5 : dateFormat c h.sch.info.format = false := by
      rw [← Bool.not_eq_true, dateFormat_iff]; exact h2
    have h6 : h.ref = none := by
      cases h7 : h.ref with
      | none => rfl
      | some n => exact absurd (h1.symm.trans (hr n h7).type) (by decide)
    have h7 : h.convert = .call tString (.var vV) := by
      unfold Header.convert
      rw [h6]
      simp only [h1, show tString ≠ [] by decide, if_false]
    have h8 : t = .string := by
      rw [schemaName_string c _ hg h1, if_neg, if_neg] at htn
      · cases htn; rfl
      · exact fun h => h2 ⟨h.1, Or.inr h.2⟩
      · exact fun h => h2 ⟨h.1, Or.inl h.2⟩
    subst h8
    unfold readHeader
    simp only [h1, show tString ≠ tObject by decide, if_false, h5, Bool.false_eq_true, h7]
    cases hp : h.pointer force
    · simp only [Bool.false_eq_true, if_false]
      rw [read_plain env flds outer _ _ _ _ hf (typeOf_convert_string env flds outer hv)]
      simp [fieldType, hp, assignable_self]
    · simp only [if_true]
      rw [read_pointer env flds outer _ _ _ (.ty .string) hf (by simp [typesOf, typeOf_convert_string env flds outer hv])]
      simp [fieldType, hp, assignable_self]
  · have h5 : dateFormat c h.sch.info.format = true := by
      rw [dateFormat_iff]; exact ⟨h2, Or.inr h3⟩
    have h8 : t = .time := by
      rw [schemaName_string c _ hg h1, if_neg, if_pos ⟨h2, h3⟩] at htn
      · cases htn; rfl
      · rw [h3]; exact fun h => absurd h.2 (by decide)
    subst h8
    unfold readHeader
    simp only [h1, show tString ≠ tObject by decide, if_false, h5, if_true]
    cases hp : h.pointer force
    · simp only [Bool.false_eq_true, if_false]
      rw [read_date env flds outer hv _ _ (Or.inl rfl) _ (.ty .time) hf (by simp [typeOf, ctx_cons])]
      simp [fieldType, hp, assignable_self]
    · simp only [if_true]
      rw [read_date env flds outer hv _ _ (Or.inr rfl) _ (.ptr (.ty .time)) hf (by simp [typeOf, ctx_cons])]
      simp [fieldType, hp, assignable_self]
  · have h4 := hr n h2
    have h5 : dateFormat c h.sch.info.format = false := by
      rw [← Bool.not_eq_true, dateFormat_iff, h4.format]
      rintro ⟨-, h6 | h6⟩
      · exact absurd h6 (by decide)
      · exact absurd h6 (by decide)
    have h7 : h.convert = .call n (.var vV) := by
      unfold Header.convert
      rw [h2]
    have h8 : t = .named n := by
      rw [schemaName_ref c _ n hg h4] at htn
      cases htn; rfl
    subst h8
    unfold readHeader
    simp only [h1, show ([] : Str) ≠ tObject by decide, if_false, h5, Bool.false_eq_true, h7]
    cases hp : h.pointer force
    · simp only [Bool.false_eq_true, if_false]
      rw [read_plain env flds outer _ _ _ _ hf (typeOf_convert_ref env he flds outer hv n h3)]
      simp [fieldType, hp, assignable_self]
    · simp only [if_true]
      rw [read_pointer env flds outer _ _ _ (.ty (.named n)) hf (by simp [typesOf, typeOf_convert_ref env he flds outer hv n h3])]
      simp [fieldType, hp, assignable_self]

theorem headerOk_of (c : Cfg) (env : Env) (force : Bool) (h : Header) (t : Ty) (hg : h.sch.info.goType = [])
    (htn : schemaName c h.sch = .ok t)
    (hr : ∀ n, h.ref = some n → RefTo c h.sch n) (flds : Fld → Option GT) (hf : flds (.header h.key) = some (fieldType force h t))
    (outer : Ctx) (hv : outer.type vV = some .bytes) (hw : WriteOk c env force h)
    (hb : blockOk env flds outer (readHeader c force h) = true) : HeaderOk c env force h := by
  obtain ⟨hq, hw⟩ := hw
  refine ⟨?_, ?_⟩
  · rcases hq with hq | hq
    · exact Or.inl hq
    · unfold Header.pointer at hq
      cases force
      · simp at hq
        exact Or.inr (Or.inl hq.1.1)
      · exact Or.inr (Or.inr rfl)
  · rcases hw with h1 | ⟨h1, h2, h3, h4⟩ | ⟨h1, h2, s, h3, h4⟩
    · exact Or.inl h1
    · obtain ⟨h5, h6, h7⟩ := schemaName_time c _ hg h3
      right; right; left
      refine ⟨h5, h6, h7, ?_⟩
      rintro ⟨h8, h9⟩
      refine h4 ⟨h8, ?_⟩
      rw [pointer_of force h (by rw [h5]; decide), h9]
      rfl
    · rcases schemaName_text c env _ s hg h3 h4 with h5 | h5 | h5
      · exact absurd h5 h1
      · right; left
        refine ⟨h5, ?_⟩
        rw [← dateFormat_iff, h2]
        simp
      · right; right; right
        refine ⟨h5, ?_⟩
        have hst : s = t := by
          rw [htn] at h3
          cases h3; rfl
        subst hst
        cases h6 : h.ref with
        | some n =>
          refine ⟨n, rfl, ?_⟩
          rw [schemaName_ref c _ n hg (hr n h6)] at h3
          cases h3
          exact h4
        | none =>
          exfalso
          have h7 : h.convert = .var vV := by
            unfold Header.convert
            rw [h6]
            simp only [h5, if_true]
          unfold readHeader at hb
          simp only [h5, show ([] : Str) ≠ tObject by decide, if_false, h2, Bool.false_eq_true, h7] at hb
          cases hp : h.pointer force
          · simp only [hp, Bool.false_eq_true, if_false] at hb
            rw [read_plain env flds outer _ _ _ .bytes hf (by simp [typeOf, hv])] at hb
            simp [fieldType, hp, assignable_bytes env s h4] at hb
          · simp only [hp, if_true] at hb
            rw [read_pointer env flds outer _ _ _ .bytes hf (by simp [typesOf, typeOf, hv])] at hb
            simp [fieldType, hp, assignable_ptr] at hb

/-! ## Writing headers -/

theorem ctx_append (a b : Ctx) (x : Str) : Ctx.type (a ++ b) x = (Ctx.type a x).or (Ctx.type b x) := by
  unfold Ctx.type
  rw [List.find?_append]
  cases List.find? (fun e : Str × GT => decide (e.1 = x)) a <;> simp

theorem checkStmts_append (env : Env) (flds : Fld → Option GT) (x : Ctx) (a b : List Stmt) :
    checkStmts env flds x (a ++ b) = (checkStmts env flds x a).bind (fun y => checkStmts env flds y b) := by
  induction a generalizing x with
  | nil => rfl
  | cons s a ih =>
    rw [List.cons_append, checkStmts, checkStmts]
    cases checkStmt env flds x s with
    | none => rfl
    | some y => exact ih y

/-- The variables while headers are written. -/
structure CtxW (x : Ctx) : Prop where
  headers : x.type vHeaders = some .table
  err : x.type vErr = none ∨ x.type vErr = some .error
  h : x.type vH = none ∨ (x.type vH = some .bytes ∧ x.type vErr = some .error)

/-- Whether an expression can be converted to bytes. -/
def convOk (env : Env) (flds : Fld → Option GT) (x : Ctx) (e : E) : Bool :=
  match typeOf env flds x e with
  | some r => convertible env .bytes r
  | none => false

theorem put_conv (env : Env) (flds : Fld → Option GT) (outer inner : Ctx) (hh : Ctx.type (inner ++ outer) vHeaders = some .table) (e : E) :
    checkSimple env flds outer inner (.put (.conv .bytes e)) = if convOk env flds (inner ++ outer) e then some inner else none := by
  have hh' : Ctx.type (inner ++ outer) "headers".toList = some .table := hh
  have key : ∀ o, typeOf env flds (inner ++ outer) e = o → checkSimple env flds outer inner (.put (.conv .bytes e)) =
      if convOk env flds (inner ++ outer) e then some inner else none := by
    intro o ho
    rcases o with _ | r
    · simp only [checkSimple, convOk, hh', typeOf, ho]
      simp
    · cases hc : convertible env .bytes r <;>
        simp only [checkSimple, convOk, hh', typeOf, ho, hc, assignable_self, decide_true, Bool.and_self, if_true, if_false, Bool.false_eq_true]
  exact key _ rfl

theorem convOk_deref_format (env : Env) (flds : Fld → Option GT) (x : Ctx) (e : E) : convOk env flds x (.deref (.format e)) = false := by
  unfold convOk typeOf typeOf
  cases typeOf env flds x e with
  | none => rfl
  | some t => cases h : hasFormat t <;> simp [h]

theorem convertible_bytes_string (env : Env) : convertible env .bytes (.ty .string) = true := by
  simp [convertible, assignable, under, underTy, convertU]

theorem convOk_format (env : Env) (flds : Fld → Option GT) (x : Ctx) (f : Fld) (r : GT) (hf : flds f = some r) :
    convOk env flds x (.format (.fld f)) = hasFormat r := by
  unfold convOk typeOf typeOf
  rw [hf]
  cases h : hasFormat r <;> simp [h, convertible_bytes_string]

theorem convOk_fld (env : Env) (flds : Fld → Option GT) (x : Ctx) (f : Fld) (r : GT) (hf : flds f = some r) :
    convOk env flds x (.fld f) = convertible env .bytes r := by
  unfold convOk typeOf
  rw [hf]

theorem convOk_deref_ptr (env : Env) (flds : Fld → Option GT) (x : Ctx) (f : Fld) (r : GT) (hf : flds f = some (.ptr r)) :
    convOk env flds x (.deref (.fld f)) = convertible env .bytes r := by
  unfold convOk typeOf typeOf
  rw [hf]

theorem typeOf_deref_ty (env : Env) (flds : Fld → Option GT) (x : Ctx) (f : Fld) (t : Ty) (hf : flds f = some (.ty t)) :
    typeOf env flds x (.deref (.fld f)) = none := by
  unfold typeOf typeOf
  rw [hf]

/-- The variables that a required object declares. -/
def newVars (x : Ctx) : Ctx := if x.type vErr = none then [(vH, .bytes), (vErr, .error)] else [(vH, .bytes)]

theorem marshal_block (env : Env) (flds : Fld → Option GT) (outer x : Ctx) (hh : Ctx.type (x ++ outer) vHeaders = some .table)
    (he : x.type vErr = none ∨ x.type vErr = some .error) (hx : x.type vH = none ∨ (x.type vH = some .bytes ∧ x.type vErr = some .error))
    (e : E) (t : GT) (ht : typeOf env flds (x ++ outer) e = some t) :
    checkBlock env flds outer x [.define [vH, vErr] (.marshal e), .check vErr, .put (.var vH)] =
      if x.type vH = none then some (x ++ newVars x) else none := by
  have hdis : vH ≠ vErr := by decide
  have h1 : checkSimple env flds outer x (.define [vH, vErr] (.marshal e)) =
      if x.type vH = none then some (x ++ newVars x) else none := by
    simp only [checkSimple, typesOf, ht, declare]
    rcases hx with hx | ⟨hx, hx'⟩
    · rcases he with he | he <;> simp [hx, he, newVars, assignable_self]
    · simp [hx, hx', assignable_self]
  rw [checkBlock, h1]
  by_cases hn : x.type vH = none
  · simp only [if_pos hn]
    have h2 : Ctx.type (x ++ newVars x) vErr = some .error := by
      rw [ctx_append]
      rcases he with he | he
      · simp [he, newVars, ctx_cons, hdis]
      · simp [he]
    have h3 : Ctx.type (x ++ newVars x) vH = some .bytes := by
      rw [ctx_append, hn]
      unfold newVars
      split <;> simp [ctx_cons]
    have h4 : Ctx.type (x ++ newVars x ++ outer) vErr = some .error := by rw [ctx_append, h2]; rfl
    have h5 : Ctx.type (x ++ newVars x ++ outer) vH = some .bytes := by rw [ctx_append, h3]; rfl
    have h6 : Ctx.type (x ++ newVars x ++ outer) "headers".toList = some .table := by
      change Ctx.type _ vHeaders = _
      rw [ctx_append] at hh
      rw [ctx_append, ctx_append]
      have : Ctx.type (newVars x) vHeaders = none := by
        unfold newVars
        split <;> simp [ctx_cons, ctx_nil, show vH ≠ vHeaders by decide, show vErr ≠ vHeaders by decide]
      rw [this]
      simpa using hh
    have h7 : checkSimple env flds outer (x ++ newVars x) (.check vErr) = some (x ++ newVars x) := by
      simp only [checkSimple, h4, comparableToNil, under, if_true]
    have h8 : checkSimple env flds outer (x ++ newVars x) (.put (.var vH)) = some (x ++ newVars x) := by
      simp only [checkSimple, h6, typeOf, h5, assignable_self, decide_true, Bool.and_self, if_true]
    rw [checkBlock, h7]
    simp only
    rw [checkBlock, h8]
    rfl
  · simp only [if_neg hn]

theorem simple_block (env : Env) (flds : Fld → Option GT) (x : Ctx) (ss : List Simple) :
    checkStmts env flds x (ss.map .simple) = checkBlock env flds [] x ss := by
  induction ss generalizing x with
  | nil => rfl
  | cons s ss ih =>
    rw [List.map_cons, checkStmts, checkBlock, checkStmt]
    cases checkSimple env flds [] x s with
    | none => rfl
    | some y => exact ih y

theorem checkBlock_one (env : Env) (flds : Fld → Option GT) (outer x : Ctx) (s : Simple) :
    checkBlock env flds outer x [s] = checkSimple env flds outer x s := by
  rw [checkBlock]
  cases checkSimple env flds outer x s <;> rfl

theorem comparable_ptr (env : Env) (t : GT) : comparableToNil env (.ptr t) = true := rfl

theorem under_time (env : Env) : underTy env .time = some .timeStruct := rfl

theorem nilCheck_prefix (env : Env) (flds : Fld → Option GT) (force : Bool) (h : Header) (t : Ty)
    (hf : flds (.header h.key) = some (fieldType force h t)) (x : Ctx) (rest : List Stmt) :
    checkStmts env flds x ((if h.pointer force then [.simple (.nilCheck (.header h.key))] else []) ++ rest) =
      checkStmts env flds x rest := by
  cases hp : h.pointer force
  · simp
  · simp only [if_true, List.cons_append, List.nil_append]
    rw [checkStmts]
    have : checkStmt env flds x (.simple (.nilCheck (.header h.key))) = some x := by
      simp only [checkStmt, checkSimple, hf, fieldType, hp, if_true, comparable_ptr]
    rw [this]

theorem star_type (env : Env) (flds : Fld → Option GT) (force : Bool) (h : Header) (t : Ty)
    (hf : flds (.header h.key) = some (fieldType force h t)) (x : Ctx) :
    typeOf env flds x (h.star force (.fld (.header h.key))) = some (.ty t) := by
  unfold Header.star
  cases hp : h.pointer force <;> simp [typeOf, hf, fieldType, hp]

theorem write_required_object (c : Cfg) (env : Env) (flds : Fld → Option GT) (force : Bool) (h : Header) (t : Ty)
    (hf : flds (.header h.key) = some (fieldType force h t)) (x : Ctx) (hx : CtxW x) (hq : h.required = true)
    (ho : h.sch.info.type = tObject) :
    checkStmts env flds x (writeHeader c force h) = if x.type vH = none then some (x ++ newVars x) else none := by
  unfold writeHeader
  simp only [hq, if_true, ho]
  rw [nilCheck_prefix env flds force h t hf]
  have := marshal_block env flds [] x (by simpa using hx.headers) hx.err hx.h _ (.ty t) (star_type env flds force h t hf (x ++ []))
  rw [← this, ← simple_block]
  rfl

theorem write_required_other (c : Cfg) (env : Env) (he : EnvOk env) (flds : Fld → Option GT) (force : Bool) (h : Header) (t : Ty)
    (htn : schemaName c h.sch = .ok t)
    (hf : flds (.header h.key) = some (fieldType force h t)) (x : Ctx) (hx : CtxW x) (hq : h.required = true)
    (ho : h.sch.info.type ≠ tObject) :
    (WriteOk c env force h → checkStmts env flds x (writeHeader c force h) = some x) ∧
    (¬ WriteOk c env force h → checkStmts env flds x (writeHeader c force h) = none) := by
  have hx0 : Ctx.type (x ++ []) vHeaders = some .table := by simpa using hx.headers
  cases hd : dateFormat c h.sch.info.format
  · have hw : checkStmts env flds x (writeHeader c force h) =
        if convOk env flds (x ++ []) (h.star force (.fld (.header h.key))) then some x else none := by
      unfold writeHeader
      simp only [hq, if_true, ho, if_false, hd, Bool.false_eq_true]
      rw [nilCheck_prefix env flds force h t hf, ← put_conv env flds [] x hx0, ← checkBlock_one, ← simple_block]
      rfl
    have h2 : convOk env flds (x ++ []) (h.star force (.fld (.header h.key))) = convertible env .bytes (.ty t) := by
      unfold convOk
      rw [star_type env flds force h t hf]
    have h3 : convertible env .bytes (.ty t) = true ↔ WriteOk c env force h := by
      rw [convertible_bytes env t (underTy_bytes env he t)]
      constructor
      · exact fun h4 => ⟨Or.inl hq, Or.inr (Or.inr ⟨ho, hd, t, htn, h4⟩)⟩
      · rintro ⟨-, h4 | ⟨-, h4, -⟩ | ⟨-, -, s, h4, h5⟩⟩
        · exact absurd h4 ho
        · rw [hd] at h4; cases h4
        · rw [htn] at h4; cases h4; exact h5
    rw [hw, h2]
    exact ⟨fun h4 => if_pos (h3.2 h4), fun h4 => if_neg (fun h5 => h4 (h3.1 h5))⟩
  · have hw : checkStmts env flds x (writeHeader c force h) =
        if convOk env flds (x ++ []) (h.star force (.format (.fld (.header h.key)))) then some x else none := by
      unfold writeHeader
      simp only [hq, if_true, ho, if_false, hd]
      rw [nilCheck_prefix env flds force h t hf, ← put_conv env flds [] x hx0, ← checkBlock_one, ← simple_block]
      rfl
    have h3 : convOk env flds (x ++ []) (h.star force (.format (.fld (.header h.key)))) = true ↔ WriteOk c env force h := by
      unfold Header.star
      cases hp : h.pointer force
      · simp only [Bool.false_eq_true, if_false]
        rw [convOk_format env flds _ _ _ hf, fieldType, hp]
        simp only [Bool.false_eq_true, if_false]
        rw [hasFormat_ty]
        constructor
        · rintro rfl
          exact ⟨Or.inl hq, Or.inr (Or.inl ⟨ho, hd, htn, fun h4 => by rw [hp] at h4; cases h4.2⟩)⟩
        · rintro ⟨-, h4 | ⟨-, -, h4, -⟩ | ⟨-, h4, -⟩⟩
          · exact absurd h4 ho
          · rw [htn] at h4; cases h4; rfl
          · rw [hd] at h4; cases h4
      · simp only [if_true]
        rw [convOk_deref_format]
        constructor
        · intro h4; cases h4
        · rintro ⟨-, h4 | ⟨-, -, -, h4⟩ | ⟨-, h4, -⟩⟩
          · exact absurd h4 ho
          · exact absurd ⟨hq, hp⟩ h4
          · rw [hd] at h4; cases h4
    rw [hw]
    exact ⟨fun h4 => if_pos (h3.2 h4), fun h4 => if_neg (fun h5 => h4 (h3.1 h5))⟩

theorem ifSet_eq (env : Env) (flds : Fld → Option GT) (x : Ctx) (f : Fld) (r : GT) (hf : flds f = some r) (b : List Simple) :
    checkStmts env flds x [.ifSet f b] = if comparableToNil env r && blockOk env flds x b then some x else none := by
  rw [checkStmts]
  have : checkStmt env flds x (.ifSet f b) = if comparableToNil env r && blockOk env flds x b then some x else none := by
    simp only [checkStmt, hf]
  rw [this]
  cases comparableToNil env r && blockOk env flds x b <;> rfl

theorem blockOk_put (env : Env) (flds : Fld → Option GT) (x : Ctx) (hx : x.type vHeaders = some .table) (e : E) :
    blockOk env flds x [.put (.conv .bytes e)] = convOk env flds x e := by
  unfold blockOk
  rw [checkBlock_one, put_conv env flds x [] hx, List.nil_append]
  cases convOk env flds x e <;> simp

theorem blockOk_marshal (env : Env) (flds : Fld → Option GT) (x : Ctx) (hx : x.type vHeaders = some .table) (e : E) :
    blockOk env flds x [.define [vH, vErr] (.marshal e), .check vErr, .put (.var vH)] = (typeOf env flds x e).isSome := by
  have key : ∀ o, typeOf env flds x e = o →
      blockOk env flds x [.define [vH, vErr] (.marshal e), .check vErr, .put (.var vH)] = o.isSome := by
    intro o ho
    unfold blockOk
    rcases o with _ | t
    · have : checkSimple env flds x [] (.define [vH, vErr] (.marshal e)) = none := by
        simp [checkSimple, typesOf, ho]
      rw [checkBlock, this]
      rfl
    · rw [marshal_block env flds x [] hx (Or.inl rfl) (Or.inl rfl) e t ho]
      simp [ctx_nil, newVars, usesAll, Simple.uses, E.uses]
  exact key _ rfl

theorem write_optional (c : Cfg) (env : Env) (he : EnvOk env) (flds : Fld → Option GT) (force : Bool) (h : Header) (t : Ty)
    (htn : schemaName c h.sch = .ok t)
    (hf : flds (.header h.key) = some (fieldType force h t)) (x : Ctx) (hx : CtxW x) (hq : h.required = false) :
    (WriteOk c env force h → checkStmts env flds x (writeHeader c force h) = some x) ∧
    (¬ WriteOk c env force h → checkStmts env flds x (writeHeader c force h) = none) := by
  have key : ∀ b : Bool, (b = true ↔ WriteOk c env force h) →
      (WriteOk c env force h → (if b then some x else none) = some x) ∧
      (¬ WriteOk c env force h → (if b then some x else none) = none) := by
    intro b hb
    exact ⟨fun h4 => if_pos (hb.2 h4), fun h4 => if_neg (fun h5 => h4 (hb.1 h5))⟩
  unfold writeHeader
  simp only [hq, Bool.false_eq_true, if_false]
  rw [ifSet_eq env flds x _ _ hf]
  apply key
  cases hp : h.pointer force
  · have hl : ¬ WriteOk c env force h := by
      rintro ⟨h1 | h1, -⟩
      · rw [hq] at h1; cases h1
      · rw [hp] at h1; cases h1
    have hft : flds (.header h.key) = some (.ty t) := by rw [hf, fieldType, hp]; rfl
    refine ⟨fun hb => ?_, fun h1 => absurd h1 hl⟩
    exfalso
    rw [Bool.and_eq_true] at hb
    obtain ⟨h1, h2⟩ := hb
    by_cases ho : h.sch.info.type = tObject
    · simp only [ho, if_true] at h2
      rw [blockOk_marshal env flds x hx.headers, typeOf_deref_ty env flds x _ t hft] at h2
      cases h2
    · simp only [ho, if_false] at h2
      cases hd : dateFormat c h.sch.info.format
      · simp only [hd, Bool.false_eq_true, if_false] at h2
        rw [blockOk_put env flds x hx.headers, convOk, typeOf_deref_ty env flds x _ t hft] at h2
        cases h2
      · simp only [hd, if_true] at h2
        rw [blockOk_put env flds x hx.headers, convOk_format env flds x _ _ hft, hasFormat_ty] at h2
        subst h2
        rw [fieldType, hp] at h1
        cases h1
  · have hft : flds (.header h.key) = some (.ptr (.ty t)) := by rw [hf, fieldType, hp]; rfl
    rw [fieldType, hp]
    simp only [if_true, comparable_ptr, Bool.true_and]
    by_cases ho : h.sch.info.type = tObject
    · simp only [ho, if_true]
      rw [blockOk_marshal env flds x hx.headers]
      simp only [typeOf, hft, Option.isSome_some, true_iff]
      exact ⟨Or.inr hp, Or.inl ho⟩
    · simp only [ho, if_false]
      cases hd : dateFormat c h.sch.info.format
      · simp only [Bool.false_eq_true, if_false]
        rw [blockOk_put env flds x hx.headers, convOk_deref_ptr env flds x _ _ hft,
          convertible_bytes env t (underTy_bytes env he t)]
        constructor
        · exact fun h4 => ⟨Or.inr hp, Or.inr (Or.inr ⟨ho, hd, t, htn, h4⟩)⟩
        · rintro ⟨-, h4 | ⟨-, h4, -⟩ | ⟨-, -, s, h4, h5⟩⟩
          · exact absurd h4 ho
          · rw [hd] at h4; cases h4
          · rw [htn] at h4; cases h4; exact h5
      · simp only [if_true]
        rw [blockOk_put env flds x hx.headers, convOk_format env flds x _ _ hft, hasFormat_ptr]
        constructor
        · rintro rfl
          exact ⟨Or.inr hp, Or.inr (Or.inl ⟨ho, hd, htn, fun h4 => by rw [hq] at h4; cases h4.1⟩)⟩
        · rintro ⟨-, h4 | ⟨-, -, h4, -⟩ | ⟨-, h4, -⟩⟩
          · exact absurd h4 ho
          · rw [htn] at h4; cases h4; rfl
          · rw [hd] at h4; cases h4

theorem ctxW_new (x : Ctx) (hx : CtxW x) (hn : x.type vH = none) : CtxW (x ++ newVars x) := by
  have h1 : Ctx.type (x ++ newVars x) vErr = some .error := by
    rw [ctx_append]
    rcases hx.err with he | he
    · simp [he, newVars, ctx_cons, show vH ≠ vErr by decide]
    · simp [he]
  have h2 : Ctx.type (x ++ newVars x) vH = some .bytes := by
    rw [ctx_append, hn]
    unfold newVars
    split <;> simp [ctx_cons]
  refine ⟨?_, Or.inr h1, Or.inr ⟨h2, h1⟩⟩
  rw [ctx_append, hx.headers]
  rfl

theorem new_used (c : Cfg) (force : Bool) (h : Header) (x : Ctx) (hq : h.required = true) (ho : h.sch.info.type = tObject) :
    ∀ e ∈ newVars x, e.1 ∈ (writeHeader c force h).flatMap Stmt.uses := by
  have h1 : vH ∈ (writeHeader c force h).flatMap Stmt.uses := by
    unfold writeHeader
    simp only [hq, if_true, ho]
    rw [List.flatMap_append]
    exact List.mem_append_right _ (by simp [Stmt.uses, Simple.uses, E.uses])
  have h2 : vErr ∈ (writeHeader c force h).flatMap Stmt.uses := by
    unfold writeHeader
    simp only [hq, if_true, ho]
    rw [List.flatMap_append]
    exact List.mem_append_right _ (by simp [Stmt.uses, Simple.uses, E.uses])
  intro e he
  unfold newVars at he
  split at he
  · simp only [List.mem_cons, List.not_mem_nil, or_false] at he
    rcases he with rfl | rfl
    · exact h1
    · exact h2
  · simp only [List.mem_cons, List.not_mem_nil, or_false] at he
    rw [he]
    exact h1

/-- How many required objects still fit. -/
def taken (x : Ctx) : Nat := if x.type vH = none then 0 else 1

/-- The field of a header has the type of its schema. -/
def Typed (c : Cfg) (flds : Fld → Option GT) (force : Bool) (h : Header) : Prop :=
  ∃ t, schemaName c h.sch = .ok t ∧ flds (.header h.key) = some (fieldType force h t)

theorem write_other (c : Cfg) (env : Env) (he : EnvOk env) (flds : Fld → Option GT) (force : Bool) (h : Header)
    (ht : Typed c flds force h) (x : Ctx) (hx : CtxW x) (ho : h.requiredObject = false) :
    (WriteOk c env force h → checkStmts env flds x (writeHeader c force h) = some x) ∧
    (¬ WriteOk c env force h → checkStmts env flds x (writeHeader c force h) = none) := by
  obtain ⟨t, htn, hf⟩ := ht
  cases hq : h.required
  · exact write_optional c env he flds force h t htn hf x hx hq
  · refine write_required_other c env he flds force h t htn hf x hx hq ?_
    intro h1
    simp [Header.requiredObject, hq, h1] at ho

theorem write_all (c : Cfg) (env : Env) (he : EnvOk env) (flds : Fld → Option GT) (force : Bool) (hs : List Header)
    (ht : ∀ h ∈ hs, Typed c flds force h) (x : Ctx) (hx : CtxW x) (hw : ∀ h ∈ hs, WriteOk c env force h)
    (hl : (hs.filter Header.requiredObject).length + taken x ≤ 1) :
    ∃ y, checkStmts env flds x (hs.flatMap (writeHeader c force)) = some y ∧ CtxW y ∧
      ∃ n, y = x ++ n ∧ ∀ e ∈ n, e.1 ∈ (hs.flatMap (writeHeader c force)).flatMap Stmt.uses := by
  induction hs generalizing x with
  | nil => exact ⟨x, rfl, hx, [], by simp, by simp⟩
  | cons h hs ih =>
    rw [List.flatMap_cons, checkStmts_append]
    have ht' : ∀ h ∈ hs, Typed c flds force h := fun h' hm => ht h' (List.mem_cons_of_mem _ hm)
    have hw' : ∀ h ∈ hs, WriteOk c env force h := fun h' hm => hw h' (List.mem_cons_of_mem _ hm)
    cases ho : h.requiredObject
    · rw [(write_other c env he flds force h (ht h List.mem_cons_self) x hx ho).1 (hw h List.mem_cons_self)]
      obtain ⟨y, h1, h2, n, h3, h4⟩ := ih ht' x hx hw' (by rwa [List.filter_cons_of_neg (by simp [ho])] at hl)
      refine ⟨y, h1, h2, n, h3, fun e hm => ?_⟩
      rw [List.flatMap_append]
      exact List.mem_append_right _ (h4 e hm)
    · obtain ⟨t, htn, hf⟩ := ht h List.mem_cons_self
      have ho' := ho
      simp only [Header.requiredObject, Bool.and_eq_true, decide_eq_true_eq] at ho'
      rw [write_required_object c env flds force h t hf x hx ho'.1 ho'.2]
      rw [List.filter_cons_of_pos ho, List.length_cons] at hl
      have hn : x.type vH = none := by
        by_cases hn : x.type vH = none
        · exact hn
        · unfold taken at hl
          rw [if_neg hn] at hl
          omega
      rw [if_pos hn]
      have hl' : (hs.filter Header.requiredObject).length + taken (x ++ newVars x) ≤ 1 := by
        have : taken (x ++ newVars x) ≤ 1 := by unfold taken; split <;> omega
        omega
      obtain ⟨y, h1, h2, n, h3, h4⟩ := ih ht' (x ++ newVars x) (ctxW_new x hx hn) hw' hl'
      refine ⟨y, h1, h2, newVars x ++ n, by rw [h3, List.append_assoc], fun e hm => ?_⟩
      rw [List.flatMap_append]
      rcases List.mem_append.1 hm with hm | hm
      · exact List.mem_append_left _ (new_used c force h x ho'.1 ho'.2 e hm)
      · exact List.mem_append_right _ (h4 e hm)

theorem write_all_only (c : Cfg) (env : Env) (he : EnvOk env) (flds : Fld → Option GT) (force : Bool) (hs : List Header)
    (ht : ∀ h ∈ hs, Typed c flds force h) (x : Ctx) (hx : CtxW x) (y : Ctx)
    (hy : checkStmts env flds x (hs.flatMap (writeHeader c force)) = some y) :
    (∀ h ∈ hs, WriteOk c env force h) ∧ (hs.filter Header.requiredObject).length + taken x ≤ 1 := by
  induction hs generalizing x with
  | nil =>
    refine ⟨by simp, ?_⟩
    unfold taken
    simp only [List.filter_nil, List.length_nil]
    split <;> omega
  | cons h hs ih =>
    rw [List.flatMap_cons, checkStmts_append] at hy
    have ht' : ∀ h ∈ hs, Typed c flds force h := fun h' hm => ht h' (List.mem_cons_of_mem _ hm)
    cases ho : h.requiredObject
    · have hwo := write_other c env he flds force h (ht h List.mem_cons_self) x hx ho
      by_cases hw : WriteOk c env force h
      · rw [hwo.1 hw] at hy
        obtain ⟨h1, h2⟩ := ih ht' x hx hy
        refine ⟨fun h' hm => ?_, by rwa [List.filter_cons_of_neg (by simp [ho])]⟩
        rcases List.mem_cons.1 hm with rfl | hm
        · exact hw
        · exact h1 h' hm
      · rw [hwo.2 hw] at hy
        cases hy
    · obtain ⟨t, htn, hf⟩ := ht h List.mem_cons_self
      have ho' := ho
      simp only [Header.requiredObject, Bool.and_eq_true, decide_eq_true_eq] at ho'
      rw [write_required_object c env flds force h t hf x hx ho'.1 ho'.2] at hy
      by_cases hn : x.type vH = none
      · rw [if_pos hn] at hy
        obtain ⟨h1, h2⟩ := ih ht' (x ++ newVars x) (ctxW_new x hx hn) hy
        have h3 : taken (x ++ newVars x) = 1 := by
          unfold taken
          rw [if_neg]
          rw [ctx_append, hn]
          unfold newVars
          split <;> simp [ctx_cons]
        have h4 : taken x = 0 := by unfold taken; rw [if_pos hn]
        refine ⟨fun h' hm => ?_, by rw [List.filter_cons_of_pos ho, List.length_cons]; omega⟩
        rcases List.mem_cons.1 hm with rfl | hm
        · exact ⟨Or.inl ho'.1, Or.inl ho'.2⟩
        · exact h1 h' hm
      · rw [if_neg hn] at hy
        cases hy

/-! ## Payloads -/

/-- The statements that read a payload. -/
def readAll (c : Cfg) (p : Payload) : List Simple := readPayload c p.used ++ storePayload p

/-- The hypotheses about a payload. -/
structure PayWF (c : Cfg) (env : Env) (p : Payload) : Prop where
  sch : HasType c env p.sch
  target : ∀ t, p.target = some t → RefTo c p.sch t.info.name ∧ t.info.goType = [] ∧ Declared c env t

theorem block_cons (env : Env) (flds : Fld → Option GT) (outer x y : Ctx) (s : Simple) (ss : List Simple)
    (h : checkSimple env flds outer x s = some y) : checkBlock env flds outer x (s :: ss) = checkBlock env flds outer y ss := by
  rw [checkBlock, h]

theorem block_fail (env : Env) (flds : Fld → Option GT) (outer x : Ctx) (s : Simple) (ss : List Simple)
    (h : checkSimple env flds outer x s = none) : checkBlock env flds outer x (s :: ss) = none := by
  rw [checkBlock, h]

theorem define_new (env : Env) (flds : Fld → Option GT) (x : Ctx) (v : Str) (e : E) (t : GT)
    (hx : x.type v = none) (ht : typesOf env flds (x ++ []) e = some [t]) :
    checkSimple env flds [] x (.define [v] e) = some (x ++ [(v, t)]) := by
  rw [List.append_nil] at ht
  simp [checkSimple, ht, declare, hx]

theorem set_eq (env : Env) (flds : Fld → Option GT) (x : Ctx) (f : Fld) (e : E) (l r : GT)
    (hl : flds f = some l) (hr : typeOf env flds (x ++ []) e = some r) :
    checkSimple env flds [] x (.set f e) = if assignable env l r then some x else none := by
  simp only [checkSimple, hl, hr]

theorem set_fail (env : Env) (flds : Fld → Option GT) (x : Ctx) (f : Fld) (e : E)
    (hr : typeOf env flds (x ++ []) e = none) : checkSimple env flds [] x (.set f e) = none := by
  simp only [checkSimple, hr]
  cases flds f <;> rfl

theorem parse_payload (env : Env) (flds : Fld → Option GT) (ss : List Simple) :
    checkBlock env flds [] [] ([.define [vT, vErr] (.parse (.conv (.ty .string) .raw)), .check vErr, .define [vPayload] (.var vT)] ++ ss) =
      checkBlock env flds [] [(vT, .ty .time), (vErr, .error), (vPayload, .ty .time)] ss := by
  have h1 : checkSimple env flds [] [] (.define [vT, vErr] (.parse (.conv (.ty .string) .raw))) =
      some [(vT, .ty .time), (vErr, .error)] := by
    simp [checkSimple, typesOf, typeOf, convertible_string, assignable_self, declare, ctx_nil]
  have h2 : checkSimple env flds [] [(vT, .ty .time), (vErr, .error)] (.check vErr) = some [(vT, .ty .time), (vErr, .error)] := by
    simp [checkSimple, ctx_cons, show vT ≠ vErr by decide, comparableToNil, under]
  have h3 : checkSimple env flds [] [(vT, .ty .time), (vErr, .error)] (.define [vPayload] (.var vT)) =
      some [(vT, .ty .time), (vErr, .error), (vPayload, .ty .time)] := by
    rw [define_new env flds _ _ _ (.ty .time)]
    · rfl
    · simp [ctx_cons, ctx_nil, show vT ≠ vPayload by decide, show vErr ≠ vPayload by decide]
    · simp [typesOf, typeOf, ctx_cons]
  rw [List.cons_append, block_cons _ _ _ _ _ _ _ h1, List.cons_append, block_cons _ _ _ _ _ _ _ h2, List.cons_append,
    block_cons _ _ _ _ _ _ _ h3]
  rfl

/-- Storing the payload. -/
theorem store_plain (env : Env) (flds : Fld → Option GT) (x : Ctx) (l r : GT) (hl : flds .payload = some l)
    (hx : x.type vPayload = some r) :
    checkBlock env flds [] x [.set .payload (.var vPayload)] = if assignable env l r then some x else none := by
  rw [checkBlock_one]
  exact set_eq env flds x _ _ l r hl (by simp [typeOf, hx])

theorem store_ref (env : Env) (he : EnvOk env) (flds : Fld → Option GT) (x : Ctx) (n : Str) (r : GT)
    (hl : flds .payload = some (.ty (.named n))) (hn : (env n).isSome) (hx : x.type vPayload = some r) :
    checkBlock env flds [] x [.set .payload (.call n (.var vPayload))] =
      if convertible env (.ty (.named n)) r then some x else none := by
  rw [checkBlock_one]
  have h1 : n ≠ tString := by
    intro h
    rw [h, he.noJson tString (by decide)] at hn
    cases hn
  cases hc : convertible env (.ty (.named n)) r
  · simp only [Bool.false_eq_true, if_false]
    refine set_fail env flds x _ _ ?_
    simp [typeOf, typeNamed, h1, hn, hx, hc]
  · rw [set_eq env flds x _ _ _ (.ty (.named n)) hl (by simp [typeOf, typeNamed, h1, hn, hx, hc]), assignable_self]

theorem vPayload_single (t : GT) : Ctx.type [(vPayload, t)] vPayload = some t := by simp [ctx_cons]

theorem read_string (c : Cfg) (env : Env) (flds : Fld → Option GT) (i : Info) (ss : List Simple)
    (h : i.type = tString) (hd : dateFormat c i.format = false) :
    checkBlock env flds [] [] (readPayload c i ++ ss) = checkBlock env flds [] [(vPayload, .ty .string)] ss := by
  unfold readPayload
  simp only [h, if_true, hd, Bool.false_eq_true, if_false]
  exact block_cons _ _ _ _ _ _ _ (define_new env flds [] vPayload _ (.ty .string) rfl
    (by simp [typesOf, typeOf, convertible_string]))

theorem read_integer (c : Cfg) (env : Env) (flds : Fld → Option GT) (i : Info) (ss : List Simple)
    (h : i.type = tInteger) :
    checkBlock env flds [] [] (readPayload c i ++ ss) =
      checkBlock env flds [] [(vPayload, .ty (if i.format = "int32".toList then .int32 else .int64))] ss := by
  unfold readPayload
  simp only [h, show tInteger ≠ tString by decide, if_false, if_true]
  by_cases hf : i.format = "int32".toList
  · simp only [if_pos hf]
    refine block_cons _ _ _ _ _ _ _ (define_new env flds [] vPayload _ (.ty .int32) rfl ?_)
    simp [typesOf, typeOf, Fn.sig, assignable_self, convertible, under, underTy, convertU, U.numeric]
  · simp only [if_neg hf]
    refine block_cons _ _ _ _ _ _ _ (define_new env flds [] vPayload _ (.ty .int64) rfl ?_)
    simp [typesOf, typeOf, Fn.sig, assignable_self, convertible, under, underTy, convertU, U.numeric]

theorem read_number (c : Cfg) (env : Env) (flds : Fld → Option GT) (i : Info)
    (h : i.type = tNumber) : ∃ t, checkBlock env flds [] [] (readPayload c i) = some [(vPayload, t)] := by
  unfold readPayload
  simp only [h, show tNumber ≠ tString by decide, show tNumber ≠ tInteger by decide, if_false, if_true]
  by_cases hf : i.format = "float".toList
  · simp only [if_pos hf]
    refine ⟨.ty .float32, ?_⟩
    rw [checkBlock_one]
    refine define_new env flds [] vPayload _ (.ty .float32) rfl ?_
    simp [typesOf, typeOf, Fn.sig, assignable_self]
  · simp only [if_neg hf]
    refine ⟨.ty .float64, ?_⟩
    rw [checkBlock_one]
    refine define_new env flds [] vPayload _ (.ty .float64) rfl ?_
    simp [typesOf, typeOf, Fn.sig, assignable_self]

theorem read_json (env : Env) (flds : Fld → Option GT) :
    checkBlock env flds [] [] [.define [vErr] (.unmarshal .raw (.addr (.fld .payload))), .check vErr] = some [(vErr, .error)] := by
  have h1 : checkSimple env flds [] [] (.define [vErr] (.unmarshal .raw (.addr (.fld .payload)))) = some [(vErr, .error)] :=
    define_new env flds [] vErr _ .error rfl (by simp [typesOf, typeOf, assignable_self])
  rw [block_cons _ _ _ _ _ _ _ h1, checkBlock_one]
  simp [checkSimple, ctx_cons, comparableToNil, under]

theorem write_json (env : Env) (flds : Fld → Option GT) (t : GT) (hf : flds .payload = some t) :
    checkBlock env flds [] [] [.define [vPayload, vErr] (.marshal (.fld .payload)), .check vErr] =
      some [(vPayload, .bytes), (vErr, .error)] := by
  have h1 : checkSimple env flds [] [] (.define [vPayload, vErr] (.marshal (.fld .payload))) =
      some [(vPayload, .bytes), (vErr, .error)] := by
    simp [checkSimple, typesOf, typeOf, hf, declare, ctx_nil]
  rw [block_cons _ _ _ _ _ _ _ h1, checkBlock_one]
  simp [checkSimple, ctx_cons, show vPayload ≠ vErr by decide, comparableToNil, under]

theorem write_int (env : Env) (flds : Fld → Option GT) (t : Ty) (hf : flds .payload = some (.ty t)) (w : GT)
    (hw : w = .uint32 ∨ w = .uint64) (hu : underTy env t = some .int32 ∨ underTy env t = some .int64) :
    checkBlock env flds [] [] [.define [vPayload] .buffer, .putUint w vPayload (.conv w (.fld .payload))] =
      some [(vPayload, .bytes)] := by
  have h1 : checkSimple env flds [] [] (.define [vPayload] .buffer) = some [(vPayload, .bytes)] :=
    define_new env flds [] vPayload _ .bytes rfl (by simp [typesOf, typeOf])
  have h2 : convertible env w (.ty t) = true := by
    rcases hw with rfl | rfl <;> rcases hu with hu | hu <;> simp [convertible, under, hu, convertU, U.numeric]
  rw [block_cons _ _ _ _ _ _ _ h1, checkBlock_one]
  simp [checkSimple, typeOf, hf, h2, assignable_self, ctx_cons]

theorem write_bytes (env : Env) (flds : Fld → Option GT) (e : E) :
    checkBlock env flds [] [] [.define [vPayload] (.conv .bytes e)] =
      if convOk env flds [] e then some [(vPayload, .bytes)] else none := by
  have key : ∀ o, typeOf env flds [] e = o → checkBlock env flds [] [] [.define [vPayload] (.conv .bytes e)] =
      if convOk env flds [] e then some [(vPayload, .bytes)] else none := by
    intro o ho
    rw [checkBlock_one]
    rcases o with _ | r
    · simp [checkSimple, typesOf, typeOf, ho, convOk]
    · cases hc : convertible env .bytes r <;> simp [checkSimple, typesOf, typeOf, ho, convOk, hc, declare, ctx_nil]
  exact key _ rfl

/-- What is left in scope after writing the payload. -/
def Written (c : Cfg) (p : Payload) (x : Ctx) : Prop :=
  x = [(vPayload, .bytes)] ∨ (x = [(vPayload, .bytes), (vErr, .error)] ∧ vErr ∈ usesAll (writePayload c p))

/-- The field of the payload, when it refers to another schema. -/
theorem payload_named (c : Cfg) (env : Env) (p : Payload) (hw : PayWF c env p) (t0 t : Sch) (f : Ty) (hp : p.target = some t)
    (hf : schemaName c p.sch = .ok f) (ht0 : t0 = t) : f = .named t0.info.name ∧ (env t0.info.name).isSome ∧ p.sch.info.type = [] ∧ p.sch.info.format = [] := by
  subst ht0
  obtain ⟨h1, h2, h3⟩ := hw.target t0 hp
  have h4 := schemaName_ref c _ _ hw.sch.1 h1
  rw [hf] at h4
  cases h4
  refine ⟨rfl, ?_, h1.type, h1.format⟩
  unfold Declared at h3
  split at h3
  · rw [h3]; rfl
  · obtain ⟨t, -, h5, h6⟩ := h3
    rw [h5]
    exact Option.isSome_iff_ne_none.2 h6

/-- The declared type of a schema that is a string. -/
theorem declared_string (c : Cfg) (env : Env) (t : Sch) (hg : t.info.goType = []) (hd : Declared c env t) (hs : t.info.type = tString) :
    env t.info.name = some (if c.dates = true ∧ t.info.format = "date".toList then .dateStruct
      else if c.dates = true ∧ t.info.format = "date-time".toList then .timeStruct else .string) := by
  unfold Declared at hd
  rw [hs, if_neg (by decide), schemaName_string c t hg hs] at hd
  obtain ⟨s, h1, h2, -⟩ := hd
  cases h1
  rw [h2]
  split
  · rfl
  · split <;> rfl

theorem declared_integer (c : Cfg) (env : Env) (t : Sch) (hg : t.info.goType = []) (hd : Declared c env t) (hs : t.info.type = tInteger) :
    env t.info.name = some (if t.info.format = "int32".toList then .int32 else .int64) := by
  unfold Declared at hd
  rw [hs, if_neg (by decide), schemaName_integer c t hg hs] at hd
  obtain ⟨s, h1, h2, -⟩ := hd
  cases h1
  rw [h2]
  split <;> rfl

theorem declared_text (c : Cfg) (env : Env) (t : Sch) (hg : t.info.goType = []) (hd : Declared c env t) (hu : env t.info.name = some .string) :
    t.info.type = tString ∨ t.info.type = [] := by
  unfold Declared at hd
  split at hd
  · rw [hd] at hu; cases hu
  · obtain ⟨s, h1, h2, -⟩ := hd
    rcases schemaName_text c env t s hg h1 (h2.symm.trans hu) with h3 | h3
    · contradiction
    · exact h3

theorem store_some (p : Payload) (h : p.used.type = tString ∨ p.used.type = tInteger) :
    storePayload p = (match p.target with
      | some t => [.set .payload (.call t.info.name (.var vPayload))]
      | none => [.set .payload (.var vPayload)]) := by
  unfold storePayload
  exact if_pos (h.elim Or.inl (fun h => Or.inr (Or.inl h)))

theorem used_none (p : Payload) (h : p.target = none) : p.used = p.sch.info := by unfold Payload.used; rw [h]

theorem used_some (p : Payload) (t : Sch) (h : p.target = some t) : p.used = t.info := by unfold Payload.used; rw [h]

theorem store_none (p : Payload) (h1 : p.used.type ≠ tString) (h2 : p.used.type ≠ tInteger) (h3 : p.used.type ≠ "numeric".toList) :
    storePayload p = [] := by
  unfold storePayload
  rw [if_neg]
  rintro (h | h | h)
  · exact h1 h
  · exact h2 h
  · exact h3 h

theorem convertible_under (env : Env) (a b : GT) (u : U) (ha : under env a = some u) (hb : under env b = some u) :
    convertible env a b = true := by
  simp [convertible, ha, hb, convertU]

/-- Reading a payload that is text, a number or a date-time. -/
theorem read_payload_string (c : Cfg) (env : Env) (he : EnvOk env) (p : Payload) (hw : PayWF c env p) (f : Ty)
    (hf : schemaName c p.sch = .ok f) (flds : Fld → Option GT) (hfl : flds .payload = some (.ty f))
    (ht : p.used.type = tString) (hd : ¬ (c.dates = true ∧ p.used.format = "date".toList)) :
    ∃ x, checkBlock env flds [] [] (readAll c p) = some x ∧ ∀ e ∈ x, e.1 ∈ usesAll (readAll c p) := by
  unfold readAll
  rw [store_some p (Or.inl ht)]
  cases hdt : dateFormat c p.used.format
  · have h2 : ¬ Dated c p.used.format := by rw [← dateFormat_iff, hdt]; simp
    have h3 : ¬ (c.dates = true ∧ p.used.format = "date-time".toList) := fun h => h2 ⟨h.1, Or.inr h.2⟩
    refine ⟨[(vPayload, .ty .string)], ?_, ?_⟩
    · rw [read_string c env flds _ _ ht hdt]
      cases hp : p.target with
      | none =>
        rw [used_none p hp] at ht hd h3
        rw [schemaName_string c _ hw.sch.1 ht, if_neg hd, if_neg h3] at hf
        cases hf
        simp only
        rw [store_plain env flds _ _ (.ty .string) hfl (by simp [ctx_cons]), assignable_self]
        rfl
      | some t =>
        rw [used_some p t hp] at ht hd h3
        obtain ⟨h5, h6, -⟩ := payload_named c env p hw t t f hp hf rfl
        subst h5
        obtain ⟨-, h7, h8⟩ := hw.target t hp
        have h9 := declared_string c env t h7 h8 ht
        rw [if_neg hd, if_neg h3] at h9
        simp only
        rw [store_ref env he flds _ _ (.ty .string) hfl h6 (by simp [ctx_cons]),
          convertible_under env _ _ .string (by exact h9) rfl]
        rfl
    · intro e hm
      simp only [List.mem_cons, List.not_mem_nil, or_false] at hm
      subst hm
      rw [usesAll, List.flatMap_append]
      refine List.mem_append_right _ ?_
      cases p.target <;> simp [Simple.uses, E.uses]
  · have h2 : c.dates = true ∧ p.used.format = "date-time".toList := by
      obtain ⟨h3, h4 | h4⟩ := (dateFormat_iff c _).1 hdt
      · exact absurd ⟨h3, h4⟩ hd
      · exact ⟨h3, h4⟩
    refine ⟨[(vT, .ty .time), (vErr, .error), (vPayload, .ty .time)], ?_, ?_⟩
    · rw [readPayload.eq_def]
      simp only [ht, if_true, hdt]
      rw [parse_payload]
      cases hp : p.target with
      | none =>
        rw [used_none p hp] at ht hd h2
        rw [schemaName_string c _ hw.sch.1 ht, if_neg hd, if_pos h2] at hf
        cases hf
        simp only
        rw [store_plain env flds _ _ (.ty .time) hfl
          (by simp [ctx_cons, show vT ≠ vPayload by decide, show vErr ≠ vPayload by decide]), assignable_self]
        rfl
      | some t =>
        rw [used_some p t hp] at ht hd h2
        obtain ⟨h5, h6, -⟩ := payload_named c env p hw t t f hp hf rfl
        subst h5
        obtain ⟨-, h7, h8⟩ := hw.target t hp
        have h9 := declared_string c env t h7 h8 ht
        rw [if_neg hd, if_pos h2] at h9
        simp only
        rw [store_ref env he flds _ _ (.ty .time) hfl h6
          (by simp [ctx_cons, show vT ≠ vPayload by decide, show vErr ≠ vPayload by decide]),
          convertible_under env _ _ .timeStruct (by exact h9) rfl]
        rfl
    · intro e hm
      rw [usesAll, List.flatMap_append, readPayload.eq_def]
      simp only [ht, if_true, hdt]
      simp only [List.mem_cons, List.not_mem_nil, or_false] at hm
      rcases hm with rfl | rfl | rfl
      · exact List.mem_append_left _ (by simp [Simple.uses, E.uses])
      · exact List.mem_append_left _ (by simp [Simple.uses, E.uses])
      · refine List.mem_append_right _ ?_
        cases p.target <;> simp [Simple.uses, E.uses]

theorem read_payload_integer (c : Cfg) (env : Env) (he : EnvOk env) (p : Payload) (hw : PayWF c env p) (f : Ty)
    (hf : schemaName c p.sch = .ok f) (flds : Fld → Option GT) (hfl : flds .payload = some (.ty f))
    (ht : p.used.type = tInteger) :
    ∃ x, checkBlock env flds [] [] (readAll c p) = some x ∧ ∀ e ∈ x, e.1 ∈ usesAll (readAll c p) := by
  unfold readAll
  rw [store_some p (Or.inr ht)]
  refine ⟨[(vPayload, .ty (if p.used.format = "int32".toList then .int32 else .int64))], ?_, ?_⟩
  · rw [read_integer c env flds _ _ ht]
    cases hp : p.target with
    | none =>
      have hf' := hf
      rw [used_none p hp] at ht
      rw [schemaName_integer c _ hw.sch.1 ht] at hf'
      cases hf'
      simp only
      rw [store_plain env flds _ _ _ hfl (vPayload_single _), used_none p hp, assignable_self]
      rfl
    | some t =>
      rw [used_some p t hp] at ht
      obtain ⟨h5, h6, -⟩ := payload_named c env p hw t t f hp hf rfl
      subst h5
      obtain ⟨-, h7, h8⟩ := hw.target t hp
      have h9 := declared_integer c env t h7 h8 ht
      simp only
      rw [store_ref env he flds _ _ _ hfl h6 (vPayload_single _), used_some p t hp]
      rw [convertible_under env _ _ (if t.info.format = "int32".toList then .int32 else .int64) (by exact h9)
        (by split <;> rfl)]
      rfl
  · intro e hm
    simp only [List.mem_cons, List.not_mem_nil, or_false] at hm
    subst hm
    rw [usesAll, List.flatMap_append]
    refine List.mem_append_right _ ?_
    cases p.target <;> simp [Simple.uses, E.uses]

theorem read_payload_json (c : Cfg) (env : Env) (p : Payload) (flds : Fld → Option GT)
    (h1 : p.used.type ≠ tString) (h2 : p.used.type ≠ tInteger) (h3 : p.used.type ≠ "numeric".toList) (h4 : p.used.type ≠ tNumber) :
    ∃ x, checkBlock env flds [] [] (readAll c p) = some x ∧ ∀ e ∈ x, e.1 ∈ usesAll (readAll c p) := by
  unfold readAll
  rw [store_none p h1 h2 h3, List.append_nil, readPayload.eq_def]
  simp only [h1, h2, h4, if_false]
  refine ⟨[(vErr, .error)], read_json env flds, ?_⟩
  simp [usesAll, Simple.uses, E.uses]

theorem write_payload_string (c : Cfg) (env : Env) (flds : Fld → Option GT) (p : Payload) (r : GT) (hfl : flds .payload = some r)
    (ht : p.used.type ≠ tObject) (ht2 : p.used.type ≠ tArray) (ht3 : p.used.type ≠ tInteger) (ht4 : p.used.type ≠ tNumber) :
    checkBlock env flds [] [] (writePayload c p) =
      if (if p.used.type = tString ∧ dateFormat c p.used.format = true then hasFormat r else convertible env .bytes r)
      then some [(vPayload, .bytes)] else none := by
  unfold writePayload
  simp only [ht, ht2, ht3, ht4, or_self, if_false]
  by_cases hc : p.used.type = tString ∧ dateFormat c p.used.format = true
  · simp only [if_pos hc]
    rw [write_bytes, convOk_format env flds [] _ _ hfl]
  · simp only [if_neg hc]
    rw [write_bytes, convOk_fld env flds [] _ _ hfl]

/-- `PayloadOk` in terms of the schema the template looks at. -/
theorem payloadOk_iff (c : Cfg) (env : Env) (p : Payload) : PayloadOk c env p ↔
    (p.used.type = tObject ∨ p.used.type = tArray ∨ p.used.type = tInteger ∨
      (p.used.type = tString ∧ ¬ (c.dates = true ∧ p.used.format = "date".toList) ∧
        (p.target.isSome → ¬ Dated c p.used.format)) ∨
      (p.used.type = [] ∧ (match p.target with
        | none => ∃ t, schemaName c p.sch = .ok t ∧ underTy env t = some .string
        | some t => env t.info.name = some .string))) := by
  unfold PayloadOk
  cases hp : p.target with
  | none =>
    rw [used_none p hp]
    simp only [Option.isSome_none, Bool.false_eq_true, false_implies, and_true]
  | some t =>
    rw [used_some p t hp]
    simp only [Option.isSome_some, true_implies]
    have : (¬ (c.dates = true ∧ t.info.format = "date".toList) ∧ ¬ Dated c t.info.format) ↔ ¬ Dated c t.info.format :=
      ⟨fun h => h.2, fun h => ⟨fun h' => h ⟨h'.1, Or.inl h'.2⟩, h⟩⟩
    rw [this]

theorem payload_read_ok (c : Cfg) (env : Env) (he : EnvOk env) (p : Payload) (hw : PayWF c env p) (f : Ty)
    (hf : schemaName c p.sch = .ok f) (flds : Fld → Option GT) (hfl : flds .payload = some (.ty f)) (hk : PayloadOk c env p) :
    ∃ x, checkBlock env flds [] [] (readAll c p) = some x ∧ ∀ e ∈ x, e.1 ∈ usesAll (readAll c p) := by
  rw [payloadOk_iff] at hk
  rcases hk with h | h | h | ⟨h, h2, -⟩ | ⟨h, -⟩
  · exact read_payload_json c env p flds (by rw [h]; decide) (by rw [h]; decide) (by rw [h]; decide) (by rw [h]; decide)
  · exact read_payload_json c env p flds (by rw [h]; decide) (by rw [h]; decide) (by rw [h]; decide) (by rw [h]; decide)
  · exact read_payload_integer c env he p hw f hf flds hfl h
  · exact read_payload_string c env he p hw f hf flds hfl h h2
  · exact read_payload_json c env p flds (by rw [h]; decide) (by rw [h]; decide) (by rw [h]; decide) (by rw [h]; decide)

theorem payload_text (c : Cfg) (env : Env) (p : Payload) (hw : PayWF c env p) (f : Ty) (hf : schemaName c p.sch = .ok f) :
    (match p.target with
      | none => ∃ t, schemaName c p.sch = .ok t ∧ underTy env t = some .string
      | some t => env t.info.name = some .string) ↔ underTy env f = some .string := by
  cases hp : p.target with
  | none =>
    simp only
    constructor
    · rintro ⟨t, h1, h2⟩
      rw [hf] at h1
      cases h1
      exact h2
    · exact fun h => ⟨f, hf, h⟩
  | some t =>
    obtain ⟨h1, -⟩ := payload_named c env p hw t t f hp hf rfl
    subst h1
    rfl

theorem payload_write_ok (c : Cfg) (env : Env) (he : EnvOk env) (p : Payload) (hw : PayWF c env p) (f : Ty)
    (hf : schemaName c p.sch = .ok f) (flds : Fld → Option GT) (hfl : flds .payload = some (.ty f)) (hk : PayloadOk c env p) :
    ∃ x, checkBlock env flds [] [] (writePayload c p) = some x ∧ Written c p x := by
  rw [payloadOk_iff] at hk
  have hjson : (p.used.type = tObject ∨ p.used.type = tArray) →
      ∃ x, checkBlock env flds [] [] (writePayload c p) = some x ∧ Written c p x := by
    intro h
    refine ⟨[(vPayload, .bytes), (vErr, .error)], ?_, Or.inr ⟨rfl, ?_⟩⟩
    · rw [writePayload.eq_def, if_pos h]
      exact write_json env flds _ hfl
    · rw [writePayload.eq_def, if_pos h]
      simp [usesAll, Simple.uses, E.uses]
  rcases hk with h | h | h | ⟨h, h2, h3⟩ | ⟨h, h2⟩
  · exact hjson (Or.inl h)
  · exact hjson (Or.inr h)
  · refine ⟨[(vPayload, .bytes)], ?_, Or.inl rfl⟩
    have hu : underTy env f = some .int32 ∨ underTy env f = some .int64 := by
      cases hp : p.target with
      | none =>
        rw [used_none p hp] at h
        rw [schemaName_integer c _ hw.sch.1 h] at hf
        cases hf
        split
        · exact Or.inl rfl
        · exact Or.inr rfl
      | some t =>
        rw [used_some p t hp] at h
        obtain ⟨h1, -⟩ := payload_named c env p hw t t f hp hf rfl
        subst h1
        obtain ⟨-, h7, h8⟩ := hw.target t hp
        have h9 := declared_integer c env t h7 h8 h
        change env t.info.name = _ ∨ env t.info.name = _
        rw [h9]
        split
        · exact Or.inl rfl
        · exact Or.inr rfl
    rw [writePayload.eq_def, if_neg (by rw [h]; decide), if_pos h]
    split
    · exact write_int env flds f hfl .uint32 (Or.inl rfl) hu
    · exact write_int env flds f hfl .uint64 (Or.inr rfl) hu
  · refine ⟨[(vPayload, .bytes)], ?_, Or.inl rfl⟩
    rw [write_payload_string c env flds p _ hfl (by rw [h]; decide) (by rw [h]; decide) (by rw [h]; decide) (by rw [h]; decide)]
    rw [if_pos]
    cases hdt : dateFormat c p.used.format
    · rw [if_neg (by simp), convertible_bytes env f (underTy_bytes env he f)]
      have h4 : ¬ Dated c p.used.format := by rw [← dateFormat_iff, hdt]; simp
      have h5 : ¬ (c.dates = true ∧ p.used.format = "date-time".toList) := fun h => h4 ⟨h.1, Or.inr h.2⟩
      cases hp : p.target with
      | none =>
        rw [used_none p hp] at h h2 h5
        rw [schemaName_string c _ hw.sch.1 h, if_neg h2, if_neg h5] at hf
        cases hf
        rfl
      | some t =>
        rw [used_some p t hp] at h h2 h5
        obtain ⟨h1, -⟩ := payload_named c env p hw t t f hp hf rfl
        subst h1
        obtain ⟨-, h7, h8⟩ := hw.target t hp
        have h9 := declared_string c env t h7 h8 h
        rw [if_neg h2, if_neg h5] at h9
        exact h9
    · rw [if_pos ⟨h, rfl⟩, hasFormat_ty]
      have h4 := (dateFormat_iff c _).1 hdt
      cases hp : p.target with
      | some t => exact absurd h4 (h3 (by rw [hp]; rfl))
      | none =>
        rw [used_none p hp] at h h2 h4
        rw [schemaName_string c _ hw.sch.1 h, if_neg h2, if_pos] at hf
        · cases hf; rfl
        · obtain ⟨h5, h6 | h6⟩ := h4
          · exact absurd ⟨h5, h6⟩ h2
          · exact ⟨h5, h6⟩
  · refine ⟨[(vPayload, .bytes)], ?_, Or.inl rfl⟩
    rw [write_payload_string c env flds p _ hfl (by rw [h]; decide) (by rw [h]; decide) (by rw [h]; decide) (by rw [h]; decide)]
    rw [if_pos]
    rw [if_neg (by rw [h]; exact fun h' => absurd h'.1 (by decide)), convertible_bytes env f (underTy_bytes env he f)]
    exact (payload_text c env p hw f hf).1 h2

theorem payload_only (c : Cfg) (env : Env) (he : EnvOk env) (p : Payload) (hw : PayWF c env p) (f : Ty)
    (hf : schemaName c p.sch = .ok f) (flds : Fld → Option GT) (hfl : flds .payload = some (.ty f))
    (hn : p.used.type ≠ tNumber) (hwr : checkBlock env flds [] [] (writePayload c p) ≠ none) : PayloadOk c env p := by
  rw [payloadOk_iff]
  by_cases h1 : p.used.type = tObject
  · exact Or.inl h1
  by_cases h2 : p.used.type = tArray
  · exact Or.inr (Or.inl h2)
  by_cases h3 : p.used.type = tInteger
  · exact Or.inr (Or.inr (Or.inl h3))
  rw [write_payload_string c env flds p _ hfl h1 h2 h3 hn] at hwr
  right; right; right
  by_cases h4 : p.used.type = tString ∧ dateFormat c p.used.format = true
  · left
    rw [if_pos h4] at hwr
    have h5 : hasFormat (.ty f) = true := by
      cases hh : hasFormat (.ty f)
      · rw [hh] at hwr; exact absurd rfl hwr
      · rfl
    rw [hasFormat_ty] at h5
    subst h5
    cases hp : p.target with
    | none =>
      obtain ⟨h6, h7, h8⟩ := schemaName_time c _ hw.sch.1 hf
      refine ⟨h4.1, ?_, fun h => by cases h⟩
      rw [used_none p hp, h8]
      exact fun h => absurd h.2 (by decide)
    | some t =>
      obtain ⟨h6, -⟩ := payload_named c env p hw t t _ hp hf rfl
      cases h6
  · rw [if_neg h4] at hwr
    have h5 : convertible env .bytes (.ty f) = true := by
      cases hh : convertible env .bytes (.ty f)
      · rw [hh] at hwr; exact absurd rfl hwr
      · rfl
    rw [convertible_bytes env f (underTy_bytes env he f)] at h5
    have h6 : p.used.type = tString ∨ p.used.type = [] := by
      cases hp : p.target with
      | none =>
        rw [used_none p hp] at h1 ⊢
        exact (schemaName_text c env _ f hw.sch.1 hf h5).elim (fun h => absurd h h1) id
      | some t =>
        rw [used_some p t hp] at h1 ⊢
        obtain ⟨h6, -⟩ := payload_named c env p hw t t f hp hf rfl
        subst h6
        obtain ⟨-, h7, h8⟩ := hw.target t hp
        exact declared_text c env t h7 h8 h5
    rcases h6 with h6 | h6
    · left
      have h7 : ¬ Dated c p.used.format := by
        rw [← dateFormat_iff]
        exact fun h => h4 ⟨h6, h⟩
      exact ⟨h6, fun h => h7 ⟨h.1, Or.inl h.2⟩, fun _ => h7⟩
    · right
      exact ⟨h6, (payload_text c env p hw f hf).2 h5⟩

/-! ## Messages -/

theorem find_key (hs : List Header) (hn : (hs.map Header.key).Nodup) (h : Header) (hm : h ∈ hs) :
    hs.find? (fun h' => h'.key = h.key) = some h := by
  induction hs with
  | nil => cases hm
  | cons a hs ih =>
    rw [List.map_cons, List.nodup_cons] at hn
    rcases List.mem_cons.1 hm with rfl | hm
    · simp
    · have : a.key ≠ h.key := by
        intro h1
        exact hn.1 (h1 ▸ List.mem_map_of_mem hm)
      rw [List.find?_cons_of_neg (by simpa using this)]
      exact ih hn.2 hm

theorem typed_of (c : Cfg) (env : Env) (force : Bool) (m : Msg) (hw : MsgWF c env m) (hs : List Header) (hh : m.headers = some hs)
    (h : Header) (hm : h ∈ hs) : Typed c (m.flds c force) force h := by
  obtain ⟨hn, ha⟩ := hw.headers hs hh
  obtain ⟨⟨-, t, ht, -⟩, -⟩ := ha h hm
  refine ⟨t, ht, ?_⟩
  unfold Msg.flds
  simp only [hh, find_key hs hn h hm]
  unfold Header.type
  rw [ht]
  rfl

theorem readHeader_uses (c : Cfg) (force : Bool) (h : Header) :
    vV ∈ usesOutside (readHeader c force h) ∧ vPayload ∉ usesOutside (readHeader c force h) := by
  have hc : h.convert.uses = [vV] := by
    unfold Header.convert
    cases h.ref with
    | some n => rfl
    | none =>
      simp only
      split <;> rfl
  unfold readHeader usesOutside
  repeat' split
  all_goals
    simp only [usesAll, Simple.uses, E.uses, Simple.defs, List.flatMap_cons, List.flatMap_nil, List.append_nil, hc]
    decide

theorem from_eq (c : Cfg) (env : Env) (flds : Fld → Option GT) (force : Bool) (p : Payload) (hs : Option (List Header)) :
    checkStmts env flds [] ((readAll c p).map .simple ++ (readHeaders c force hs ++ [.simple (.ret [])])) =
      (checkBlock env flds [] [] (readAll c p)).bind (fun x => checkStmts env flds x (readHeaders c force hs ++ [.simple (.ret [])])) := by
  rw [checkStmts_append, simple_block]

theorem ret_nil (env : Env) (flds : Fld → Option GT) (x : Ctx) : checkStmts env flds x [.simple (.ret [])] = some x := by
  simp [checkStmts, checkStmt, checkSimple]

/-- The loop over the headers compiles exactly when there are headers and each case does. -/
theorem loop_eq (c : Cfg) (env : Env) (flds : Fld → Option GT) (force : Bool) (hs : List Header) (x y : Ctx) :
    checkStmts env flds x (readHeaders c force (some hs) ++ [.simple (.ret [])]) = some y ↔
      y = x ∧ hs ≠ [] ∧ ∀ h ∈ hs, blockOk env flds (loopVars ++ x) (readHeader c force h) = true := by
  unfold readHeaders
  rw [List.cons_append, List.nil_append, checkStmts]
  have hv : hs ≠ [] → vV ∈ (hs.map (readHeader c force)).flatMap usesOutside := by
    intro h
    cases hs with
    | nil => exact absurd rfl h
    | cons a hs =>
      rw [List.map_cons, List.flatMap_cons]
      exact List.mem_append_left _ (readHeader_uses c force a).1
  have hl : checkStmt env flds x (.loop (hs.map (readHeader c force))) =
      if (∀ h ∈ hs, blockOk env flds (loopVars ++ x) (readHeader c force h) = true) ∧ hs ≠ [] then some x else none := by
    rw [checkStmt]
    by_cases h1 : hs = []
    · subst h1
      simp
    · have h2 : ("v".toList ∈ (hs.map (readHeader c force)).flatMap usesOutside) := hv h1
      have h3 : (hs.map (readHeader c force)).isEmpty = false := by
        cases hs with
        | nil => exact absurd rfl h1
        | cons a hs => rfl
      rw [decide_eq_true h2, h3]
      simp only [Bool.not_false, Bool.and_true, List.all_map, List.all_eq_true, Function.comp, ne_eq, h1, not_false_eq_true, and_true]
  rw [hl]
  by_cases hc : (∀ h ∈ hs, blockOk env flds (loopVars ++ x) (readHeader c force h) = true) ∧ hs ≠ []
  · rw [if_pos hc]
    simp only
    rw [ret_nil]
    constructor
    · intro h
      cases h
      exact ⟨rfl, hc.2, hc.1⟩
    · rintro ⟨rfl, -⟩
      rfl
  · rw [if_neg hc]
    constructor
    · intro h; cases h
    · rintro ⟨-, h1, h2⟩
      exact absurd ⟨h2, h1⟩ hc

theorem loopVars_v (x : Ctx) : Ctx.type (loopVars ++ x) vV = some .bytes := by
  rw [ctx_append]
  rfl

theorem loop_payload (c : Cfg) (force : Bool) (hs : Option (List Header)) :
    vPayload ∉ (readHeaders c force hs ++ [Stmt.simple (.ret [])]).flatMap Stmt.uses := by
  cases hs with
  | none => simp [readHeaders, Stmt.uses, Simple.uses]
  | some hs =>
    intro h
    rw [readHeaders, List.cons_append, List.nil_append, List.flatMap_cons, List.mem_append] at h
    rcases h with h | h
    · rw [Stmt.uses, List.mem_filter, List.mem_flatMap] at h
      obtain ⟨⟨b, hb, h1⟩, -⟩ := h
      obtain ⟨a, -, rfl⟩ := List.mem_map.1 hb
      exact (readHeader_uses c force a).2 h1
    · simp [Stmt.uses, Simple.uses] at h

theorem simple_uses (ss : List Simple) : (ss.map Stmt.simple).flatMap Stmt.uses = usesAll ss := by
  induction ss with
  | nil => rfl
  | cons s ss ih => rw [List.map_cons, List.flatMap_cons, ih]; rfl

/-- Reading compiles exactly when the payload and the headers can be read. -/
theorem from_number (c : Cfg) (env : Env) (flds : Fld → Option GT) (force : Bool) (m : Msg) (hn : m.payload.used.type = tNumber) :
    bodyOk env flds (fromBroker c force m) = false := by
  obtain ⟨t, ht⟩ := read_number c env flds m.payload.used hn
  have hs : storePayload m.payload = [] :=
    store_none _ (by rw [hn]; decide) (by rw [hn]; decide) (by rw [hn]; decide)
  have hr : readAll c m.payload = readPayload c m.payload.used := by unfold readAll; rw [hs, List.append_nil]
  have hu : vPayload ∉ (fromBroker c force m).flatMap Stmt.uses := by
    change vPayload ∉ ((readAll c m.payload).map Stmt.simple ++ _).flatMap Stmt.uses
    rw [List.flatMap_append, simple_uses, hr, List.mem_append]
    rintro (h | h)
    · revert h
      unfold readPayload
      simp only [hn, show tNumber ≠ tString by decide, show tNumber ≠ tInteger by decide, if_false, if_true]
      split <;> simp [usesAll, Simple.uses, E.uses]
    · exact loop_payload c force m.headers h
  unfold bodyOk
  have he : checkStmts env flds [] (fromBroker c force m) =
      checkStmts env flds [(vPayload, t)] (readHeaders c force m.headers ++ [.simple (.ret [])]) := by
    change checkStmts env flds [] ((readAll c m.payload).map Stmt.simple ++ _) = _
    rw [from_eq, hr, ht]
    rfl
  rw [he]
  have : ∀ y, checkStmts env flds [(vPayload, t)] (readHeaders c force m.headers ++ [.simple (.ret [])]) = some y →
      y = [(vPayload, t)] := by
    intro y
    cases m.headers with
    | none =>
      rw [readHeaders, List.nil_append, ret_nil]
      intro h; cases h; rfl
    | some hs =>
      rw [loop_eq]
      exact fun h => h.1
  cases hc : checkStmts env flds [(vPayload, t)] (readHeaders c force m.headers ++ [.simple (.ret [])]) with
  | none => rfl
  | some y =>
    rw [this y hc]
    simp only [List.all_cons, List.all_nil, Bool.and_true, decide_eq_false_iff_not]
    exact hu

theorem payWF_of (c : Cfg) (env : Env) (m : Msg) (hw : MsgWF c env m) : PayWF c env m.payload := ⟨hw.payload, hw.target⟩

theorem flds_payload (c : Cfg) (env : Env) (force : Bool) (m : Msg) (hw : MsgWF c env m) :
    ∃ f, schemaName c m.payload.sch = .ok f ∧ m.flds c force .payload = some (.ty f) := by
  obtain ⟨-, f, hf, -⟩ := hw.payload
  refine ⟨f, hf, ?_⟩
  unfold Msg.flds
  simp only [hf]

theorem written_ctxW (c : Cfg) (p : Payload) (x : Ctx) (hx : Written c p x) : CtxW (x ++ [(vHeaders, .table)]) := by
  rcases hx with rfl | ⟨rfl, -⟩
  · exact ⟨by decide, by decide, by decide⟩
  · exact ⟨by decide, by decide, by decide⟩

theorem define_headers (env : Env) (flds : Fld → Option GT) (c : Cfg) (p : Payload) (x : Ctx) (hx : Written c p x) (ss : List Stmt) :
    checkStmts env flds x (.simple (.define [vHeaders] .headers) :: ss) =
      checkStmts env flds (x ++ [(vHeaders, .table)]) ss := by
  rw [checkStmts]
  have : checkStmt env flds x (.simple (.define [vHeaders] .headers)) = some (x ++ [(vHeaders, .table)]) := by
    refine define_new env flds x vHeaders .headers .table ?_ (by simp [typesOf, typeOf])
    rcases hx with rfl | ⟨rfl, -⟩ <;> decide
  rw [this]

/-- Whatever the payload, writing leaves one of two sets of variables. -/
theorem written_of (c : Cfg) (env : Env) (he : EnvOk env) (p : Payload) (hw : PayWF c env p) (f : Ty)
    (hf : schemaName c p.sch = .ok f) (flds : Fld → Option GT) (hfl : flds .payload = some (.ty f))
    (hn : p.used.type ≠ tNumber) (x : Ctx) (hx : checkBlock env flds [] [] (writePayload c p) = some x) : Written c p x := by
  obtain ⟨y, h1, h2⟩ := payload_write_ok c env he p hw f hf flds hfl
    (payload_only c env he p hw f hf flds hfl hn (by rw [hx]; simp))
  rw [hx] at h1
  cases h1
  exact h2

theorem to_eq (c : Cfg) (env : Env) (flds : Fld → Option GT) (force : Bool) (m : Msg) :
    checkStmts env flds [] (toBroker c force m) =
      (checkBlock env flds [] [] (writePayload c m.payload)).bind
        (fun x => checkStmts env flds x (writeHeaders c force m.headers ++ [.simple (.ret [vHeaders, vPayload])])) := by
  unfold toBroker
  rw [checkStmts_append, simple_block]

theorem headers_list (c : Cfg) (force : Bool) (hs : Option (List Header)) :
    ∃ l, writeHeaders c force hs = .simple (.define [vHeaders] .headers) :: l.flatMap (writeHeader c force) ∧
      (hs = none → l = []) ∧ (∀ k, hs = some k → l = k) := by
  cases hs with
  | none => exact ⟨[], rfl, fun _ => rfl, fun k h => by cases h⟩
  | some k =>
    refine ⟨k, rfl, ?_, ?_⟩
    · intro h; cases h
    · intro k' h; cases h; rfl

theorem to_ok (c : Cfg) (env : Env) (he : EnvOk env) (force : Bool) (m : Msg) (hw : MsgWF c env m) (hk : MsgOk c env force m) :
    bodyOk env (m.flds c force) (toBroker c force m) = true := by
  obtain ⟨f, hf, hfl⟩ := flds_payload c env force m hw
  obtain ⟨x, hx, hwr⟩ := payload_write_ok c env he m.payload (payWF_of c env m hw) f hf (m.flds c force) hfl hk.1
  obtain ⟨l, hl, hl1, hl2⟩ := headers_list c force m.headers
  have hlm : ∀ h ∈ l, ∃ k, m.headers = some k ∧ h ∈ k := by
    intro h hm
    cases hh : m.headers with
    | none => rw [hl1 hh] at hm; cases hm
    | some k => rw [hl2 k hh] at hm; exact ⟨k, rfl, hm⟩
  have ht : ∀ h ∈ l, Typed c (m.flds c force) force h := by
    intro h hm
    obtain ⟨k, hh, hm⟩ := hlm h hm
    exact typed_of c env force m hw k hh h hm
  have hwo : ∀ h ∈ l, WriteOk c env force h := by
    intro h hm
    obtain ⟨k, hh, hm⟩ := hlm h hm
    obtain ⟨h1, h2⟩ := (hw.headers k hh).2 h hm
    exact writeOk_of_headerOk c env force h h1 h2 ((hk.2 k hh).2.1 h hm)
  have hW := written_ctxW c m.payload x hwr
  have htk : taken (x ++ [(vHeaders, .table)]) = 0 := by
    rcases hwr with rfl | ⟨rfl, -⟩ <;> decide
  have hln : (l.filter Header.requiredObject).length + taken (x ++ [(vHeaders, .table)]) ≤ 1 := by
    rw [htk]
    cases hh : m.headers with
    | none => rw [hl1 hh]; decide
    | some k => rw [hl2 k hh]; exact (hk.2 k hh).2.2
  obtain ⟨y, hy, hyW, n, hyn, hyu⟩ := write_all c env he (m.flds c force) force l ht _ hW hwo hln
  have hpay : Ctx.type y vPayload = some .bytes := by
    rw [hyn, ctx_append, ctx_append]
    rcases hwr with rfl | ⟨rfl, -⟩ <;> rfl
  have hend : checkStmts env (m.flds c force) [] (toBroker c force m) = some y := by
    rw [to_eq, hx]
    simp only [Option.bind_some]
    rw [hl, List.cons_append, define_headers env _ c m.payload x hwr, checkStmts_append, hy]
    simp only [Option.bind_some, checkStmts, checkStmt, checkSimple, List.append_nil, List.all_cons, List.all_nil, hyW.headers, hpay,
      Option.isSome_some, Bool.and_self, if_true]
  unfold bodyOk
  rw [hend]
  simp only [List.all_eq_true, decide_eq_true_eq]
  intro e hm
  unfold toBroker
  rw [List.flatMap_append, simple_uses, List.flatMap_append, List.mem_append, List.mem_append]
  rw [hyn, List.mem_append, List.mem_append] at hm
  rcases hm with (hm | hm) | hm
  · rcases hwr with rfl | ⟨rfl, hu⟩
    · simp only [List.mem_cons, List.not_mem_nil, or_false] at hm
      subst hm
      right; right
      simp [Stmt.uses, Simple.uses]
    · simp only [List.mem_cons, List.not_mem_nil, or_false] at hm
      rcases hm with rfl | rfl
      · right; right
        simp [Stmt.uses, Simple.uses]
      · exact Or.inl hu
  · simp only [List.mem_cons, List.not_mem_nil, or_false] at hm
    subst hm
    right; right
    simp [Stmt.uses, Simple.uses]
  · right; left
    rw [hl, List.flatMap_cons]
    exact List.mem_append_right _ (hyu e hm)

theorem from_ok (c : Cfg) (env : Env) (he : EnvOk env) (force : Bool) (m : Msg) (hw : MsgWF c env m) (hk : MsgOk c env force m) :
    bodyOk env (m.flds c force) (fromBroker c force m) = true := by
  obtain ⟨f, hf, hfl⟩ := flds_payload c env force m hw
  obtain ⟨x, hx, hu⟩ := payload_read_ok c env he m.payload (payWF_of c env m hw) f hf (m.flds c force) hfl hk.1
  have hend : checkStmts env (m.flds c force) [] (fromBroker c force m) = some x := by
    change checkStmts env _ [] ((readAll c m.payload).map Stmt.simple ++ _) = _
    rw [from_eq, hx]
    simp only [Option.bind_some]
    cases hh : m.headers with
    | none => rw [readHeaders, List.nil_append, ret_nil]
    | some hs =>
      rw [loop_eq]
      refine ⟨rfl, (hk.2 hs hh).1, fun h hm => ?_⟩
      obtain ⟨h1, h2⟩ := (hw.headers hs hh).2 h hm
      obtain ⟨t, h3, h4⟩ := typed_of c env force m hw hs hh h hm
      exact read_of_headerOk c env he force h t h1.1 h3 h2 _ h4 _ (loopVars_v x) ((hk.2 hs hh).2.1 h hm)
  unfold bodyOk
  rw [hend]
  simp only [List.all_eq_true, decide_eq_true_eq]
  intro e hm
  change e.1 ∈ ((readAll c m.payload).map Stmt.simple ++ _).flatMap Stmt.uses
  rw [List.flatMap_append, simple_uses]
  exact List.mem_append_left _ (hu e hm)

theorem bodyOk_some (env : Env) (flds : Fld → Option GT) (ss : List Stmt) (h : bodyOk env flds ss = true) :
    ∃ x, checkStmts env flds [] ss = some x := by
  unfold bodyOk at h
  cases hc : checkStmts env flds [] ss with
  | none => rw [hc] at h; cases h
  | some x => exact ⟨x, rfl⟩

theorem bind_some (α β : Type) (o : Option α) (g : α → Option β) (y : β) (h : o.bind g = some y) : ∃ x, o = some x ∧ g x = some y := by
  cases o with
  | none => cases h
  | some x => exact ⟨x, rfl, h⟩

theorem msgOk_of (c : Cfg) (env : Env) (he : EnvOk env) (force : Bool) (m : Msg) (hw : MsgWF c env m)
    (h1 : bodyOk env (m.flds c force) (fromBroker c force m) = true)
    (h2 : bodyOk env (m.flds c force) (toBroker c force m) = true) : MsgOk c env force m := by
  obtain ⟨f, hf, hfl⟩ := flds_payload c env force m hw
  have hn : m.payload.used.type ≠ tNumber := by
    intro hn
    rw [from_number c env _ force m hn] at h1
    cases h1
  obtain ⟨y, hy⟩ := bodyOk_some _ _ _ h2
  rw [to_eq] at hy
  obtain ⟨x, hx, hy⟩ := bind_some _ _ _ _ _ hy
  have hp : PayloadOk c env m.payload :=
    payload_only c env he m.payload (payWF_of c env m hw) f hf _ hfl hn (by rw [hx]; simp)
  have hwr := written_of c env he m.payload (payWF_of c env m hw) f hf _ hfl hn x hx
  refine ⟨hp, fun hs hh => ?_⟩
  rw [hh, writeHeaders, List.cons_append, define_headers env _ c m.payload x hwr, checkStmts_append] at hy
  obtain ⟨z, hz, -⟩ := bind_some _ _ _ _ _ hy
  obtain ⟨h3, h4⟩ := write_all_only c env he _ force hs (fun h hm => typed_of c env force m hw hs hh h hm) _
    (written_ctxW c m.payload x hwr) z hz
  obtain ⟨w, hw1⟩ := bodyOk_some _ _ _ h1
  change checkStmts env _ [] ((readAll c m.payload).map Stmt.simple ++ _) = _ at hw1
  rw [from_eq] at hw1
  obtain ⟨v, -, hw1⟩ := bind_some _ _ _ _ _ hw1
  rw [hh, loop_eq] at hw1
  obtain ⟨-, h5, h6⟩ := hw1
  refine ⟨h5, fun h hm => ?_, by omega⟩
  obtain ⟨h7, h8⟩ := (hw.headers hs hh).2 h hm
  obtain ⟨t, h9, h10⟩ := typed_of c env force m hw hs hh h hm
  exact headerOk_of c env force h t h7.1 h9 h8 _ h10 _ (loopVars_v v) (h3 h hm) (h6 h hm)

/-! ## C103 -/

/-- C103: for every message, the Go compiler accepts the two functions that convert it exactly when its payload and
its headers are of the kinds listed in the specification. -/
theorem C103_compiles_exactly_partial (c : Cfg) (env : Env) (force : Bool) (m : Msg) (he : EnvOk env) (hw : MsgWF c env m) :
    compiles c env force m = true ↔ MsgOk c env force m := by
  unfold compiles
  rw [Bool.and_eq_true]
  exact ⟨fun h => msgOk_of c env he force m hw h.1 h.2, fun h => ⟨from_ok c env he force m hw h, to_ok c env he force m hw h⟩⟩

/-! ### Cases -/

def kUser : Str := ['U', 's', 'e', 'r']
def kName : Str := ['N', 'a', 'm', 'e']
def kWhen : Str := ['W', 'h', 'e', 'n']
def kOther : Str := ['O', 't', 'h', 'e', 'r']
def kA : Str := ['A']
def kB : Str := ['B']
def kC : Str := ['C']
def kD : Str := ['D']
def fDateTime : Str := ['d', 'a', 't', 'e', '-', 't', 'i', 'm', 'e']

/-- Names are kept, dates become Go times. -/
def demoCfg : Cfg := { nm := id, dates := true }

/-- `type User struct {…}`, `type Name string`, `type When time.Time`, `type Other User`. -/
def demoEnv : Env := fun n =>
  if n = kUser then some .struct else if n = kName then some .string else if n = kWhen then some .timeStruct
  else if n = kOther then some .struct else none

theorem demoEnv_ok : EnvOk demoEnv := by
  refine ⟨fun n => ?_, by decide⟩
  unfold demoEnv
  repeat' split
  all_goals simp

def leaf (i : Info) : Sch := .node i [] none none

/-- The payload is an object of the message. -/
def objectPayload : Payload := { sch := leaf { name := kUser, type := tObject }, target := none }

/-- The payload refers to another schema. -/
def refPayload (t : Sch) : Payload := { sch := leaf { name := kB, ref := some t.info.name }, target := some t }

def stringHeader (k : Str) (required : Bool) : Header :=
  { key := k, sch := leaf { name := k, type := tString }, ref := none, required := required, listed := false }
def objectHeader (k : Str) : Header :=
  { key := k, sch := leaf { name := kUser, type := tObject }, ref := none, required := true, listed := false }
def dateHeader (k : Str) : Header :=
  { key := k, sch := leaf { name := k, type := tString, format := fDateTime }, ref := none, required := true, listed := true }
def refHeader (k : Str) : Header :=
  { key := k, sch := leaf { name := k, ref := some kName }, ref := some kName, required := false, listed := false }
def integerHeader (k : Str) : Header :=
  { key := k, sch := leaf { name := k, type := tInteger }, ref := none, required := true, listed := false }
def listedHeader (k : Str) : Header :=
  { key := k, sch := leaf { name := k, type := tString }, ref := none, required := false, listed := true }

/-- A message with headers of every kind that can be converted. -/
def demoMsg : Msg :=
  { payload := objectPayload, headers := some [stringHeader kA true, objectHeader kB, dateHeader kC, refHeader kD] }

theorem demo_wf : MsgWF demoCfg demoEnv demoMsg := by
  refine ⟨⟨rfl, .named kUser, rfl, by decide⟩, ?_, ?_⟩
  · intro t h; cases h
  · intro hs h
    cases h
    refine ⟨by decide, ?_⟩
    intro h hm
    simp only [List.mem_cons, List.not_mem_nil, or_false] at hm
    rcases hm with rfl | rfl | rfl | rfl
    · exact ⟨⟨rfl, .string, rfl, by decide⟩, fun n h => by cases h⟩
    · exact ⟨⟨rfl, .named kUser, rfl, by decide⟩, fun n h => by cases h⟩
    · exact ⟨⟨rfl, .time, rfl, by decide⟩, fun n h => by cases h⟩
    · refine ⟨⟨rfl, .named kName, rfl, by decide⟩, fun n h => ?_⟩
      cases h
      exact ⟨rfl, rfl, rfl, rfl, rfl⟩

example : MsgWF demoCfg demoEnv demoMsg ∧ MsgOk demoCfg demoEnv false demoMsg ∧ compiles demoCfg demoEnv false demoMsg = true :=
  have h : compiles demoCfg demoEnv false demoMsg = true := by decide
  ⟨demo_wf, (C103_compiles_exactly_partial demoCfg demoEnv false demoMsg demoEnv_ok demo_wf).1 h, h⟩

/-- With forced pointers the same message does not compile: its required date-time header. -/
theorem C103_violated_forced_pointer : compiles demoCfg demoEnv true demoMsg = false ∧
    compiles demoCfg demoEnv true { payload := objectPayload, headers := some [dateHeader kA] } = false := by decide

/-- Headers without a property: the variables of the loop are unused. -/
theorem C103_violated_no_header : compiles demoCfg demoEnv false { payload := objectPayload, headers := some [] } = false := by decide

/-- Two required headers that are objects: the second `h, err :=` declares nothing new. One alone is accepted. -/
theorem C103_violated_two_objects :
    compiles demoCfg demoEnv false { payload := objectPayload, headers := some [objectHeader kA] } = true ∧
    compiles demoCfg demoEnv false { payload := objectPayload, headers := some [objectHeader kA, objectHeader kB] } = false := by decide

/-- Headers that are integers, and headers that only the list of required names requires. -/
theorem C103_violated_header :
    compiles demoCfg demoEnv false { payload := objectPayload, headers := some [integerHeader kA] } = false ∧
    compiles demoCfg demoEnv false { payload := objectPayload, headers := some [listedHeader kA] } = false := by decide

/-- Payloads that are numbers or booleans; date-times behind a reference. -/
theorem C103_violated_payload :
    compiles demoCfg demoEnv false { payload := { sch := leaf { name := kB, type := tNumber }, target := none }, headers := none } = false ∧
    compiles demoCfg demoEnv false { payload := { sch := leaf { name := kB, type := tBoolean }, target := none }, headers := none } = false ∧
    compiles demoCfg demoEnv false { payload := refPayload (leaf { name := kWhen, type := tString, format := fDateTime }), headers := none } = false := by
  decide

/-- A payload that refers to an object is accepted, one that refers to a schema that is itself a reference to it is not. -/
theorem C103_violated_reference :
    compiles demoCfg demoEnv false { payload := refPayload (leaf { name := kUser, type := tObject }), headers := none } = true ∧
    compiles demoCfg demoEnv false { payload := refPayload (leaf { name := kOther, ref := some kUser }), headers := none } = false := by
  decide

/-! The rules of the compiler on a block: a variable that is not used is refused, one that is used is accepted. -/

example : blockOk demoEnv (fun _ => none) [] [.define [kA] .buffer] = false := by decide

example : blockOk demoEnv (fun _ => none) [] [.define [kA] .buffer, .ret [kA]] = true := by decide

end Verif.Convert
