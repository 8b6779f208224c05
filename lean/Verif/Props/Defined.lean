import Verif.Model.Defined
import Verif.Props.AddProps

/-! # C104: a schema that refers to another has the same JSON -/

namespace Verif.Defined

open AddProps (Field GoTy Vals)

/-- The two declarations read and write the same texts. -/
def SameJson {T : Type} (lib : Lib T) (a b : Decl) : Prop :=
  (∀ text, a.decode lib text = b.decode lib text) ∧ ∀ v, a.encode lib v = b.encode lib v

theorem base_refs (n : Nat) (d : Decl) : (Decl.refs n d).base = d.base := by
  induction n with
  | zero => rfl
  | succ n ih => exact ih

theorem bare_own_decode {T : Type} (lib : Lib T) (d : Def) (h : d.methods = false) (text : Str) :
    d.bareDecode lib text = d.ownDecode lib text := by
  cases d with
  | struct fs extra =>
    cases extra with
    | none => rfl
    | some ty => cases h
  | time => cases h
  | plain ty => rfl

theorem bare_own_encode {T : Type} (lib : Lib T) (d : Def) (h : d.methods = false) (v : Val T) :
    d.bareEncode v = d.ownEncode lib v := by
  cases d with
  | struct fs extra =>
    cases extra with
    | none => cases v <;> rfl
    | some ty => cases h
  | time => cases h
  | plain ty => cases v <;> rfl

/-- C104: however many references lead to a declaration without methods, the JSON is that of the declaration. -/
theorem C104_same_json_partial {T : Type} (lib : Lib T) (d : Def) (h : d.methods = false) (n : Nat) :
    SameJson lib (Decl.refs n (.own d)) (.own d) := by
  cases n with
  | zero => exact ⟨fun _ => rfl, fun _ => rfl⟩
  | succ n =>
    refine ⟨fun text => ?_, fun v => ?_⟩
    · show (Decl.refs n (.own d)).base.bareDecode lib text = _
      rw [base_refs]
      exact bare_own_decode lib d h text
    · show (Decl.refs n (.own d)).base.bareEncode v = _
      rw [base_refs]
      exact bare_own_encode lib d h v

/-- C104: whatever leads to a declaration without methods, what is no JSON object and not null is refused for a struct. -/
theorem C104_refused {T : Type} (lib : Lib T) (fs : List Field) (n : Nat) (text : Str) (v : Val T)
    (h : (Decl.refs n (.own (.struct fs none))).decode lib text = some v) :
    (∃ ms, Json.parse text = some (.obj ms)) ∨ Json.parse text = some .null := by
  have h : structDecode lib fs text = some v :=
    ((C104_same_json_partial lib (.struct fs none) rfl n).1 text).symm.trans h
  unfold structDecode at h
  cases hp : Json.parse text with
  | none => rw [hp] at h; cases h
  | some j =>
    rw [hp] at h
    cases j with
    | obj ms => exact .inl ⟨ms, rfl⟩
    | null => exact .inr rfl
    | _ => cases h

/-- C104: two schemas that both refer to the same one (directly or not) agree. -/
theorem C104_references_agree_partial {T : Type} (lib : Lib T) (d : Decl) (n m : Nat) :
    SameJson lib (Decl.refs (n + 1) d) (Decl.refs (m + 1) d) := by
  refine ⟨fun text => ?_, fun v => ?_⟩
  · show (Decl.refs n d).base.bareDecode lib text = (Decl.refs m d).base.bareDecode lib text
    rw [base_refs, base_refs]
  · show (Decl.refs n d).base.bareEncode v = (Decl.refs m d).base.bareEncode v
    rw [base_refs, base_refs]

/-- C104 is violated for additional properties: the reference reads the declared properties alike, never an additional
one, whatever the text. -/
theorem C104_violated_additional_lost {T : Type} (lib : Lib T) (fs : List Field) (ty : GoTy) (n : Nat) (text : Str)
    (vals : Vals) (adds : GoMap Str Json)
    (h : (Decl.own (.struct fs (some ty))).decode lib text = some (.obj vals adds)) :
    (Decl.refs (n + 1) (.own (.struct fs (some ty)))).decode lib text = some (.obj vals []) := by
  show (Decl.refs n (.own (.struct fs (some ty)))).base.bareDecode lib text = _
  rw [base_refs]
  change (AddProps.unmarshal lib.fold fs ty text).map (fun p => Val.obj p.1 p.2) = _ at h
  show structDecode lib fs text = _
  unfold AddProps.unmarshal at h
  unfold structDecode
  split at h
  · rename_i ms hp
    split at h
    · rename_i m v hm hv
      cases h
      rw [hp]
      simp only [hv]
      rfl
    · cases h
  · rename_i hp
    cases h
    rw [hp]
  · cases h

/-- What references write does not depend on the additional properties. -/
theorem encode_ref {T : Type} (lib : Lib T) (fs : List Field) (extra : Option GoTy) (n : Nat) (vals : Vals) (adds : GoMap Str Json) :
    (Decl.refs (n + 1) (.own (.struct fs extra))).encode lib (.obj vals adds) = some (structEncode fs vals) := by
  show (Decl.refs n (.own (.struct fs extra))).base.bareEncode (.obj vals adds) = _
  rw [base_refs]
  rfl

theorem print_obj_last (d : List (Str × Json)) : Json.print (.obj d) = (Json.print (.obj d)).dropLast ++ ['}'] := by
  rw [Json.print]
  change '{' :: (Json.printMembers d ++ ['}']) = (('{' :: Json.printMembers d) ++ ['}']).dropLast ++ ['}']
  rw [List.dropLast_concat]
  rfl

/-- C104 is violated for additional properties: what the reference writes is what the schema writes for the value without
its additional properties, and something else than what the schema writes for the value if it has any. -/
theorem C104_violated_additional_unwritten {T : Type} (lib : Lib T) (fs : List Field) (ty : GoTy) (n : Nat) (vals : Vals)
    (adds : GoMap Str Json) :
    (Decl.refs (n + 1) (.own (.struct fs (some ty)))).encode lib (.obj vals adds) =
      (Decl.own (.struct fs (some ty))).encode lib (.obj vals []) ∧
    (adds ≠ [] → (Decl.refs (n + 1) (.own (.struct fs (some ty)))).encode lib (.obj vals adds) ≠
      (Decl.own (.struct fs (some ty))).encode lib (.obj vals adds)) := by
  rw [encode_ref]
  refine ⟨?_, fun ha he => ?_⟩
  · show _ = some (AddProps.marshalV3 lib.isPrint (AddProps.declMembers fs vals) [])
    congr 1
    unfold AddProps.marshalV3 structEncode
    simp only [AddProps.addLoop, List.append_nil]
    exact print_obj_last _
  · change some (structEncode fs vals) = some (AddProps.marshalV3 lib.isPrint (AddProps.declMembers fs vals) adds) at he
    have he := congrArg List.length (Option.some.inj he)
    unfold AddProps.marshalV3 structEncode at he
    rw [print_obj_last] at he
    simp only [List.length_append, List.length_dropLast, List.length_cons, List.length_nil] at he
    cases adds with
    | nil => exact ha rfl
    | cons e adds =>
      obtain ⟨k, v⟩ := e
      simp only [AddProps.addLoop, List.length_append, List.length_cons] at he
      omega

/-- C104 is violated for date-times: the reference writes every time as `{}`, and refuses every text in quotes. -/
theorem C104_violated_time {T : Type} (lib : Lib T) (n : Nat) (t : T) (text s : Str) (h : Json.parse text = some (.str s)) :
    (Decl.refs (n + 1) (.own .time)).encode lib (.time t) = some ['{', '}'] ∧
    (Decl.refs (n + 1) (.own .time)).decode lib text = none := by
  refine ⟨?_, ?_⟩
  · show (Decl.refs n (.own .time)).base.bareEncode (.time t) = _
    rw [base_refs]
    rfl
  · show (Decl.refs n (.own .time)).base.bareDecode lib text = _
    rw [base_refs]
    show (match Json.parse text with
      | some (.obj _) => some (Val.time lib.zero)
      | some .null => some (Val.time lib.zero)
      | _ => none) = none
    rw [h]

/-- C104: however many references lead to a plain type, a text that is no JSON, or holds a value of another type, is refused,
and a value of the type is read as it is. -/
theorem C104_plain {T : Type} (lib : Lib T) (ty : GoTy) (n : Nat) (text : Str) :
    (Json.parse text = none → (Decl.refs n (.own (.plain ty))).decode lib text = none) ∧
    (∀ j, Json.parse text = some j → j ≠ .null → (Decl.refs n (.own (.plain ty))).decode lib text =
      if ty.accepts j then some (.plain j) else none) := by
  have key : (Decl.refs n (.own (.plain ty))).decode lib text = (plainDecode ty text : Option (Val T)) :=
    (C104_same_json_partial lib (.plain ty) rfl n).1 text
  rw [key]
  unfold plainDecode
  refine ⟨fun h => by rw [h], fun j h hj => ?_⟩
  rw [h]
  cases j with
  | null => exact absurd rfl hj
  | _ => rfl

/-! ### Cases -/

def lib0 : Lib Nat :=
  { format := fun n => List.replicate n 'x', parse := fun s => some s.length, zero := 0, isPrint := fun _ => true, fold := AddProps.lower }

/-- `{"name":"x","a":"b"}` -/
def text0 : Str := ['{', '"', 'n', 'a', 'm', 'e', '"', ':', '"', 'x', '"', ',', '"', 'a', '"', ':', '"', 'b', '"', '}']

def named : Field := { key := ['n', 'a', 'm', 'e'], ty := AddProps.strTy, pointer := false, omitEmpty := false }

/-- The additional properties of a value. -/
def Val.adds? {T : Type} : Val T → List Str
  | .obj _ adds => adds.map (·.1)
  | _ => []

/-- A schema with additional strings reads two properties of the text, a schema that refers to it one. -/
theorem C104_violated_witness :
    ((Decl.own (.struct [named] (some AddProps.strTy))).decode lib0 text0).map Val.adds? = some [['a']] ∧
    ((Decl.ref (.own (.struct [named] (some AddProps.strTy)))).decode lib0 text0).map Val.adds? = some [] := by
  decide

example : (Def.struct [named] none).methods = false ∧ (Def.plain AddProps.strTy).methods = false := ⟨rfl, rfl⟩

example : SameJson lib0 (Decl.refs 3 (.own (.struct [named] none))) (.own (.struct [named] none)) :=
  C104_same_json_partial lib0 _ rfl 3

example : (Decl.refs 1 (.own .time)).decode lib0 ['"', 'x', '"'] = none ∧
    ((Decl.own .time).decode lib0 ['"', 'x', '"']).isSome = true :=
  ⟨(C104_violated_time lib0 0 0 _ ['x'] rfl).2, rfl⟩

/-- A string is read by a reference to a string, a number is refused. -/
example : (Decl.refs 2 (.own (.plain AddProps.strTy))).decode lib0 ['"', 'x', '"'] = some (.plain (.str ['x'])) ∧
    (Decl.refs 2 (.own (.plain AddProps.strTy))).decode lib0 ['1'] = none := ⟨rfl, rfl⟩

/-- An empty object is read through two references to a struct, a number is not. -/
example : ((Decl.refs 2 (.own (.struct [named] none))).decode lib0 ['{', '}']).isSome = true ∧
    (Decl.refs 2 (.own (.struct [named] none))).decode lib0 ['1'] = none := ⟨rfl, rfl⟩

/-- A null is the zero time. -/
example : (Decl.own .time).decode lib0 ['n', 'u', 'l', 'l'] = some (.time lib0.zero) := rfl

end Verif.Defined
