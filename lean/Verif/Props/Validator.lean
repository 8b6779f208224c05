import Verif.Proofs.Validator

/-! # C112: validation accepts exactly the conforming values -/

namespace Verif.Validator

open Validations (isFieldPointer directives Dir)

/-- **C112 (partial: constraints of the type of their property, bounds that are whole numbers other than zero
and less than a million for integers and lengths, texts without separators, no constraints inside of
arrays).** For every such object, nested to any depth, and every value of its Go type: the validator does not
panic, and accepts the value exactly when it conforms to the document. Missing: the other constraints, for
which it is false (below), formats, compositions and additional properties. -/
theorem C112_exact_partial (fs : Flds) (h : fs.Fine) (xs : List GoV) (ht : TypedF fs xs) :
    runStruct fs xs ≠ .panic ∧ (runStruct fs xs = .pass ↔ ConformsF fs xs) := struct_ok fs h xs ht

/-- **C112 (presence).** Required arrays that are absent are refused, whatever their constraints and whatever
else the object declares. -/
theorem C112_required_array (d i : Decl) (e : Sch) (hr : d.required = true) (hf : Fits d (.arr i e)) (r : Flds)
    (xs : List GoV) : runStruct (.cons d (.arr i e) r) (.slice none :: xs) ≠ .pass := by
  have ht : if d.required || (Sch.arr i e).isArray then Typed (.arr i e) (.slice none)
      else ∃ o, (GoV.slice none) = .ptr o ∧ ∀ y, o = some y → Typed (.arr i e) y := by
    rw [hr, Bool.true_or, if_pos rfl]
    unfold Typed
    intro ys hy; cases hy
  have hin : ∀ y, inside (.arr i e) y = .pass := fun y => by unfold inside; rfl
  intro hpass
  unfold runStruct at hpass
  have h1 := (both_pass.mp hpass).1
  have hd : directives d.decoded (isFieldPointer d.required d.decoded (Sch.arr i e).isArray) (Sch.arr i e).isArray =
      .required :: Validations.core d.decoded := by
    rw [Validations.directives_eq, show d.decoded.isRequired = d.required from rfl, hr]
    simp [Sch.isArray]
  unfold runField tagText at h1
  rw [parseTag_validateTag (fits_writable hf), hd] at h1
  split at h1
  · simp only [List.map_cons, loop] at h1
    rw [isOmit_parsed (d := .required) trivial (by simp), runAlts_single] at h1
    simp [parsed, runDir_required, hasValue, Res.of] at h1
  · cases h1

/-- A structure with one required field and one directive. -/
theorem single {d : Decl} {s : Sch} {c : Dir} (hw : Writable d.decoded) (hg : Good c) (hc : c ≠ .omitempty)
    (hd : directives d.decoded (isFieldPointer d.required d.decoded s.isArray) s.isArray = [c])
    (x : GoV) (hx : ∀ o, x ≠ .ptr o) (h : runDir s false x (parsed c) = .panic) :
    runStruct (.cons d s .nil) [x] = .panic := by
  have hf : runField s (inside s) (parseTag (tagText d s)) x = .panic := by
    unfold tagText
    rw [parseTag_validateTag hw, hd]
    unfold runField
    rw [if_pos (by simp [known_good hg])]
    have hl : loop s false x (inside s x) [[parsed c]] = .panic := by
      simp only [loop, isOmit_parsed hg hc, Bool.false_eq_true, if_false, runAlts_single, h]
    cases x with
    | ptr o => exact absurd rfl (hx o)
    | _ => exact hl
  unfold runStruct
  rw [hf]
  rfl

/-- **C112 is violated** (1): a `maximum` of a million or more on an integer is written in scientific notation,
which the validator cannot read: it panics for every value. -/
theorem C112_violated_large_bound (b : Int) (hb : 1000000 ≤ b.natAbs) (n : Int) :
    runStruct (.cons { required := true, maximum := some b } .int .nil) [.int n] = .panic := by
  have h0 : b ≠ 0 := by omega
  refine single (c := .num kLte b) ⟨(fun s hs => by cases hs), (fun s hs => by cases hs)⟩
    (show kLte ∈ numNames by decide) (by simp) ?_ _ (by simp) ?_
  · rw [Validations.directives_eq]
    simp [Decl.decoded, Validations.core, Validations.ifDefined, numOf, h0, isFieldPointer, Sch.isArray,
      Validations.enumDirs, Validations.constDirs, kLte]
  · simp only [parsed, runDir_lte, compare, parseInt_large hb]

/-- The tags of these constraints hold numbers with an exponent. -/
example : gPrint 1000000 = "1e+06".toList ∧ gPrint (-12500000) = "-1.25e+07".toList ∧ gPrint (10 ^ 12) = "1e+12".toList ∧
    gPrint 999999 = "999999".toList := by decide

/-- **C112 is violated** (2): so does a `maxLength` of a million or more. -/
theorem C112_violated_large_length (m : Nat) (hm : 1000000 ≤ m) (s : Str) :
    runStruct (.cons { required := true, maxLength := some m } .str .nil) [.str s] = .panic := by
  have h0 : m ≠ 0 := by omega
  refine single (c := .num kMax m) ⟨(fun s hs => by cases hs), (fun s hs => by cases hs)⟩
    (show kMax ∈ numNames by decide) (by simp) ?_ _ (by simp) ?_
  · rw [Validations.directives_eq]
    simp [Decl.decoded, Validations.core, Validations.ifDefined, numOf, h0, isFieldPointer, Sch.isArray,
      Validations.enumDirs, Validations.constDirs, kMax]
  · simp only [parsed, runDir_max, compare, parseInt_large (b := (m : Int)) hm]

/-- **C112 is violated** (3): the text of a fractional bound (`lte=0.5`) on an integer makes the validator panic
for every value. -/
theorem C112_violated_fraction (s : Sch) (p : Bool) (n : Int) : runDir s p (.int n) (kLte, "0.5".toList) = .panic := by
  simp only [runDir_lte, compare]
  have : parseInt "0.5".toList = none := by decide
  rw [this]

/-- **C112 is violated** (4): constraints of array items are not validated. -/
theorem C112_violated_items :
    let fs : Flds := .cons { required := true } (.arr { maxLength := some 1 } .str) .nil
    let xs : List GoV := [.slice (some [.str "long".toList])]
    runStruct fs xs = .pass ∧ ¬ ConformsF fs xs := by
  refine ⟨by decide +kernel, ?_⟩
  simp only [ConformsF, present, Meets]
  intro h
  have := ((h.1.2 _ rfl).2 _ rfl (.str "long".toList) (by simp)).1.2.1 1 rfl
  revert this
  decide

/-- **C112 is violated** (5): a `maximum` of zero is not validated. -/
theorem C112_violated_zero :
    let fs : Flds := .cons { required := true, maximum := some 0 } .int .nil
    runStruct fs [.int 5] = .pass ∧ ¬ ConformsF fs [.int 5] := by
  refine ⟨by decide +kernel, ?_⟩
  simp only [ConformsF, present, Meets]
  intro h
  have := (h.1.2 _ rfl).1.2.1 0 rfl
  omega

/-- **C112 is violated** (6): an enumerated text with a comma makes the validator panic for every value. -/
theorem C112_violated_comma (x : Str) :
    runStruct (.cons { required := true, enum := some ["a,b".toList] } .str .nil) [.str x] = .panic := by
  have h : (parseTag (tagText { required := true, enum := some ["a,b".toList] } .str)).all
      (fun alts => alts.all (fun d => known d.1)) = false := by decide +kernel
  unfold runStruct runField
  rw [h]
  rfl

/-- **C112 is violated** (7): items that are objects with optional properties are compared by the addresses of
these, so equal items are taken for different. -/
theorem C112_violated_unique_objects :
    let fs : Flds := .cons { required := true, unique := true } (.arr {} (.obj (.cons {} .str .nil))) .nil
    let o : GoV := .struct [.ptr (some (.str "a".toList))]
    let xs : List GoV := [.slice (some [o, o])]
    runStruct fs xs = .pass ∧ ¬ ConformsF fs xs := by
  refine ⟨by decide +kernel, ?_⟩
  simp only [ConformsF, present, Meets]
  intro h
  have := (h.1.2 _ rfl).1 trivial
  revert this
  simp [jsonEq, jsonEqs]

/-- **C112 is violated** (8): with items that are arrays, uniqueness makes the validator panic, whatever the
value. -/
theorem C112_violated_unique_arrays (i j : Decl) (e : Sch) (l : List GoV) :
    runStruct (.cons { required := true, unique := true } (.arr i (.arr j e)) .nil) [.slice (some l)] = .panic := by
  have ht : parseTag (tagText { required := true, unique := true } (.arr i (.arr j e))) =
      [[(kRequired, [])], [(kUnique, [])]] := by
    show parseTag (Validations.validateTag gPrint _ (isFieldPointer true _ true) true) = _
    decide +kernel
  have hf : runField (.arr i (.arr j e)) (inside (.arr i (.arr j e)))
      (parseTag (tagText { required := true, unique := true } (.arr i (.arr j e)))) (.slice (some l)) = .panic := by
    rw [ht]
    unfold runField
    rw [if_pos (by decide)]
    have h1 : isOmit [(kRequired, [])] = false := by decide
    have h2 : isOmit [(kUnique, [])] = false := by decide
    have hh : hashable (.arr j e) = false := by unfold hashable; rfl
    simp only [loop, h1, h2, Bool.false_eq_true, if_false, runAlts_single, runDir_required, hasValue,
      runDir_unique, runUnique, hh, Option.isSome_some, Res.of, if_true]
  unfold runStruct
  rw [hf]
  rfl

/-- **C112 is violated** (9): a `minLength` on an array, which means nothing, refuses short arrays. -/
theorem C112_violated_kind :
    let fs : Flds := .cons { required := true, minLength := some 2 } (.arr {} .int) .nil
    let xs : List GoV := [.slice (some [.int 1])]
    runStruct fs xs = .fail ∧ ConformsF fs xs := by
  refine ⟨by decide +kernel, ?_⟩
  simp only [ConformsF, present]
  refine ⟨⟨by simp, ?_⟩, trivial⟩
  intro y hy
  cases hy
  refine ⟨(fun h => by cases h), ?_⟩
  intro ys hys x hx
  cases hys
  rw [List.mem_singleton] at hx
  subst hx
  exact ⟨by simp [Holds, Meets], by simp [Conforms]⟩

theorem decimal (n : Int) :
    (if n < 0 then '-' :: Nat.toDigits 10 n.natAbs else Nat.toDigits 10 n.natAbs) = (toString n).toList := by
  cases n with
  | ofNat m =>
    rw [if_neg (by simp)]
    show _ = (Nat.repr m).toList
    simp [Nat.repr]
  | negSucc m =>
    rw [if_pos (Int.negSucc_lt_zero m)]
    show _ = ("-" ++ Nat.repr (m + 1)).toList
    simp [Nat.repr]

/-- **C112 is violated** (11): texts enumerated for an integer, which no integer equals, are compared with its digits, so the
integers whose digits are listed are accepted, for every list. -/
theorem C112_violated_integer_texts (s : Sch) (p : Bool) (n : Int) (l : List Str) (hl : ∀ t ∈ l, '\'' ∉ t) :
    runDir s p (.int n) (parsed (.oneof l)) = .pass ↔ (toString n).toList ∈ l := by
  simp only [parsed, runDir_oneof, runOneof]
  rw [words_eq, Validations.oneofVals_join l hl, decimal]
  by_cases h : (toString n).toList ∈ l <;> simp [Res.of]

/-- For instance `{type: integer, enum: ["-5"]}`. -/
example : runStruct (.cons { required := true, enum := some ["-5".toList] } .int .nil) [.int (-5)] = .pass ∧
    runStruct (.cons { required := true, enum := some ["-5".toList] } .int .nil) [.int 5] = .fail := by decide +kernel

/-- **C112 is violated** (10): `0x2C` in a text stands for a comma, so the constant `0x2C` refuses itself. -/
theorem C112_violated_escape :
    let fs : Flds := .cons { required := true, const := some "0x2C".toList } .str .nil
    runStruct fs [.str "0x2C".toList] = .fail ∧ runStruct fs [.str ",".toList] = .pass ∧
      ConformsF fs [.str "0x2C".toList] := by
  refine ⟨by decide +kernel, by decide +kernel, ?_⟩
  simp only [ConformsF, present]
  refine ⟨⟨by simp, ?_⟩, trivial⟩
  intro y hy
  cases hy
  exact ⟨by simp [Holds, Meets], by simp [Conforms]⟩

/-- Non-vacuity: a nested object with a required name of two characters at least, an optional enumeration, an
optional object with a bounded number, and a set. -/
def demo : Flds :=
  .cons { required := true, minLength := some 2 } .str
    (.cons { enum := some ["a".toList, "b c".toList] } .str
      (.cons {} (.obj (.cons { maximum := some 20000000 } .num .nil))
        (.cons { required := true, unique := true } (.arr {} .int) .nil)))

def demoOk : List GoV :=
  [.str "xy".toList, .ptr (some (.str "b c".toList)), .ptr (some (.struct [.ptr (some (.flt 3))])), .slice (some [.int 1, .int 2])]

example : demo.Fine ∧ TypedF demo demoOk ∧ runStruct demo demoOk = .pass := by
  refine ⟨?_, ?_, by decide +kernel⟩
  · have t : ∀ s ∈ ["a".toList, "b c".toList], ',' ∉ s ∧ '|' ∉ s ∧ '\'' ∉ s ∧ '"' ∉ s ∧ '\\' ∉ s ∧ '`' ∉ s ∧ '\n' ∉ s ∧
        noHex s = true := by decide
    have f1 : Fits { required := true, minLength := some 2 } .str := by
      refine ⟨rfl, ?_, ?_, ?_, ?_⟩ <;> (intro b hb; cases hb)
      decide
    have f2 : Fits { enum := some ["a".toList, "b c".toList] } .str := by
      refine ⟨rfl, ?_, ?_, ?_, ?_⟩ <;> (intro b hb; cases hb)
      exact ⟨by simp, t⟩
    have f3 : Fits { maximum := some 20000000 } .num := by
      refine ⟨rfl, ?_, ?_, ?_, ?_⟩ <;> (intro b hb; cases hb)
      decide
    have f4 : Fits { required := true, unique := true } (.arr {} .int) := ⟨rfl, fun _ => rfl⟩
    simp only [demo, Flds.Fine, Sch.Fine, Sch.Free, and_true]
    refine ⟨f1, ?_⟩
    simp only [true_and]
    exact ⟨f2, .inl rfl, f3, f4, .inl rfl⟩
  · simp [demo, demoOk, TypedF, Typed, Sch.isArray]

/-- Non-vacuity: the same object refuses a short name, an unknown value, a large number, an absent set and a
repeated item. -/
example : runStruct demo [.str "x".toList, .ptr none, .ptr none, .slice (some [])] = .fail ∧
    runStruct demo [.str "xy".toList, .ptr (some (.str "c".toList)), .ptr none, .slice (some [])] = .fail ∧
    runStruct demo [.str "xy".toList, .ptr none, .ptr (some (.struct [.ptr (some (.flt 20000001))])), .slice (some [])] = .fail ∧
    runStruct demo [.str "xy".toList, .ptr none, .ptr none, .slice none] = .fail ∧
    runStruct demo [.str "xy".toList, .ptr none, .ptr none, .slice (some [.int 1, .int 1])] = .fail := by
  decide +kernel

/-- Non-vacuity of `C112_required_array`. -/
example : Fits { required := true, unique := true } (.arr {} .str) := ⟨rfl, fun _ => rfl⟩

end Verif.Validator
