import Verif.Model.ValidatorTime
import Verif.Props.Validator

/-! # C112: dates -/

namespace Verif.Validator

open Validations (isFieldPointer directives Dir core)

/-- The constraints can be written in a tag: enumerations are not empty, texts have no separators. -/
def Decl.Plain (d : Decl) : Prop := Writable d.decoded ∧ ∀ l, d.enum = some l → l ≠ []

/-- A number is given and is not zero. -/
def Set {α : Type} [Zero α] (o : Option α) : Prop := ∃ n, o = some n ∧ n ≠ 0

theorem set_iff {α : Type} [Zero α] (o : Option α) : numOf o ≠ 0 ↔ Set o := by
  cases o with
  | none => simp [numOf, Set]
  | some n => simp [numOf, Set]

/-- What a tag asks of an instant: whatever the numbers are, lower bounds mean the future, upper bounds the past. -/
def Asks (d : Decl) (now t : Int) : Prop :=
  (Set d.minLength → now ≤ t) ∧ (Set d.maxLength → t ≤ now) ∧ (Set d.minimum → now ≤ t) ∧ (Set d.maximum → t ≤ now) ∧
  (Set d.exclusiveMinimum → now < t) ∧ (Set d.exclusiveMaximum → t < now)

/-- Constraints about which values there may be. -/
def Decl.Listed (d : Decl) : Prop := d.unique = true ∨ d.enum ≠ none ∨ d.const ≠ none

/-- The bounds of a schema, in the order of the tag. -/
def boundDirs (d : Decl) : List Dir :=
  Validations.ifDefined kMin d.decoded.minLength ++ Validations.ifDefined kMax d.decoded.maxLength ++
  Validations.ifDefined kGte d.decoded.minimum ++ Validations.ifDefined kLte d.decoded.maximum ++
  Validations.ifDefined kGt d.decoded.exclusiveMinimum ++ Validations.ifDefined kLt d.decoded.exclusiveMaximum

/-- The other constraints. -/
def listDirs (d : Decl) : List Dir :=
  (if d.decoded.uniqueItems then [.unique] else []) ++ Validations.enumDirs d.decoded ++ Validations.constDirs d.decoded

theorem core_split (d : Decl) : core d.decoded = boundDirs d ++ listDirs d := by
  unfold core boundDirs listDirs
  simp only [List.append_assoc]
  rfl

theorem runAlts_one (now : Int) (p : Bool) (x : Stamp) (d : Str × Str) : x.runAlts now p [d] = x.runDir now p d := by
  unfold Stamp.runAlts
  cases x.runDir now p d <;> rfl

/-- A list of directives none of which panics: all are run. -/
theorem stampLoop_append (now : Int) (p : Bool) (x : Stamp) (rest : List (List (Str × Str))) :
    ∀ (ds : List Dir), (∀ d ∈ ds, Good d ∧ d ≠ .omitempty) → (∀ d ∈ ds, x.runDir now p (parsed d) ≠ .panic) →
    ((∀ d ∈ ds, x.runDir now p (parsed d) = .pass) → x.loop now p (ds.map (fun d => [parsed d]) ++ rest) = x.loop now p rest) ∧
    (¬ (∀ d ∈ ds, x.runDir now p (parsed d) = .pass) → x.loop now p (ds.map (fun d => [parsed d]) ++ rest) = .fail)
  | [], _, _ => ⟨fun _ => rfl, fun h => absurd (by simp) h⟩
  | d :: ds, hg, hp => by
    have ih := stampLoop_append now p x rest ds (fun d h => hg d (List.mem_cons_of_mem _ h)) (fun d h => hp d (List.mem_cons_of_mem _ h))
    have h1 := hg d List.mem_cons_self
    have h2 := hp d List.mem_cons_self
    simp only [List.map_cons, List.cons_append, Stamp.loop, isOmit_parsed h1.1 h1.2, Bool.false_eq_true, if_false, runAlts_one]
    cases hr : x.runDir now p (parsed d) with
    | pass =>
      refine ⟨fun h => ih.1 (fun d hd => h d (List.mem_cons_of_mem _ hd)), fun h => ih.2 (fun hh => h ?_)⟩
      intro d' hd'
      rcases List.mem_cons.1 hd' with rfl | hd'
      · exact hr
      · exact hh d' hd'
    | fail =>
      refine ⟨fun h => ?_, fun _ => rfl⟩
      have := h d List.mem_cons_self
      rw [hr] at this; cases this
    | panic => exact absurd hr h2

/-- A directive no structure knows. -/
theorem listDirs_panic (now : Int) (p : Bool) (x : Stamp) {d : Decl} {c : Dir} (h : c ∈ listDirs d) :
    x.runDir now p (parsed c) = .panic ∧ c ≠ .omitempty := by
  have k1 : ∀ t, x.runDir now p (kUnique, t) = .panic := fun t => by unfold Stamp.runDir; simp [show kUnique ≠ kRequired ∧ kUnique ≠ kMin ∧ kUnique ≠ kMax ∧ kUnique ≠ kGte ∧ kUnique ≠ kLte ∧ kUnique ≠ kGt ∧ kUnique ≠ kLt by decide]
  have k2 : ∀ t, x.runDir now p (kOneof, t) = .panic := fun t => by unfold Stamp.runDir; simp [show kOneof ≠ kRequired ∧ kOneof ≠ kMin ∧ kOneof ≠ kMax ∧ kOneof ≠ kGte ∧ kOneof ≠ kLte ∧ kOneof ≠ kGt ∧ kOneof ≠ kLt by decide]
  have k3 : ∀ t, x.runDir now p (kEq, t) = .panic := fun t => by unfold Stamp.runDir; simp [show kEq ≠ kRequired ∧ kEq ≠ kMin ∧ kEq ≠ kMax ∧ kEq ≠ kGte ∧ kEq ≠ kLte ∧ kEq ≠ kGt ∧ kEq ≠ kLt by decide]
  unfold listDirs at h
  simp only [List.mem_append] at h
  rcases h with (h | h) | h
  · split at h
    · rw [List.mem_singleton] at h; subst h; exact ⟨k1 _, by simp⟩
    · cases h
  · unfold Validations.enumDirs at h
    split at h
    · dsimp only at h
      split at h
      · rw [List.mem_singleton] at h; subst h; exact ⟨k2 _, by simp⟩
      · cases h
    · cases h
  · unfold Validations.constDirs at h
    split at h
    · rw [List.mem_singleton] at h; subst h; exact ⟨k3 _, by simp⟩
    · cases h

theorem listDirs_nil {d : Decl} (hd : d.Plain) : listDirs d = [] ↔ ¬ d.Listed := by
  unfold listDirs Decl.Listed
  rw [enumDirs_decoded hd.2, constDirs_decoded]
  cases hu : d.unique <;> cases he : d.enum <;> cases hc : d.const <;> simp [Decl.decoded, hu]

theorem bound_runs (now t : Int) (z p : Bool) (b : Int) : 
    (Stamp.time t z).runDir now p (kMin, gPrint b) = .of (decide (now ≤ t)) ∧
    (Stamp.time t z).runDir now p (kMax, gPrint b) = .of (decide (t ≤ now)) ∧
    (Stamp.time t z).runDir now p (kGte, gPrint b) = .of (decide (now ≤ t)) ∧
    (Stamp.time t z).runDir now p (kLte, gPrint b) = .of (decide (t ≤ now)) ∧
    (Stamp.time t z).runDir now p (kGt, gPrint b) = .of (decide (now < t)) ∧
    (Stamp.time t z).runDir now p (kLt, gPrint b) = .of (decide (t < now)) := by
  have e : kMin ≠ kRequired ∧ kMax ≠ kRequired ∧ kMax ≠ kMin ∧ kGte ≠ kRequired ∧ kGte ≠ kMin ∧ kGte ≠ kMax ∧ kLte ≠ kRequired ∧
    kLte ≠ kMin ∧ kLte ≠ kMax ∧ kLte ≠ kGte ∧ kGt ≠ kRequired ∧ kGt ≠ kMin ∧ kGt ≠ kMax ∧ kGt ≠ kGte ∧ kGt ≠ kLte ∧
    kLt ≠ kRequired ∧ kLt ≠ kMin ∧ kLt ≠ kMax ∧ kLt ≠ kGte ∧ kLt ≠ kLte ∧ kLt ≠ kGt := by decide
  unfold Stamp.runDir Stamp.compare
  simp [e]

theorem date_runs (now : Int) (p : Bool) (y : Int) (m k : Nat) {d : Decl} {c : Dir} (h : c ∈ core d.decoded) :
    (Stamp.date y m k).runDir now p (parsed c) = .panic := by
  rw [core_split] at h
  rcases List.mem_append.1 h with h | h
  · have : ∃ n ∈ numNames, ∃ b, c = .num n b := by
      unfold boundDirs at h
      simp only [List.mem_append] at h
      rcases h with ((((h | h) | h) | h) | h) | h <;>
        exact ⟨_, (by decide), _, (mem_ifDefined h).1⟩
    obtain ⟨n, hn, b, rfl⟩ := this
    have key : ∀ n ∈ numNames, n ≠ kRequired ∧ (n = kMin ∨ n = kMax ∨ n = kGte ∨ n = kLte ∨ n = kGt ∨ n = kLt) := by decide
    have := key n hn
    unfold Stamp.runDir parsed Stamp.compare
    dsimp only
    rw [if_neg this.1]
    repeat (split; · rfl)
    rfl
  · exact (listDirs_panic now p _ h).1

/-- The tag of a field of these types: the constraints, after `omitempty` if the property is optional and has any. -/
theorem stamp_tag {d : Decl} (hd : d.Plain) : parseTag (tagText d .str) =
    (if core d.decoded = [] then [] else if d.required then [] else [[(kOmitempty, [])]]) ++ (core d.decoded).map (fun c => [parsed c]) := by
  unfold tagText
  rw [parseTag_validateTag hd.1, Validations.directives_eq]
  have hr : d.decoded.isRequired = d.required := rfl
  rw [hr]
  cases hq : d.required <;> cases hc : core d.decoded <;> simp [hq, isFieldPointer, Sch.isArray, parsed, hr]

theorem plain_good {d : Decl} (hd : d.Plain) : ∀ c ∈ core d.decoded, Good c ∧ c ≠ .omitempty := by
  intro c hc
  refine ⟨good_core hd.1 c hc, ?_⟩
  rintro rfl
  rw [core_split] at hc
  rcases List.mem_append.1 hc with h | h
  · unfold boundDirs at h
    simp only [List.mem_append] at h
    rcases h with ((((h | h) | h) | h) | h) | h <;> exact absurd (mem_ifDefined h).1 (by simp)
  · exact (listDirs_panic 0 true (.date 0 0 0) h).2 rfl

/-- What running a present value gives. -/
theorem stamp_present (now : Int) {d : Decl} (hd : d.Plain) (x : Stamp) : Stamp.runField now d (some x) =
    x.loop now (!d.required) ((core d.decoded).map (fun c => [parsed c])) := by
  unfold Stamp.runField
  rw [stamp_tag hd]
  have hk : ((if core d.decoded = [] then [] else if d.required then [] else [[(kOmitempty, [])]]) ++
      (core d.decoded).map (fun c => [parsed c])).all (fun alts => alts.all (fun d => known d.1)) = true := by
    rw [List.all_append, Bool.and_eq_true]
    refine ⟨?_, ?_⟩
    · split
      · rfl
      · split
        · rfl
        · decide
    · rw [List.all_map, List.all_eq_true]
      intro c hc
      simp [known_good (plain_good hd c hc).1]
  dsimp only
  rw [if_pos hk]
  by_cases hn : core d.decoded = []
  · rw [if_pos hn]; rfl
  · rw [if_neg hn]
    cases hq : d.required with
    | true => rfl
    | false =>
      show Stamp.loop now true x ([(kOmitempty, [])] :: _) = _
      rw [Stamp.loop, if_pos (by decide)]
      simp

/-- **C112 (instants, exact).** A `date-time` that is present is refused when it lies before the time of the
validation although a lower bound or minimal length is declared, or after it with an upper one; otherwise the
validator panics exactly if values are listed, and accepts it if not. The numbers of the document play no part. -/
theorem C112_time_partial (now t : Int) (z : Bool) (d : Decl) (hd : d.Plain) :
    (Stamp.runField now d (some (.time t z)) = .pass ↔ Asks d now t ∧ ¬ d.Listed) ∧
    (Stamp.runField now d (some (.time t z)) = .panic ↔ Asks d now t ∧ d.Listed) := by
  rw [stamp_present now hd, core_split, List.map_append]
  have hgood := plain_good hd
  rw [core_split] at hgood
  have hb : ∀ b, _ := fun b => bound_runs now t z (!d.required) b
  have hA : (∀ c ∈ boundDirs d, (Stamp.time t z).runDir now (!d.required) (parsed c) = .pass) ↔ Asks d now t := by
    have hi : ∀ (name : Str) (n : Int) (P : Dir → Prop), (∀ c ∈ Validations.ifDefined name n, P c) ↔ (n ≠ 0 → P (.num name n)) := by
      intro name n P
      unfold Validations.ifDefined
      by_cases h : n = 0 <;> simp [h]
    unfold boundDirs Asks
    simp only [List.mem_append, or_imp, forall_and, hi, and_assoc]
    rw [← set_iff, ← set_iff, ← set_iff, ← set_iff, ← set_iff, ← set_iff]
    simp only [parsed, (hb _).1, (hb _).2.1, (hb _).2.2.1, (hb _).2.2.2.1, (hb _).2.2.2.2.1, (hb _).2.2.2.2.2, Res.of_pass,
      decide_eq_true_eq, Decl.decoded, ne_eq, Int.natCast_eq_zero]
  have hP : ∀ c ∈ boundDirs d, (Stamp.time t z).runDir now (!d.required) (parsed c) ≠ .panic := by
    intro c hc
    unfold boundDirs at hc
    simp only [List.mem_append] at hc
    rcases hc with ((((h | h) | h) | h) | h) | h <;>
      (rw [(mem_ifDefined h).1]; simp only [parsed, (hb _).1, (hb _).2.1, (hb _).2.2.1, (hb _).2.2.2.1, (hb _).2.2.2.2.1, (hb _).2.2.2.2.2]; exact Res.of_ne_panic _)
  have hl := stampLoop_append now (!d.required) (.time t z) ((listDirs d).map (fun c => [parsed c])) (boundDirs d)
    (fun c hc => hgood c (List.mem_append_left _ hc)) hP
  have hlist : (Stamp.time t z).loop now (!d.required) ((listDirs d).map (fun c => [parsed c])) = if listDirs d = [] then .pass else .panic := by
    cases hc : listDirs d with
    | nil => rfl
    | cons c cs =>
      have hm : c ∈ listDirs d := by rw [hc]; exact List.mem_cons_self
      have hg := hgood c (List.mem_append_right _ hm)
      rw [List.map_cons, Stamp.loop, isOmit_parsed hg.1 hg.2, if_neg (by simp), runAlts_one, (listDirs_panic now _ _ hm).1]
      simp
  by_cases ha : Asks d now t
  · rw [hl.1 (hA.2 ha), hlist]
    by_cases hL : listDirs d = []
    · rw [if_pos hL]
      have := (listDirs_nil hd).1 hL
      simp [ha, this]
    · rw [if_neg hL]
      have : d.Listed := Classical.byContradiction fun h => hL ((listDirs_nil hd).2 h)
      simp [ha, this]
  · rw [hl.2 (fun h => ha (hA.1 h))]
    simp [ha]

/-- **C112 is violated** (11): a `date-time` with a minimal length, which every such text has, is refused if it lies in the
past, and accepted a moment before: the outcome depends on the time of the validation. With a maximal length, it is refused
if it lies in the future. -/
theorem C112_violated_time (m : Nat) (hm : m ≠ 0) (now t : Int) (z : Bool) :
    (t < now → Stamp.runField now { required := true, minLength := some m } (some (.time t z)) = .fail) ∧
    Stamp.runField t { required := true, minLength := some m } (some (.time t z)) = .pass ∧
    (now < t → Stamp.runField now { required := true, maxLength := some m } (some (.time t z)) = .fail) := by
  have p1 : Decl.Plain { required := true, minLength := some m } := ⟨⟨nofun, nofun⟩, nofun⟩
  have p2 : Decl.Plain { required := true, maxLength := some m } := ⟨⟨nofun, nofun⟩, nofun⟩
  have fail : ∀ {r : Res}, r ≠ .pass → r ≠ .panic → r = .fail := by intro r; cases r <;> simp
  refine ⟨fun h => ?_, ?_, fun h => ?_⟩
  · have k := C112_time_partial now t z _ p1
    have : ¬ Asks { required := true, minLength := some m } now t := fun a => by have := a.1 ⟨m, rfl, hm⟩; omega
    exact fail (fun e => this (k.1.1 e).1) (fun e => this (k.2.1 e).1)
  · refine (C112_time_partial t t z _ p1).1.2 ⟨⟨fun _ => Int.le_refl _, ?_, ?_, ?_, ?_, ?_⟩, by simp [Decl.Listed]⟩ <;> rintro ⟨_, h, _⟩ <;> cases h
  · have k := C112_time_partial now t z _ p2
    have : ¬ Asks { required := true, maxLength := some m } now t := fun a => by have := a.2.1 ⟨m, rfl, hm⟩; omega
    exact fail (fun e => this (k.1.1 e).1) (fun e => this (k.2.1 e).1)

/-- **C112 is violated** (12): a `date` with any constraint that is written in the tag makes the validator panic, whatever
the date; without one it is accepted. -/
theorem C112_violated_date (now : Int) (y : Int) (m k : Nat) (d : Decl) (hd : d.Plain) :
    Stamp.runField now d (some (.date y m k)) = if core d.decoded = [] then .pass else .panic := by
  rw [stamp_present now hd]
  cases hc : core d.decoded with
  | nil => rfl
  | cons c cs =>
    have hm : c ∈ core d.decoded := by rw [hc]; exact List.mem_cons_self
    have hg := plain_good hd c hm
    rw [List.map_cons, Stamp.loop, isOmit_parsed hg.1 hg.2, if_neg (by simp), runAlts_one, date_runs now _ y m k hm]
    simp

/-- **C112 (dates, absent).** An optional date or instant that is absent is accepted, whatever its constraints. -/
theorem C112_time_absent (now : Int) (d : Decl) (hd : d.Plain) (ho : d.required = false) : Stamp.runField now d none = .pass := by
  have hk : (parseTag (tagText d .str)).all (fun alts => alts.all (fun d => known d.1)) = true := by
    by_cases hn : core d.decoded = []
    · rw [stamp_tag hd, hn]; rfl
    · rw [stamp_tag hd, if_neg hn, ho, List.all_append, Bool.and_eq_true]
      refine ⟨by decide, ?_⟩
      rw [List.all_map, List.all_eq_true]
      intro c hc
      simp [known_good (plain_good hd c hc).1]
  unfold Stamp.runField
  dsimp only
  rw [if_pos hk, stamp_tag hd, ho]
  by_cases hn : core d.decoded = []
  · rw [if_pos hn, hn]; rfl
  · rw [if_neg hn]
    show (if isOmit [(kOmitempty, [])] then Res.pass else .fail) = _
    rw [if_pos (by decide)]

/-- An instant in 2024, validated in 2026; a day with a minimal length. -/
example : Stamp.runField 1794000000000000000 { minLength := some 20 } (some (.time 1704067200000000000 false)) = .fail ∧
    Stamp.runField 1700000000000000000 { minLength := some 20 } (some (.time 1704067200000000000 false)) = .pass ∧
    Stamp.runField 0 { minLength := some 10 } (some (.date 2024 1 1)) = .panic ∧
    Stamp.runField 0 {} (some (.date 2024 1 1)) = .pass ∧
    Stamp.runField 0 { minLength := some 10 } none = .pass := by decide +kernel

example : Decl.Plain { minLength := some 20, maximum := some 5 } := ⟨⟨nofun, nofun⟩, nofun⟩

end Verif.Validator
