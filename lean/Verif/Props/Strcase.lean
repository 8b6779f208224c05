import Verif.Model.Strcase
import Verif.Spec.Strcase
import Verif.Props.Naming

/-!
# C93. Every naming scheme gives valid and stable names, C94. Key conversions keep properties apart
-/

namespace Verif.Strcase

open Naming

/-! ## Characters -/

theorem cls (b : Nat) : (isUpper b = true ↔ 65 ≤ b ∧ b ≤ 90) ∧ (isLower b = true ↔ 97 ≤ b ∧ b ≤ 122) ∧
    (isDigit b = true ↔ 48 ≤ b ∧ b ≤ 57) := by
  simp [isUpper, isLower, isDigit, inRange]

theorem isSep_iff (b : Nat) : isSep b = true ↔ b = 95 ∨ b = 32 ∨ b = 45 ∨ b = 46 := by
  simp [isSep]; omega

theorem isAlnum_iff (b : Nat) : isAlnum b = true ↔ isLower b = true ∨ isUpper b = true ∨ isDigit b = true := by
  simp [isAlnum, or_assoc]

theorem isSpace_iff (b : Nat) : isSpace b = true ↔ b = 32 ∨ (9 ≤ b ∧ b ≤ 13) := by
  simp [isSpace, inRange]

theorem up_cases (b : Nat) : (isLower b = true ∧ up b = b - 32) ∨ (isLower b = false ∧ up b = b) := by
  unfold up; cases h : isLower b <;> simp

theorem down_cases (b : Nat) : (isUpper b = true ∧ down b = b + 32) ∨ (isUpper b = false ∧ down b = b) := by
  unfold down; cases h : isUpper b <;> simp

/-- A letter stays a letter of the other or the same case. -/
theorem up_upper {b : Nat} (h : isUpper b = true ∨ isLower b = true) : isUpper (up b) = true := by
  have c := cls b; have c' := cls (up b)
  rcases up_cases b with ⟨k, e⟩ | ⟨k, e⟩
  · rw [c'.1, e]; rw [c.2.1] at k; omega
  · rw [e]; rcases h with h | h
    · exact h
    · rw [k] at h; cases h

theorem down_lower {b : Nat} (h : isUpper b = true ∨ isLower b = true) : isLower (down b) = true := by
  have c := cls b; have c' := cls (down b)
  rcases down_cases b with ⟨k, e⟩ | ⟨k, e⟩
  · rw [c'.2.1, e]; rw [c.1] at k; omega
  · rw [e]; rcases h with h | h
    · rw [k] at h; cases h
    · exact h

theorem up_other {b : Nat} (h : isLower b = false) : up b = b := by unfold up; simp [h]
theorem down_other {b : Nat} (h : isUpper b = false) : down b = b := by unfold down; simp [h]

theorem lower_false {b : Nat} (h : isUpper b = true ∨ isDigit b = true) : isLower b = false := by
  have c := cls b
  cases k : isLower b with
  | false => rfl
  | true => rw [c.2.1] at k; rw [c.1, c.2.2] at h; omega

theorem upper_false {b : Nat} (h : isLower b = true ∨ isDigit b = true) : isUpper b = false := by
  have c := cls b
  cases k : isUpper b with
  | false => rfl
  | true => rw [c.1] at k; rw [c.2.1, c.2.2] at h; omega

theorem digit_false {b : Nat} (h : isLower b = true ∨ isUpper b = true) : isDigit b = false := by
  have c := cls b
  cases k : isDigit b with
  | false => rfl
  | true => rw [c.2.2] at k; rw [c.2.1, c.1] at h; omega

/-! ## Camel case -/

/-- What the loop writes for a letter. -/
def camelChar (capNext prevIsCap : Bool) (v : Nat) : Nat :=
  if capNext then up v else if prevIsCap && isUpper v then down v else v

theorem camelLoop_cons (n p : Bool) (v : Nat) (s : Bytes) : camelLoop n p (v :: s) =
    if isUpper v || isLower v then camelChar n p v :: camelLoop false (isUpper v) s
    else if isDigit v then camelChar n p v :: camelLoop true false s
    else camelLoop (isSep v) false s := rfl

theorem camelChar_letter (n p : Bool) {v : Nat} (h : isUpper v = true ∨ isLower v = true) :
    isUpper (camelChar n p v) = true ∨ isLower (camelChar n p v) = true := by
  unfold camelChar
  split
  · exact .inl (up_upper h)
  · split
    · exact .inr (down_lower h)
    · exact h

theorem camelChar_digit (n p : Bool) {v : Nat} (h : isDigit v = true) : camelChar n p v = v := by
  unfold camelChar
  rw [up_other (lower_false (.inr h)), upper_false (.inr h)]
  simp

theorem camelLoop_alnum (n p : Bool) (s : Bytes) : ∀ b ∈ camelLoop n p s, isAlnum b = true := by
  induction s generalizing n p with
  | nil => simp [camelLoop]
  | cons v s ih =>
    rw [camelLoop_cons]
    split
    · rename_i h
      rw [Bool.or_eq_true] at h
      intro b hb
      rcases List.mem_cons.mp hb with rfl | hb
      · rw [isAlnum_iff]
        rcases camelChar_letter n p h with k | k
        · exact .inr (.inl k)
        · exact .inl k
      · exact ih _ _ b hb
    · split
      · rename_i h
        intro b hb
        rcases List.mem_cons.mp hb with rfl | hb
        · rw [camelChar_digit n p h, isAlnum_iff]; exact .inr (.inr h)
        · exact ih _ _ b hb
      · exact ih _ _

/-- **C93.** With `--naming-scheme camel` names only have ASCII letters and digits. -/
theorem C93_alnum (s : Bytes) : ∀ b ∈ toCamel s, isAlnum b = true := camelLoop_alnum _ _ _

theorem not_alnum {b : Nat} (h : isAlnum b = false) : isUpper b = false ∧ isLower b = false ∧ isDigit b = false := by
  unfold isAlnum at h
  simp only [Bool.or_eq_false_iff] at h
  exact ⟨h.1.2, h.1.1, h.2⟩

/-- Going over what is not a letter or digit. -/
theorem camelLoop_skip (pre s : Bytes) (h : ∀ b ∈ pre, isAlnum b = false) (n p : Bool) :
    camelLoop n p (pre ++ s) =
      if pre = [] then camelLoop n p s else camelLoop (pre.getLast?.any isSep) false s := by
  induction pre generalizing n p with
  | nil => simp
  | cons v pre ih =>
    obtain ⟨h1, h2, h3⟩ := not_alnum (h v (by simp))
    rw [List.cons_append, camelLoop_cons]
    simp only [h1, h2, h3, Bool.or_self, Bool.false_eq_true, if_false, List.cons_ne_nil]
    rw [ih (fun b hb => h b (by simp [hb]))]
    cases pre with
    | nil => simp
    | cons w pre => simp [List.getLast?_cons_cons]

/-- A text without its spaces at both ends begins, after `pre`, with this letter or digit. -/
def Begins (s pre : Bytes) (c : Nat) : Prop :=
  ∃ rest, trim s = pre ++ c :: rest ∧ (∀ b ∈ pre, isAlnum b = false) ∧ isAlnum c = true

theorem toCamel_begins {s pre : Bytes} {c : Nat} (h : Begins s pre c) :
    ∃ t, toCamel s = camelChar (if pre = [] then true else pre.getLast?.any isSep) false c :: t := by
  obtain ⟨rest, e, hp, hc⟩ := h
  unfold toCamel
  rw [e, camelLoop_skip pre _ hp]
  have key : ∀ n, ∃ t, camelLoop n false (c :: rest) = camelChar n false c :: t := by
    intro n
    rw [camelLoop_cons]
    rw [isAlnum_iff] at hc
    by_cases hl : (isUpper c || isLower c) = true
    · exact ⟨_, by rw [if_pos hl]⟩
    · rw [if_neg hl]
      have hd : isDigit c = true := by
        rcases hc with h | h | h
        · simp [h] at hl
        · simp [h] at hl
        · exact h
      exact ⟨_, by rw [if_pos hd]⟩
  split
  · exact key true
  · exact key _

/-- **C93 (partial).** With `--naming-scheme camel` the name of a text with a letter or digit is an exported Go
name exactly when the first of them is a capital, or a small letter with nothing or one of `_`, `-`, `.` and
space right before it. -/
theorem C93_exported_partial (s pre : Bytes) (c : Nat) (h : Begins s pre c) :
    Exported (toCamel s) ↔
      isUpper c = true ∨ (isLower c = true ∧ (pre = [] ∨ ∃ b, pre.getLast? = some b ∧ b ∈ [95, 45, 46, 32])) := by
  have hsep : (∃ b, pre.getLast? = some b ∧ b ∈ [95, 45, 46, 32]) ↔ pre.getLast?.any isSep = true := by
    cases pre.getLast? with
    | none => simp
    | some b => simp [isSep_iff]; omega
  rw [hsep]
  obtain ⟨t, ht⟩ := toCamel_begins h
  obtain ⟨_, _, _, hc⟩ := h
  have e : Exported (toCamel s) ↔ isUpper (camelChar (if pre = [] then true else pre.getLast?.any isSep) false c) = true := by
    constructor
    · rintro ⟨_, b, t', e, hb⟩
      rw [ht] at e
      rw [← (List.cons.inj e).1] at hb
      exact hb
    · intro hb
      exact ⟨C93_alnum s, _, _, ht, hb⟩
  rw [e]
  generalize hn : (if pre = [] then true else pre.getLast?.any isSep) = n
  have hn' : n = true ↔ (pre = [] ∨ pre.getLast?.any isSep = true) := by
    rw [← hn]; split <;> simp_all
  rw [← hn']
  unfold camelChar
  rw [isAlnum_iff] at hc
  cases n with
  | true =>
    simp only [if_true, and_true]
    constructor
    · intro k
      rcases hc with h | h | h
      · exact .inr h
      · exact .inl h
      · rw [up_other (lower_false (.inr h)), upper_false (.inr h)] at k; cases k
    · intro k; exact up_upper k
  | false => simp

example : Begins (lit "user_id") [] 117 ∧ Begins (lit " $_user") (lit "$_") 117 :=
  ⟨⟨lit "ser_id", by decide, by decide, by decide⟩, ⟨lit "ser", by decide, by decide, by decide⟩⟩

/-- **C93, violated.** Texts that start with a digit get names that are not Go names, and texts that start with
another character get names that are not exported: their properties are never written. -/
theorem C93_violated_names :
    toCamel (lit "1st") = lit "1St" ∧ ¬ Exported (toCamel (lit "1st")) ∧
    toCamel (lit "$id") = lit "id" ∧ ¬ Exported (toCamel (lit "$id")) := by
  refine ⟨by decide, ?_, by decide, ?_⟩
  · rintro ⟨_, b, t, e, hb⟩
    rw [show toCamel (lit "1st") = lit "1St" by decide] at e
    rw [← (List.cons.inj e).1] at hb
    revert hb; decide
  · rintro ⟨_, b, t, e, hb⟩
    rw [show toCamel (lit "$id") = lit "id" by decide] at e
    rw [← (List.cons.inj e).1] at hb
    revert hb; decide

/-! ### Naming again -/

theorem trim_self (s : Bytes) (h : ∀ b ∈ s, isSpace b = false) : trim s = s := by
  have key : ∀ s : Bytes, (∀ b ∈ s, isSpace b = false) → s.dropWhile isSpace = s := by
    intro s h
    cases s with
    | nil => rfl
    | cons b s => rw [List.dropWhile_cons, h b (by simp)]; rfl
  unfold trim
  rw [key s h, key s.reverse (by intro b hb; exact h b (by simpa using hb)), List.reverse_reverse]

theorem alnum_space {b : Nat} (h : isAlnum b = true) : isSpace b = false := by
  have c := cls b
  cases k : isSpace b with
  | false => rfl
  | true => rw [isSpace_iff] at k; rw [isAlnum_iff, c.1, c.2.1, c.2.2] at h; omega

theorem trim_alnum (s : Bytes) (h : ∀ b ∈ s, isAlnum b = true) : trim s = s :=
  trim_self s (fun b hb => alnum_space (h b hb))

/-- On letters and digits the loop keeps a text that is already in camel case, and no other. -/
theorem camelLoop_self (s : Bytes) (h : ∀ b ∈ s, isAlnum b = true) (n p : Bool) :
    camelLoop n p s = s ↔
      Pairs (fun a b => ¬ (isUpper a = true ∧ isUpper b = true) ∧ ¬ (isDigit a = true ∧ isLower b = true)) s ∧
      ∀ b t, s = b :: t → camelChar n p b = b := by
  induction s generalizing n p with
  | nil => simp [camelLoop, Pairs]
  | cons v s ih =>
    have ih := fun n p => ih (fun b hb => h b (by simp [hb])) n p
    have hv := h v (by simp)
    rw [isAlnum_iff] at hv
    rw [camelLoop_cons]
    have fin : ∀ (n' p' : Bool), (n' = isDigit v) → (p' = isUpper v) → 
        (camelChar n p v :: camelLoop n' p' s = v :: s ↔
        Pairs (fun a b => ¬ (isUpper a = true ∧ isUpper b = true) ∧ ¬ (isDigit a = true ∧ isLower b = true)) (v :: s) ∧
        ∀ b t, v :: s = b :: t → camelChar n p b = b) := by
      intro n' p' en ep
      rw [List.cons.injEq, ih]
      have e1 : (∀ b t, v :: s = b :: t → camelChar n p b = b) ↔ camelChar n p v = v := by
        constructor
        · intro k; exact k v s rfl
        · intro k b t e; rw [← (List.cons.inj e).1]; exact k
      rw [e1]
      cases s with
      | nil => simp [Pairs]
      | cons w s =>
        have hw := h w (by simp)
        rw [isAlnum_iff] at hw
        have e2 : (∀ b t, w :: s = b :: t → camelChar n' p' b = b) ↔ camelChar n' p' w = w := by
          constructor
          · intro k; exact k w s rfl
          · intro k b t e; rw [← (List.cons.inj e).1]; exact k
        rw [e2]
        have e3 : camelChar n' p' w = w ↔
            (¬ (isUpper v = true ∧ isUpper w = true) ∧ ¬ (isDigit v = true ∧ isLower w = true)) := by
          unfold camelChar
          rw [en, ep]
          rcases hv with hv | hv | hv
          · rw [upper_false (.inl hv), digit_false (.inl hv)]; simp
          · rw [digit_false (.inr hv), hv]
            simp only [Bool.false_eq_true, if_false, Bool.true_and, true_and, false_and, not_false_eq_true, and_true]
            cases hu : isUpper w with
            | false => simp
            | true =>
              simp only [if_true, not_true_eq_false, iff_false]
              have := down_cases w
              rw [hu] at this
              simp at this
              rw [this]; omega
          · rw [upper_false (.inr hv), hv]
            simp only [if_true, Bool.false_eq_true, false_and, not_false_eq_true, true_and]
            cases hl : isLower w with
            | false => simp [up_other hl]
            | true =>
              have := up_cases w
              have c := (cls w).2.1.mp hl
              rw [hl] at this
              simp at this
              simp only [not_true_eq_false, iff_false]
              rw [this]; omega
        rw [e3, Pairs]
        constructor
        · rintro ⟨a, b, c⟩; exact ⟨⟨c, b⟩, a⟩
        · rintro ⟨⟨c, b⟩, a⟩; exact ⟨a, b, c⟩
    by_cases hl : (isUpper v || isLower v) = true
    · rw [if_pos hl]
      rw [Bool.or_eq_true] at hl
      exact fin _ _ (digit_false hl.symm).symm rfl
    · rw [if_neg hl]
      have hd : isDigit v = true := by
        rcases hv with h | h | h
        · simp [h] at hl
        · simp [h] at hl
        · exact h
      rw [if_pos hd]
      exact fin _ _ hd.symm (upper_false (.inr hd)).symm

/-- **C93 (partial).** A name keeps its form when it is named again, which templates do, exactly when it is
written in camel case: no two capitals in a row, capitals at the beginning and after digits. -/
theorem C93_stable_partial (s : Bytes) (h : ∀ b ∈ s, isAlnum b = true) : toCamel s = s ↔ Camel s := by
  unfold toCamel Camel
  rw [trim_alnum s h, camelLoop_self s h]
  have : (∀ b t, s = b :: t → camelChar true false b = b) ↔ (∀ b t, s = b :: t → isLower b = false) := by
    constructor
    · intro k b t e
      have := k b t e
      unfold camelChar at this
      rw [if_pos rfl] at this
      rcases up_cases b with ⟨hl, e'⟩ | ⟨hl, e'⟩
      · have c := (cls b).2.1.mp hl; omega
      · exact hl
    · intro k b t e
      unfold camelChar
      rw [if_pos rfl, up_other (k b t e)]
  rw [this]

/-- **C93, violated.** The message `get_a_user` of a v2 document: its type is declared under another name than
the one the functions of the controllers use. -/
theorem C93_violated_twice :
    messageUsed (lit "get_a_user") = lit "GetAUserMessage" ∧
    messageDeclared (lit "get_a_user") = lit "GetAuserMessage" := by
  exact ⟨by decide, by decide⟩

/-! ### Texts of words -/

/-- A word of small letters. -/
def SmallWord (w : Bytes) : Prop := w ≠ [] ∧ ∀ b ∈ w, isLower b = true

/-- Words, each after a separator. -/
def tail (ws : List (Nat × Bytes)) : Bytes := ws.flatMap (fun e => e.1 :: e.2)

/-- The words of a text. -/
def SmallWords (w : Bytes) (ws : List (Nat × Bytes)) : Prop :=
  SmallWord w ∧ ∀ e ∈ ws, isSep e.1 = true ∧ SmallWord e.2

theorem sep_facts {b : Nat} (h : isSep b = true) :
    isUpper b = false ∧ isLower b = false ∧ isDigit b = false ∧ (b = 32 ∨ isSpace b = false) := by
  rw [isSep_iff] at h
  rcases h with rfl | rfl | rfl | rfl <;> decide

theorem lower_space {b : Nat} (h : isLower b = true) : isSpace b = false :=
  alnum_space ((isAlnum_iff b).mpr (.inl h))

/-- A text of words has no space at its ends. -/
theorem trim_ends (s : Bytes) (a : Nat) (t : Bytes) (z : Nat) (r : Bytes) (e1 : s = a :: t) (ha : isSpace a = false)
    (e2 : s = r ++ [z]) (hz : isSpace z = false) : trim s = s := by
  unfold trim
  rw [e1, List.dropWhile_cons, ha]
  simp only [Bool.false_eq_true, if_false]
  rw [← e1, e2, List.reverse_append, List.reverse_cons, List.reverse_nil, List.nil_append, List.singleton_append,
    List.dropWhile_cons, hz]
  simp

theorem words_ends (w : Bytes) (ws : List (Nat × Bytes)) (h : SmallWords w ws) : trim (w ++ tail ws) = w ++ tail ws := by
  obtain ⟨⟨hne, hw⟩, hws⟩ := h
  obtain ⟨a, t, rfl⟩ := List.exists_cons_of_ne_nil hne
  have last : ∃ r z, (a :: t) ++ tail ws = r ++ [z] ∧ isLower z = true := by
    rcases List.eq_nil_or_concat ws with rfl | ⟨l, e, rfl⟩
    · rcases List.eq_nil_or_concat (a :: t) with h | ⟨l, z, h⟩
      · cases h
      · refine ⟨l, z, by rw [h]; simp [tail], hw z (by rw [h]; simp)⟩
    · obtain ⟨hs, hn, hl⟩ := hws e (by simp)
      rcases List.eq_nil_or_concat e.2 with h | ⟨l', z, h⟩
      · exact absurd h hn
      · refine ⟨(a :: t) ++ tail l ++ e.1 :: l', z, ?_, hl z (by rw [h]; simp)⟩
        simp [tail, h, List.append_assoc]
  obtain ⟨r, z, e, hz⟩ := last
  exact trim_ends _ a (t ++ tail ws) z r rfl (lower_space (hw a (by simp))) e (lower_space hz)

theorem camelLoop_small (t s : Bytes) (h : ∀ b ∈ t, isLower b = true) : camelLoop false false (t ++ s) = t ++ camelLoop false false s := by
  induction t with
  | nil => rfl
  | cons b t ih =>
    have hb := h b (by simp)
    rw [List.cons_append, camelLoop_cons, hb]
    simp only [Bool.or_true, if_true]
    rw [upper_false (.inl hb), ih (fun c hc => h c (by simp [hc]))]
    simp [camelChar]

theorem camelLoop_word (w s : Bytes) (h : SmallWord w) : camelLoop true false (w ++ s) = capWord w ++ camelLoop false false s := by
  obtain ⟨hne, hw⟩ := h
  obtain ⟨b, t, rfl⟩ := List.exists_cons_of_ne_nil hne
  have hb := hw b (by simp)
  rw [List.cons_append, camelLoop_cons, hb]
  simp only [Bool.or_true, if_true]
  rw [upper_false (.inl hb), camelLoop_small t s (fun c hc => hw c (by simp [hc]))]
  simp [camelChar, capWord]

theorem camelLoop_tail (ws : List (Nat × Bytes)) (h : ∀ e ∈ ws, isSep e.1 = true ∧ SmallWord e.2) (s : Bytes) :
    camelLoop false false (tail ws ++ s) = ws.flatMap (fun e => capWord e.2) ++ camelLoop false false s := by
  induction ws with
  | nil => rfl
  | cons e ws ih =>
    obtain ⟨hs, hw⟩ := h e (by simp)
    obtain ⟨h1, h2, h3, _⟩ := sep_facts hs
    have : tail (e :: ws) ++ s = e.1 :: (e.2 ++ (tail ws ++ s)) := by simp [tail]
    rw [this, camelLoop_cons, h1, h2, h3]
    simp only [Bool.or_self, Bool.false_eq_true, if_false]
    rw [hs, camelLoop_word _ _ hw, ih (fun x hx => h x (by simp [hx]))]
    simp

/-- **C93 (partial).** The name of a text of words of small letters, with separators between them, is its words
with capitals. -/
theorem C93_words_partial (w : Bytes) (ws : List (Nat × Bytes)) (h : SmallWords w ws) :
    toCamel (w ++ tail ws) = capWord w ++ ws.flatMap (fun e => capWord e.2) := by
  unfold toCamel
  rw [words_ends w ws h, camelLoop_word _ _ h.1]
  have := camelLoop_tail ws h.2 []
  rw [List.append_nil] at this
  rw [this]
  simp [camelLoop]

/-- What does not start with a capital does not follow one, for a word of two letters. -/
theorem pairs_capWord (w s : Bytes) (h : SmallWord w) (h2 : 2 ≤ w.length)
    (hs : Pairs (fun a b => ¬ (isUpper a = true ∧ isUpper b = true) ∧ ¬ (isDigit a = true ∧ isLower b = true)) s) :
    Pairs (fun a b => ¬ (isUpper a = true ∧ isUpper b = true) ∧ ¬ (isDigit a = true ∧ isLower b = true)) (capWord w ++ s) := by
  obtain ⟨hne, hw⟩ := h
  match w, h2, hw with
  | b :: c :: t, _, hw =>
    have hb := hw b (by simp)
    have small : ∀ (t : Bytes), (∀ x ∈ t, isLower x = true) →
        ∀ a, isLower a = true →
        Pairs (fun a b => ¬ (isUpper a = true ∧ isUpper b = true) ∧ ¬ (isDigit a = true ∧ isLower b = true)) (a :: t ++ s) := by
      intro t
      induction t with
      | nil =>
        intro _ a ha
        cases s with
        | nil => trivial
        | cons x s =>
          refine ⟨⟨?_, ?_⟩, hs⟩
          · rw [upper_false (.inl ha)]; simp
          · rw [digit_false (.inl ha)]; simp
      | cons x t ih =>
        intro ht a ha
        refine ⟨⟨?_, ?_⟩, ih (fun y hy => ht y (by simp [hy])) x (ht x (by simp))⟩
        · rw [upper_false (.inl ha)]; simp
        · rw [digit_false (.inl ha)]; simp
    have hc := hw c (by simp)
    refine ⟨⟨?_, ?_⟩, small t (fun x hx => hw x (by simp [hx])) c hc⟩
    · rw [upper_false (.inl hc)]; simp
    · rw [digit_false (.inr (up_upper (.inr hb)))]; simp

theorem capWord_alnum (w : Bytes) (h : SmallWord w) : ∀ b ∈ capWord w, isAlnum b = true := by
  obtain ⟨hne, hw⟩ := h
  obtain ⟨b, t, rfl⟩ := List.exists_cons_of_ne_nil hne
  intro x hx
  rcases List.mem_cons.mp hx with rfl | hx
  · rw [isAlnum_iff]; exact .inr (.inl (up_upper (.inr (hw b (by simp)))))
  · rw [isAlnum_iff]; exact .inl (hw x (by simp [hx]))

/-- Words with capitals, of two letters at least, are in camel case. -/
theorem camel_words (ws : List Bytes) (h : ∀ w ∈ ws, SmallWord w ∧ 2 ≤ w.length) :
    Camel (ws.flatMap capWord) ∧ ∀ b ∈ ws.flatMap capWord, isAlnum b = true := by
  refine ⟨⟨?_, ?_⟩, ?_⟩
  · induction ws with
    | nil => trivial
    | cons w ws ih =>
      rw [List.flatMap_cons]
      exact pairs_capWord w _ (h w (by simp)).1 (h w (by simp)).2 (ih (fun x hx => h x (by simp [hx])))
  · intro b t e
    cases ws with
    | nil => cases e
    | cons w ws =>
      obtain ⟨⟨hne, hw⟩, _⟩ := h w (by simp)
      obtain ⟨a, r, rfl⟩ := List.exists_cons_of_ne_nil hne
      simp only [List.flatMap_cons, capWord, List.cons_append, List.cons.injEq] at e
      rw [← e.1]
      exact lower_false (.inl (up_upper (.inr (hw a (by simp)))))
  · intro b hb
    rw [List.mem_flatMap] at hb
    obtain ⟨w, hw, hb⟩ := hb
    exact capWord_alnum w (h w hw).1 b hb

/-- **C93 (partial).** A v2 message whose key is made of words of small letters, each of two letters at least:
its type is declared under the name that the functions of the controllers use. -/
theorem C93_message_partial (w : Bytes) (ws : List (Nat × Bytes)) (h : SmallWords w ws) (h2 : 2 ≤ w.length)
    (h2s : ∀ e ∈ ws, 2 ≤ e.2.length) :
    messageDeclared (w ++ tail ws) = messageUsed (w ++ tail ws) ∧ Exported (messageUsed (w ++ tail ws)) := by
  have e : messageUsed (w ++ tail ws) = ((w :: ws.map (·.2)) ++ [lit "message"]).flatMap capWord := by
    have hm : ∀ s : Bytes, camelLoop false false (lit "Message") = capWord (lit "message") := by intro; decide
    unfold messageUsed toCamel
    have ht : trim (w ++ tail ws ++ lit "Message") = w ++ tail ws ++ lit "Message" := by
      obtain ⟨⟨hne, hw⟩, hws⟩ := h
      obtain ⟨a, t, rfl⟩ := List.exists_cons_of_ne_nil hne
      exact trim_ends _ a (t ++ tail ws ++ lit "Message") 101 ((a :: t) ++ tail ws ++ lit "Messag") (by simp)
        (lower_space (hw a (by simp))) (by
          rw [show lit "Message" = lit "Messag" ++ [101] by decide]
          simp only [List.append_assoc]) (by decide)
    rw [show [77, 101, 115, 115, 97, 103, 101] = lit "Message" by decide, ht, List.append_assoc, camelLoop_word _ _ h.1,
      camelLoop_tail ws h.2, hm []]
    simp [List.flatMap_map]
  have hall : ∀ x ∈ (w :: ws.map (·.2)) ++ [lit "message"], SmallWord x ∧ 2 ≤ x.length := by
    intro x hx
    simp only [List.cons_append, List.mem_cons, List.mem_append, List.mem_map, List.not_mem_nil, or_false] at hx
    rcases hx with e1 | ⟨y, hy, e1⟩ | e1
    · rw [e1]; exact ⟨h.1, h2⟩
    · rw [← e1]; exact ⟨(h.2 y hy).2, h2s y hy⟩
    · rw [e1]; exact ⟨⟨by decide, by decide⟩, by decide⟩
  obtain ⟨hc, ha⟩ := camel_words _ hall
  refine ⟨?_, ?_⟩
  · unfold messageDeclared
    rw [e]
    exact (C93_stable_partial _ ha).mpr hc
  · rw [e]
    refine ⟨ha, ?_⟩
    obtain ⟨⟨hne, hw⟩, _⟩ := h
    obtain ⟨a, r, rfl⟩ := List.exists_cons_of_ne_nil hne
    exact ⟨up a, _, by simp [capWord]; rfl, up_upper (.inr (hw a (by simp)))⟩

example : SmallWords (lit "user") [(95, lit "signed"), (45, lit "up")] := by
  refine ⟨⟨by decide, by decide⟩, ?_⟩
  intro e he
  simp only [List.mem_cons, List.not_mem_nil, or_false] at he
  rcases he with rfl | rfl
  · exact ⟨by decide, by decide, by decide⟩
  · exact ⟨by decide, by decide, by decide⟩

end Verif.Strcase
