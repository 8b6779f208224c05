import Verif.Base.Json

/-! # Printed JSON parses back -/

namespace Verif.Json

theorem skipWs_cons {c : Char} {s : Str} (h : isWs c = false) : skipWs (c :: s) = c :: s := by
  simp [skipWs, h]

theorem hexVal_hexDigit : ∀ d, d < 16 → hexVal (hexDigit d) = some d := by decide

theorem char_not_surrogate (c : Char) : ¬ (0xd800 ≤ c.toNat ∧ c.toNat ≤ 0xdfff) := by
  rintro ⟨h1, h2⟩
  have := c.valid
  simp only [UInt32.isValidChar, Nat.isValidChar] at this
  have hc : c.toNat = c.val.toNat := rfl
  omega

theorem parseStr_close (s : Str) : parseStr ('"' :: s) = some ([], s) := by
  rw [parseStr.eq_def]; simp

theorem parseStr_u (a b c d : Char) (ch : Char) (s : Str) (h : hex4 a b c d = some ch) :
    parseStr ('\\' :: 'u' :: a :: b :: c :: d :: s) = prepend ch (parseStr s) := by
  rw [parseStr.eq_def]; simp [h]

theorem parseStr_esc (e : Char) (ch : Char) (s : Str) (hu : e ≠ 'u') (h : unescape e = some ch) :
    parseStr ('\\' :: e :: s) = prepend ch (parseStr s) := by
  rw [parseStr.eq_def]; simp [h, hu]

theorem parseStr_plain (c : Char) (s : Str) (h1 : c ≠ '"') (h2 : c ≠ '\\') (h3 : ¬ c.toNat < 0x20) :
    parseStr (c :: s) = prepend c (parseStr s) := by
  rw [parseStr.eq_def]; simp only [h1, h2, h3, if_false]

theorem parseStr_uEscape (c : Char) (h : c.toNat < 65536) (t : Str) :
    parseStr (uEscape c.toNat ++ t) = prepend c (parseStr t) := by
  have e : ((c.toNat / 4096 % 16 * 16 + c.toNat / 256 % 16) * 16 + c.toNat / 16 % 16) * 16 + c.toNat % 16 = c.toNat := by
    omega
  have hh : hex4 (hexDigit (c.toNat / 4096 % 16)) (hexDigit (c.toNat / 256 % 16)) (hexDigit (c.toNat / 16 % 16))
      (hexDigit (c.toNat % 16)) = some c := by
    unfold hex4
    rw [hexVal_hexDigit _ (Nat.mod_lt _ (by omega)), hexVal_hexDigit _ (Nat.mod_lt _ (by omega)),
      hexVal_hexDigit _ (Nat.mod_lt _ (by omega)), hexVal_hexDigit _ (Nat.mod_lt _ (by omega))]
    simp only [e]
    have := char_not_surrogate c
    have hf : (decide (0xd800 ≤ c.toNat) && decide (c.toNat ≤ 0xdfff)) = false := by
      rw [Bool.and_eq_false_iff]
      simp only [decide_eq_false_iff_not]
      omega
    rw [hf]
    simp [Char.ofNat_toNat]
  exact parseStr_u _ _ _ _ c t hh

/-- Reading one escaped character. -/
theorem parseStr_escChar (c : Char) (t : Str) : parseStr (escChar c ++ t) = prepend c (parseStr t) := by
  unfold escChar
  split
  · rename_i h; subst h; exact parseStr_esc _ _ t (by decide) (by decide)
  split
  · rename_i h; subst h; exact parseStr_esc _ _ t (by decide) (by decide)
  split
  · rename_i h; subst h; exact parseStr_esc _ _ t (by decide) (by decide)
  split
  · rename_i h; subst h; exact parseStr_esc _ _ t (by decide) (by decide)
  split
  · rename_i h; subst h; exact parseStr_esc _ _ t (by decide) (by decide)
  split
  · rename_i h; subst h; exact parseStr_esc _ _ t (by decide) (by decide)
  split
  · rename_i h; subst h; exact parseStr_esc _ _ t (by decide) (by decide)
  rename_i h1 h2 _ _ _ _ _
  split
  · rename_i h
    apply parseStr_uEscape
    simp only [Bool.or_eq_true, decide_eq_true_eq] at h
    rcases h with ((((h | h) | h) | h) | h) | h
    · omega
    · subst h; decide
    · subst h; decide
    · subst h; decide
    · omega
    · omega
  · rename_i h
    simp only [Bool.or_eq_true, decide_eq_true_eq, not_or] at h
    have : ¬ c.toNat < 32 := by omega
    exact parseStr_plain c t h1 h2 this

/-- Reading a string literal written with any escaping that is read back character by character. -/
theorem parseStr_flatMap {esc : Char → Str} (s rest : Str)
    (h : ∀ c ∈ s, ∀ t, parseStr (esc c ++ t) = prepend c (parseStr t)) :
    parseStr (s.flatMap esc ++ '"' :: rest) = some (s, rest) := by
  induction s with
  | nil => exact parseStr_close rest
  | cons c s ih =>
    rw [List.flatMap_cons, List.append_assoc, h c (by simp), ih (fun c hc => h c (List.mem_cons_of_mem _ hc))]
    rfl

theorem parseStr_quote (s rest : Str) : parseStr (s.flatMap escChar ++ '"' :: rest) = some (s, rest) :=
  parseStr_flatMap s rest (fun c _ t => parseStr_escChar c t)

theorem quote_append (s rest : Str) : quote s ++ rest = '"' :: (s.flatMap escChar ++ '"' :: rest) := by
  simp [quote]

/-! ## Numbers -/

theorem numStep_bad (t : Str) : t.foldl numStep .bad = .bad := by
  induction t with
  | nil => rfl
  | cons c t ih => simpa [List.foldl_cons, numStep] using ih

theorem numStep_numChar {s : NumSt} {c : Char} (h : isNumChar c = false) : numStep s c = .bad := by
  simp only [isNumChar, Bool.or_eq_false_iff] at h
  obtain ⟨⟨⟨⟨⟨hd, h1⟩, h2⟩, h3⟩, h4⟩, h5⟩ := h
  have h0 : (c == '0') = false := by
    cases h : c == '0' with
    | false => rfl
    | true =>
      rw [beq_iff_eq] at h
      subst h
      revert hd; decide
  cases s <;> simp [numStep, hd, h0, h1, h2, h3, h4, h5]

theorem foldl_numChars (t : Str) : ∀ s : NumSt, t.foldl numStep s ≠ .bad → ∀ c ∈ t, isNumChar c = true := by
  induction t with
  | nil => intro s _ c hc; cases hc
  | cons d t ih =>
    intro s h c hc
    simp only [List.foldl_cons] at h
    have hd : isNumChar d = true := by
      cases hd : isNumChar d with
      | true => rfl
      | false => rw [numStep_numChar hd, numStep_bad] at h; exact absurd rfl h
    simp only [List.mem_cons] at hc
    rcases hc with rfl | hc
    · exact hd
    · exact ih _ h c hc

theorem isNumber_chars {t : Str} (h : isNumber t = true) : ∀ c ∈ t, isNumChar c = true := by
  apply foldl_numChars t .start
  intro hb
  simp [isNumber, hb] at h

/-- The first character of a number is a digit or a minus sign. -/
theorem isNumber_head {t : Str} (h : isNumber t = true) :
    ∃ c r, t = c :: r ∧ (c = '-' ∨ isDigit c = true) := by
  cases t with
  | nil => simp [isNumber] at h
  | cons c r =>
    refine ⟨c, r, rfl, ?_⟩
    by_cases h1 : c = '-'
    · exact .inl h1
    · right
      cases hd : isDigit c with
      | true => rfl
      | false =>
        have h0 : (c == '0') = false := by
          cases h : c == '0' with
          | false => rfl
          | true => rw [beq_iff_eq] at h; subst h; revert hd; decide
        have hs : numStep .start c = .bad := by simp [numStep, h1, h0, hd]
        simp [isNumber, List.foldl_cons, hs, numStep_bad] at h

/-- What follows a number does not continue it. -/
def Stops (rest : Str) : Prop := ∀ c r, rest = c :: r → isNumChar c = false

theorem takeWhile_num {t rest : Str} (h : ∀ c ∈ t, isNumChar c = true) (hr : Stops rest) :
    (t ++ rest).takeWhile isNumChar = t ∧ (t ++ rest).dropWhile isNumChar = rest := by
  induction t with
  | nil =>
    cases rest with
    | nil => simp
    | cons c r =>
      have := hr c r rfl
      simp [this]
  | cons c t ih =>
    have hc := h c (by simp)
    obtain ⟨h1, h2⟩ := ih (fun c hc => h c (List.mem_cons_of_mem _ hc))
    simp [hc, h1, h2]

theorem digit_facts {c : Char} (h : c = '-' ∨ isDigit c = true) :
    isWs c = false ∧ c ≠ '"' ∧ c ≠ '[' ∧ c ≠ '{' ∧ c ≠ 'n' ∧ c ≠ 't' ∧ c ≠ 'f' ∧ c ≠ ']' := by
  rcases h with rfl | h
  · decide
  · simp only [isDigit, Bool.and_eq_true, decide_eq_true_eq] at h
    have h0 : '0'.toNat = 48 := by decide
    have h9 : '9'.toNat = 57 := by decide
    rw [h0, h9] at h
    refine ⟨?_, ?_, ?_, ?_, ?_, ?_, ?_, ?_⟩
    · cases hw : isWs c with
      | false => rfl
      | true =>
        simp only [isWs, Bool.or_eq_true, beq_iff_eq] at hw
        rcases hw with ((rfl | rfl) | rfl) | rfl <;> (revert h; decide)
    all_goals (rintro rfl; revert h; decide)

/-! ## Values -/

mutual
/-- Fuel needed to parse back a printed value. -/
def fuel : Json → Nat
  | .arr xs => 1 + fuelElems xs
  | .obj ms => 1 + fuelMembers ms
  | _ => 1
def fuelElems : List Json → Nat
  | [] => 0
  | x :: xs => 1 + max (fuel x) (fuelElems xs)
def fuelMembers : List (Str × Json) → Nat
  | [] => 0
  | (_, v) :: ms => 1 + max (fuel v) (fuelMembers ms)
end

theorem print_head (v : Json) (hv : Valid v) : ∃ c t, print v = c :: t ∧ isWs c = false ∧ c ≠ ']' := by
  cases v with
  | null => exact ⟨_, _, rfl, by decide, by decide⟩
  | bool b => cases b <;> exact ⟨_, _, rfl, by decide, by decide⟩
  | num t =>
    obtain ⟨c, r, h, hc⟩ := isNumber_head (t := t) hv
    have := digit_facts hc
    exact ⟨c, r, h, this.1, this.2.2.2.2.2.2.2⟩
  | str s => exact ⟨_, _, rfl, by decide, by decide⟩
  | arr xs => exact ⟨_, _, rfl, by decide, by decide⟩
  | obj ms => exact ⟨_, _, rfl, by decide, by decide⟩

/-- The three statements for one amount of fuel. -/
def PVal (n : Nat) : Prop := ∀ (v : Json), Valid v → fuel v ≤ n → ∀ rest, Stops rest →
  parseVal n (print v ++ rest) = some (v, rest)
def PElems (n : Nat) : Prop := ∀ (x : Json) (xs : List Json), Valid x → ValidElems xs →
  fuelElems (x :: xs) ≤ n → ∀ rest, parseElems n (printElems (x :: xs) ++ ']' :: rest) = some (x :: xs, rest)
def PMembers (n : Nat) : Prop := ∀ (k : Str) (v : Json) (ms : List (Str × Json)), Valid v → ValidMembers ms →
  fuelMembers ((k, v) :: ms) ≤ n → ∀ rest,
  parseMembers n (printMembers ((k, v) :: ms) ++ '}' :: rest) = some ((k, v) :: ms, rest)

theorem pval_succ {n : Nat} (ihE : PElems n) (ihM : PMembers n) : PVal (n + 1) := by
  intro v hv hn rest hr
  match v, hv, hn with
  | .null, _, _ =>
    show parseVal (n + 1) ('n' :: 'u' :: 'l' :: 'l' :: rest) = _
    rw [parseVal, skipWs_cons (by decide)]
    simp [stripWord]
  | .bool true, _, _ =>
    show parseVal (n + 1) ('t' :: 'r' :: 'u' :: 'e' :: rest) = _
    rw [parseVal, skipWs_cons (by decide)]
    simp [stripWord]
  | .bool false, _, _ =>
    show parseVal (n + 1) ('f' :: 'a' :: 'l' :: 's' :: 'e' :: rest) = _
    rw [parseVal, skipWs_cons (by decide)]
    simp [stripWord]
  | .num t, hv, _ =>
    obtain ⟨c, r, h, hc⟩ := isNumber_head (t := t) hv
    obtain ⟨f1, f2, f3, f4, f5, f6, f7, _⟩ := digit_facts hc
    obtain ⟨h1, h2⟩ := takeWhile_num (isNumber_chars hv) hr
    have hp : print (.num t) ++ rest = c :: (r ++ rest) := by rw [print, h]; rfl
    rw [hp, parseVal, skipWs_cons f1]
    simp only [f2, f3, f4, f5, f6, f7, if_false]
    have e : c :: (r ++ rest) = t ++ rest := by rw [h]; rfl
    rw [e, h1, h2]
    have : isNumber t = true := hv
    simp [this]
  | .str s, _, _ =>
    rw [print, quote_append, parseVal, skipWs_cons (by decide)]
    simp [parseStr_quote]
  | .arr xs, hv, hn =>
    have hp : print (.arr xs) ++ rest = '[' :: (printElems xs ++ ']' :: rest) := by simp [print]
    rw [hp, parseVal, skipWs_cons (by decide)]
    simp only [show ('[' = '"') = False by simp, if_false, if_true]
    match xs, hv, hn with
    | [], _, _ => simp [printElems, skipWs, isWs]
    | x :: xs, hv, hn =>
      have hn' : fuelElems (x :: xs) ≤ n := by simp only [fuel] at hn; omega
      obtain ⟨c, t, hc, hw, hb⟩ := print_head x hv.1
      have hel := ihE x xs hv.1 hv.2 hn' rest
      have hs : printElems (x :: xs) ++ ']' :: rest = c :: (t ++ (printElemsTail xs ++ ']' :: rest)) := by
        simp [printElems, hc]
      rw [hs, skipWs_cons hw]
      simp only [hb, if_false]
      rw [← hs, hel]
      rfl
  | .obj ms, hv, hn =>
    have hp : print (.obj ms) ++ rest = '{' :: (printMembers ms ++ '}' :: rest) := by simp [print]
    rw [hp, parseVal, skipWs_cons (by decide)]
    simp only [show ('{' = '"') = False by simp, show ('{' = '[') = False by simp, if_false, if_true]
    match ms, hv, hn with
    | [], _, _ => simp [printMembers, skipWs, isWs]
    | (k, v) :: ms, hv, hn =>
      have hn' : fuelMembers ((k, v) :: ms) ≤ n := by simp only [fuel] at hn; omega
      have hel := ihM k v ms hv.1 hv.2 hn' rest
      have hs : printMembers ((k, v) :: ms) ++ '}' :: rest =
          '"' :: (k.flatMap escChar ++ '"' :: ':' :: (print v ++ (printMembersTail ms ++ '}' :: rest))) := by
        simp [printMembers, quote]
      rw [hs, skipWs_cons (by decide)]
      simp only [show ('"' = '}') = False by simp, if_false]
      rw [← hs, hel]
      rfl

theorem pelems_succ {n : Nat} (ihV : PVal n) (ihE : PElems n) : PElems (n + 1) := by
  intro x xs hx hxs hn rest
  have h1 : fuel x ≤ n := by
    simp only [fuelElems] at hn
    have := Nat.le_max_left (fuel x) (fuelElems xs); omega
  have h2 : fuelElems xs ≤ n := by
    simp only [fuelElems] at hn
    have := Nat.le_max_right (fuel x) (fuelElems xs); omega
  have e : printElems (x :: xs) ++ ']' :: rest = print x ++ (printElemsTail xs ++ ']' :: rest) := by
    simp [printElems]
  rw [e, parseElems]
  match xs, hxs, h2 with
  | [], _, _ =>
    have hst : Stops (printElemsTail [] ++ ']' :: rest) := by
      intro c r h; simp only [printElemsTail, List.nil_append, List.cons.injEq] at h; rw [← h.1]; decide
    rw [ihV x hx h1 _ hst]
    simp [printElemsTail, skipWs, isWs]
  | y :: ys, hxs, h2 =>
    have hst : Stops (printElemsTail (y :: ys) ++ ']' :: rest) := by
      intro c r h; simp only [printElemsTail, List.cons_append, List.cons.injEq] at h; rw [← h.1]; decide
    rw [ihV x hx h1 _ hst]
    have hel := ihE y ys hxs.1 hxs.2 h2 rest
    have e2 : printElemsTail (y :: ys) ++ ']' :: rest = ',' :: (printElems (y :: ys) ++ ']' :: rest) := by
      simp [printElemsTail, printElems]
    rw [e2]
    simp only [skipWs_cons (show isWs ',' = false by decide), if_true]
    rw [hel]
    rfl

theorem pmembers_succ {n : Nat} (ihV : PVal n) (ihM : PMembers n) : PMembers (n + 1) := by
  intro k v ms hv hms hn rest
  have h1 : fuel v ≤ n := by
    simp only [fuelMembers] at hn
    have := Nat.le_max_left (fuel v) (fuelMembers ms); omega
  have h2 : fuelMembers ms ≤ n := by
    simp only [fuelMembers] at hn
    have := Nat.le_max_right (fuel v) (fuelMembers ms); omega
  have e : printMembers ((k, v) :: ms) ++ '}' :: rest =
      '"' :: (k.flatMap escChar ++ '"' :: ':' :: (print v ++ (printMembersTail ms ++ '}' :: rest))) := by
    simp [printMembers, quote]
  rw [e, parseMembers, skipWs_cons (by decide)]
  simp only [if_true, parseStr_quote, skipWs_cons (show isWs ':' = false by decide)]
  match ms, hms, h2 with
  | [], _, _ =>
    have hst : Stops (printMembersTail [] ++ '}' :: rest) := by
      intro c r h; simp only [printMembersTail, List.nil_append, List.cons.injEq] at h; rw [← h.1]; decide
    rw [ihV v hv h1 _ hst]
    simp [printMembersTail, skipWs, isWs]
  | (k', v') :: ms', hms, h2 =>
    have hst : Stops (printMembersTail ((k', v') :: ms') ++ '}' :: rest) := by
      intro c r h; simp only [printMembersTail, List.cons_append, List.cons.injEq] at h; rw [← h.1]; decide
    rw [ihV v hv h1 _ hst]
    have hel := ihM k' v' ms' hms.1 hms.2 h2 rest
    have e2 : printMembersTail ((k', v') :: ms') ++ '}' :: rest =
        ',' :: (printMembers ((k', v') :: ms') ++ '}' :: rest) := by
      simp [printMembersTail, printMembers]
    rw [e2]
    simp only [skipWs_cons (show isWs ',' = false by decide), if_true]
    rw [hel]
    rfl

theorem pall : ∀ n, PVal n ∧ PElems n ∧ PMembers n := by
  intro n
  induction n with
  | zero =>
    refine ⟨?_, ?_, ?_⟩
    · intro v _ hn; cases v <;> simp [fuel] at hn
    · intro x xs _ _ hn; simp [fuelElems] at hn
    · intro k v ms _ _ hn; simp [fuelMembers] at hn
  | succ n ih => exact ⟨pval_succ ih.2.1 ih.2.2, pelems_succ ih.1 ih.2.1, pmembers_succ ih.1 ih.2.2⟩

theorem parseVal_print (v : Json) (hv : Valid v) (n : Nat) (hn : fuel v ≤ n) (rest : Str) (hr : Stops rest) :
    parseVal n (print v ++ rest) = some (v, rest) := (pall n).1 v hv hn rest hr

mutual
theorem fuel_le (v : Json) (hv : Valid v) : fuel v ≤ 2 * (print v).length := by
  match v, hv with
  | .null, _ => simp [fuel, print]
  | .bool true, _ => simp [fuel, print]
  | .bool false, _ => simp [fuel, print]
  | .num t, hv =>
    obtain ⟨c, r, h, _⟩ := isNumber_head (t := t) hv
    simp [fuel, print, h]; omega
  | .str s, _ => simp [fuel, print, quote]; omega
  | .arr xs, hv =>
    have := fuelElems_le xs hv
    simp only [fuel, print, List.length_cons, List.length_append, List.length_nil]
    match xs, this with
    | [], this => simp only [printElemsTail, List.length_nil, fuelElems] at *; omega
    | x :: xs, this =>
      simp only [printElemsTail, printElems, List.length_cons, List.length_append] at *; omega
  | .obj ms, hv =>
    have := fuelMembers_le ms hv
    simp only [fuel, print, List.length_cons, List.length_append, List.length_nil]
    match ms, this with
    | [], this => simp only [printMembersTail, List.length_nil, fuelMembers] at *; omega
    | (k, v) :: ms, this =>
      simp only [printMembersTail, printMembers, List.length_cons, List.length_append] at *; omega

theorem fuelElems_le (xs : List Json) (h : ValidElems xs) : fuelElems xs ≤ 2 * (printElemsTail xs).length := by
  match xs, h with
  | [], _ => simp [fuelElems]
  | x :: xs, h =>
    have h1 := fuel_le x h.1
    have h2 := fuelElems_le xs h.2
    simp only [fuelElems, printElemsTail, List.length_cons, List.length_append]
    omega

theorem fuelMembers_le (ms : List (Str × Json)) (h : ValidMembers ms) :
    fuelMembers ms ≤ 2 * (printMembersTail ms).length := by
  match ms, h with
  | [], _ => simp [fuelMembers]
  | (k, v) :: ms, h =>
    have h1 := fuel_le v h.1
    have h2 := fuelMembers_le ms h.2
    simp only [fuelMembers, printMembersTail, List.length_cons, List.length_append]
    omega
end

/-- What `encoding/json` prints is a JSON text of the value printed. -/
theorem parse_print (v : Json) (hv : Valid v) : parse (print v) = some v := by
  have h := fuel_le v hv
  have hst : Stops [] := by intro c r h; cases h
  have := parseVal_print v hv (2 * (print v).length + 1) (by omega) [] hst
  rw [List.append_nil] at this
  unfold parse
  rw [this]
  simp [skipWs]

end Verif.Json
