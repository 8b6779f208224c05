import Verif.Props.Naming

/-! # C42, C43: names that are not ASCII -/

namespace Verif.Naming

/-- A Unicode scalar value. -/
def Scalar (r : Nat) : Prop := r < 0x110000 ∧ ¬ (0xD800 ≤ r ∧ r < 0xE000)

instance (r : Nat) : Decidable (Scalar r) := by unfold Scalar; infer_instance

/-- The text of some characters. -/
def utf8 (rs : List Nat) : Bytes := rs.flatMap encodeRune

theorem inRange_iff (lo hi b : Nat) : inRange lo hi b = true ↔ lo ≤ b ∧ b ≤ hi := by
  simp [inRange]

theorem inRange_false (lo hi b : Nat) : inRange lo hi b = false ↔ ¬ (lo ≤ b ∧ b ≤ hi) := by
  rw [← Bool.not_eq_true, inRange_iff]

/-- Decoding what was encoded. -/
theorem decodeRune_encode (r : Nat) (h : Scalar r) (rest : Bytes) :
    decodeRune (encodeRune r ++ rest) = (r, (encodeRune r).length) := by
  obtain ⟨h1, h2⟩ := h
  unfold encodeRune
  split
  · rename_i hr; simp [decodeRune, hr]
  · rename_i hr
    split
    · rename_i hr'
      have a : ¬ 0xC0 + r / 64 < 0x80 := by omega
      have b : inRange 0xC2 0xDF (0xC0 + r / 64) = true := (inRange_iff _ _ _).2 (by omega)
      have c : inRange 0x80 0xBF (0x80 + r % 64) = true := (inRange_iff _ _ _).2 (by omega)
      have d : (0xC0 + r / 64 - 0xC0) * 64 + (0x80 + r % 64 - 0x80) = r := by omega
      simp only [List.cons_append, List.nil_append, decodeRune, if_neg a, b, c, if_true, d, List.length_cons, List.length_nil]
    · rename_i hr'
      split
      · rename_i hr''
        have a : ¬ 0xE0 + r / 4096 < 0x80 := by omega
        have b : inRange 0xC2 0xDF (0xE0 + r / 4096) = false := (inRange_false _ _ _).2 (by omega)
        have c : inRange 0xE0 0xEF (0xE0 + r / 4096) = true := (inRange_iff _ _ _).2 (by omega)
        have d : inRange (if 0xE0 + r / 4096 = 0xE0 then 0xA0 else 0x80) (if 0xE0 + r / 4096 = 0xED then 0x9F else 0xBF)
            (0x80 + r / 64 % 64) = true := (inRange_iff _ _ _).2 (by split <;> split <;> omega)
        have e : inRange 0x80 0xBF (0x80 + r % 64) = true := (inRange_iff _ _ _).2 (by omega)
        have f : (0xE0 + r / 4096 - 0xE0) * 4096 + (0x80 + r / 64 % 64 - 0x80) * 64 + (0x80 + r % 64 - 0x80) = r := by omega
        simp only [List.cons_append, List.nil_append, decodeRune, if_neg a, b, c, d, e, if_true, Bool.and_self,
          Bool.false_eq_true, if_false, f, List.length_cons, List.length_nil]
      · rename_i hr''
        have a : ¬ 0xF0 + r / 262144 < 0x80 := by omega
        have b : inRange 0xC2 0xDF (0xF0 + r / 262144) = false := (inRange_false _ _ _).2 (by omega)
        have c : inRange 0xE0 0xEF (0xF0 + r / 262144) = false := (inRange_false _ _ _).2 (by omega)
        have d : inRange 0xF0 0xF4 (0xF0 + r / 262144) = true := (inRange_iff _ _ _).2 (by omega)
        have e : inRange (if 0xF0 + r / 262144 = 0xF0 then 0x90 else 0x80) (if 0xF0 + r / 262144 = 0xF4 then 0x8F else 0xBF)
            (0x80 + r / 4096 % 64) = true := (inRange_iff _ _ _).2 (by split <;> split <;> omega)
        have f : inRange 0x80 0xBF (0x80 + r / 64 % 64) = true := (inRange_iff _ _ _).2 (by omega)
        have g : inRange 0x80 0xBF (0x80 + r % 64) = true := (inRange_iff _ _ _).2 (by omega)
        have i : (0xF0 + r / 262144 - 0xF0) * 262144 + (0x80 + r / 4096 % 64 - 0x80) * 4096 + (0x80 + r / 64 % 64 - 0x80) * 64 +
            (0x80 + r % 64 - 0x80) = r := by omega
        simp only [List.cons_append, List.nil_append, decodeRune, if_neg a, b, c, d, e, f, g, if_true, Bool.and_self,
          Bool.false_eq_true, if_false, i, List.length_cons, List.length_nil]

theorem encodeRune_ne (r : Nat) : ∃ b t, encodeRune r = b :: t := by
  unfold encodeRune
  split
  · exact ⟨_, _, rfl⟩
  · split
    · exact ⟨_, _, rfl⟩
    · split <;> exact ⟨_, _, rfl⟩

theorem runes_skip (t : Bytes) : ∀ (i : Nat) (s : Bytes), runes t.length i (t ++ s) = runes 0 (i + t.length) s := by
  induction t with
  | nil => intro i s; rfl
  | cons b t ih =>
    intro i s
    rw [List.length_cons, List.cons_append, runes, ih (i + 1) s]
    congr 1
    omega

/-- Where the characters of a text begin. -/
def places : Nat → List Nat → List (Nat × Nat)
  | _, [] => []
  | i, r :: rs => (i, r) :: places (i + (encodeRune r).length) rs

theorem runes_utf8 (rs : List Nat) (h : ∀ r ∈ rs, Scalar r) : ∀ i, runes 0 i (utf8 rs) = places i rs := by
  induction rs with
  | nil => intro i; rfl
  | cons r rs ih =>
    intro i
    have hd := decodeRune_encode r (h r (by simp)) (utf8 rs)
    obtain ⟨b, t, e⟩ := encodeRune_ne r
    have hu : utf8 (r :: rs) = b :: (t ++ utf8 rs) := by simp [utf8, e]
    rw [e, List.cons_append] at hd
    rw [hu, runes, hd]
    simp only [List.length_cons, Nat.add_sub_cancel]
    rw [runes_skip, ih (fun x hx => h x (List.mem_cons_of_mem _ hx)), places, e, List.length_cons]
    congr 2
    omega

/-- Characters that are not ASCII come right after a letter or a digit. -/
def Late (u : Uni) : Nat → List Nat → Prop
  | _, [] => True
  | p, r :: rs => Scalar r ∧ (r < 128 ∨ u.letterOrDigit p = true) ∧ Late u r rs

instance Late.dec (u : Uni) : ∀ (p : Nat) (rs : List Nat), Decidable (Late u p rs)
  | _, [] => isTrue trivial
  | _, r :: rs =>
    have := Late.dec u r rs
    inferInstanceAs (Decidable (_ ∧ _ ∧ _))

/-- Upper-casing what follows a separator. -/
def capR (u : Uni) : Nat → List Nat → List Nat
  | _, [] => []
  | p, r :: rs => (if u.letterOrDigit p then r else up r) :: capR u r rs

theorem Late.scalar {u : Uni} {p : Nat} {rs : List Nat} (h : Late u p rs) : ∀ r ∈ rs, Scalar r := by
  induction rs generalizing p with
  | nil => simp
  | cons r rs ih =>
    intro x hx
    rcases List.mem_cons.1 hx with rfl | hx
    · exact h.1
    · exact ih h.2.2 x hx

theorem upLoop_runes (u : Uni) (rs : List Nat) : ∀ (done : Bytes) (p : Nat), Late u p rs →
    upLoop u (places done.length rs) p (done ++ utf8 rs) = some (done ++ utf8 (capR u p rs)) := by
  induction rs with
  | nil => intro done p _; simp [places, upLoop, capR, utf8]
  | cons r rs ih =>
    intro done p hl
    obtain ⟨hs, hr, hl⟩ := hl
    rw [places, upLoop, capR]
    by_cases hp : u.letterOrDigit p = true
    · have := ih (done ++ encodeRune r) r hl
      simp only [hp, if_true]
      simpa [utf8, List.append_assoc] using this
    · rw [if_neg hp, if_neg hp]
      have hb : r < 128 := hr.elim id (fun h => absurd h hp)
      have he : encodeRune r = [r] := by rw [encodeRune, if_pos hb]
      have he' : encodeRune (up r) = [up r] := by rw [encodeRune, if_pos (up_lt hb)]
      have hrep : replaceAt u (done ++ utf8 (r :: rs)) done.length r = some (done ++ up r :: utf8 rs) := by
        unfold replaceAt
        simp [encode_up u hb, utf8, he]
      simp only [hrep]
      have := ih (done ++ [up r]) r hl
      simp only [List.length_append, List.length_cons, List.length_nil, List.append_assoc, List.cons_append,
        List.nil_append] at this
      rw [he]
      simp only [List.length_cons, List.length_nil]
      rw [this]
      simp [utf8, he']

theorem encode_alnum (r : Nat) : (encodeRune r).filter isAlnum = [r].filter isAlnum := by
  by_cases h : r < 128
  · rw [encodeRune, if_pos h]
  · have hn : ∀ b, 128 ≤ b → isAlnum b = false := by
      intro b hb
      cases ha : isAlnum b with
      | false => rfl
      | true => exact absurd (isAlnum_lt ha) (by omega)
    have : ∀ b ∈ encodeRune r, isAlnum b = false := by
      intro b hb
      apply hn
      unfold encodeRune at hb
      rw [if_neg h] at hb
      split at hb
      · simp only [List.mem_cons, List.not_mem_nil, or_false] at hb; omega
      · split at hb <;> (simp only [List.mem_cons, List.not_mem_nil, or_false] at hb; omega)
    rw [List.filter_eq_nil_iff.2 (fun b hb => by simp [this b hb]),
      List.filter_eq_nil_iff.2 (fun b hb => by
        simp only [List.mem_cons, List.not_mem_nil, or_false] at hb; subst hb; simp [hn b (by omega)])]

theorem utf8_alnum (rs : List Nat) : (utf8 rs).filter isAlnum = rs.filter isAlnum := by
  induction rs with
  | nil => rfl
  | cons r rs ih =>
    have : utf8 (r :: rs) = encodeRune r ++ utf8 rs := by simp [utf8]
    rw [this, List.filter_append, ih, encode_alnum, ← List.filter_append]
    rfl

theorem namify_runes (u : Uni) (rs : List Nat) (h : Late u 95 rs) :
    namify u (utf8 rs) = some (finish (capR u 95 rs)) := by
  unfold namify
  have hf : finish (utf8 (capR u 95 rs)) = finish (capR u 95 rs) := by unfold finish; rw [utf8_alnum]
  by_cases hs : utf8 rs = []
  · rw [if_pos hs]
    cases rs with
    | nil => rfl
    | cons r rs =>
      obtain ⟨b, t, e⟩ := encodeRune_ne r
      simp [utf8, e] at hs
  · rw [if_neg hs, runes_utf8 rs h.scalar]
    have := upLoop_runes u rs [] 95 h
    simp only [List.length_nil, List.nil_append] at this
    rw [this, Option.map_some, hf]

/-- Words, each with what separates it from the one before: characters other than letters and digits, at least one except
before the first word. -/
def WordsR (u : Uni) (ws : List (List Nat × Bytes)) : Prop :=
  (∀ e ∈ ws, Word e.2 ∧ ∀ c ∈ e.1, u.letterOrDigit c = false) ∧ ∀ e ∈ ws.tail, e.1 ≠ []

/-- The characters they form. -/
def textR (ws : List (List Nat × Bytes)) : List Nat := ws.flatMap (fun e => e.1 ++ e.2)

theorem sep_not_alnum (u : Uni) {c : Nat} (h : u.letterOrDigit c = false) : isAlnum c = false := by
  cases ha : isAlnum c with
  | false => rfl
  | true => rw [u.letterOrDigit_ascii c (isAlnum_lt ha), ha] at h; cases h

theorem capR_sep (u : Uni) (sep : List Nat) (hsep : ∀ c ∈ sep, u.letterOrDigit c = false) (p : Nat) (s : List Nat)
    (hp : u.letterOrDigit p = false ∨ sep ≠ []) :
    ∃ q, u.letterOrDigit q = false ∧ capR u p (sep ++ s) = sep ++ capR u q s := by
  induction sep generalizing p with
  | nil =>
    rcases hp with hp | hp
    · exact ⟨p, hp, rfl⟩
    · exact absurd rfl hp
  | cons c sep ih =>
    have hc := hsep c (by simp)
    obtain ⟨q, hq, he⟩ := ih (fun d hd => hsep d (List.mem_cons_of_mem _ hd)) c (.inl hc)
    refine ⟨q, hq, ?_⟩
    simp only [List.cons_append, capR, he, up_non (sep_not_alnum u hc)]
    split <;> rfl

theorem capR_alnum (u : Uni) (t : Bytes) (p : Nat) (hp : u.letterOrDigit p = true) (h : ∀ b ∈ t, isAlnum b = true)
    (s : List Nat) : ∃ q, u.letterOrDigit q = true ∧ capR u p (t ++ s) = t ++ capR u q s := by
  induction t generalizing p with
  | nil => exact ⟨p, hp, rfl⟩
  | cons b t ih =>
    have hb := h b (by simp)
    obtain ⟨q, hq, he⟩ := ih b (by rw [u.letterOrDigit_ascii b (isAlnum_lt hb), hb])
      (fun c hc => h c (List.mem_cons_of_mem _ hc))
    exact ⟨q, hq, by simp [capR, hp, he]⟩

theorem capR_text (u : Uni) (ws : List (List Nat × Bytes))
    (hw : ∀ e ∈ ws, Word e.2 ∧ ∀ c ∈ e.1, u.letterOrDigit c = false) :
    ∀ p, (u.letterOrDigit p = false → ∀ e ∈ ws.tail, e.1 ≠ []) → (u.letterOrDigit p = true → ∀ e ∈ ws, e.1 ≠ []) →
    (capR u p (textR ws)).filter isAlnum = ws.flatMap (fun e => capWord e.2) := by
  induction ws with
  | nil => intros; rfl
  | cons e ws ih =>
    intro p hp1 hp2
    obtain ⟨hword, hsep⟩ := hw e (by simp)
    have hal := hword.alnum
    obtain ⟨b, t, hbt, hb, ht⟩ := hword
    have hne : u.letterOrDigit p = false ∨ e.1 ≠ [] := by
      cases hpa : u.letterOrDigit p with
      | false => exact .inl rfl
      | true => exact .inr (hp2 hpa e (by simp))
    have htail : ∀ x ∈ ws, x.1 ≠ [] := by
      cases hpa : u.letterOrDigit p with
      | false => exact hp1 hpa
      | true => intro x hx; exact hp2 hpa x (List.mem_cons_of_mem _ hx)
    obtain ⟨q, hq, he⟩ := capR_sep u e.1 hsep p (e.2 ++ textR ws) hne
    have hbal : isAlnum b = true := hal b (by rw [hbt]; simp)
    have htal : ∀ c ∈ t, isAlnum c = true := fun c hc => hal c (by rw [hbt]; simp [hc])
    obtain ⟨q', hq', he'⟩ := capR_alnum u t b (by rw [u.letterOrDigit_ascii b (isAlnum_lt hbal), hbal]) htal (textR ws)
    have : textR (e :: ws) = e.1 ++ (e.2 ++ textR ws) := by simp [textR, List.append_assoc]
    rw [this, he, hbt, List.cons_append, capR, hq, if_neg (by simp), he', List.filter_append, List.filter_cons,
      if_pos (up_alnum hbal), List.filter_append, List.filter_eq_self.mpr htal,
      List.filter_eq_nil_iff.mpr (fun c hc => by simp [sep_not_alnum u (hsep c hc)]),
      ih (fun x hx => hw x (List.mem_cons_of_mem _ hx)) q' (fun h => by rw [hq'] at h; cases h) (fun _ => htail)]
    simp [hbt, capWord]

/-- The name of words. -/
theorem namify_textR (u : Uni) (ws : List (List Nat × Bytes)) (hw : WordsR u ws) (hl : Late u 95 (textR ws)) :
    namify u (utf8 (textR ws)) = some (ws.flatMap (fun e => capWord e.2)) := by
  rw [namify_runes u _ hl]
  unfold finish
  have h95 : u.letterOrDigit 95 = false := by rw [u.letterOrDigit_ascii 95 (by decide)]; decide
  rw [capR_text u ws hw.1 95 (fun _ => hw.2) (fun h => by rw [h95] at h; cases h)]
  cases ws with
  | nil => rfl
  | cons e ws =>
    obtain ⟨b, t, hbt, hb, ht⟩ := (hw.1 e (by simp)).1
    obtain ⟨hd, hu, _⟩ := isUpper_facts (lower_up hb)
    simp [hbt, capWord, hd, hu]

/-- **C43 (partial: texts made of lower-case ASCII words, with any separators as long as each that is not ASCII stands right
after a word).** Two such texts get the same name exactly when they have the same words. -/
theorem C43_any_separators_partial (u : Uni) (ws ws' : List (List Nat × Bytes)) (hw : WordsR u ws) (hw' : WordsR u ws')
    (hl : Late u 95 (textR ws)) (hl' : Late u 95 (textR ws')) :
    namify u (utf8 (textR ws)) = namify u (utf8 (textR ws')) ↔ ws.map (·.2) = ws'.map (·.2) := by
  rw [namify_textR u ws hw hl, namify_textR u ws' hw' hl', Option.some.injEq]
  have e : ∀ ws : List (List Nat × Bytes), ws.flatMap (fun e => capWord e.2) = (ws.map (·.2)).flatMap capWord := by
    intro ws; rw [List.flatMap_map]
  rw [e, e]
  constructor
  · apply flatMap_capWord_inj
    · intro w hm
      rw [List.mem_map] at hm
      obtain ⟨x, hx, rfl⟩ := hm
      exact (hw.1 x hx).1
    · intro w hm
      rw [List.mem_map] at hm
      obtain ⟨x, hx, rfl⟩ := hm
      exact (hw'.1 x hx).1
  · intro h; rw [h]

/-- Non-vacuity: `user—id`, with U+2014. -/
example : WordsR uni0 [([], lit "user"), ([0x2014], lit "id")] ∧ Late uni0 95 (textR [([], lit "user"), ([0x2014], lit "id")]) := by
  refine ⟨⟨?_, by decide⟩, ?_⟩
  · intro e he
    simp only [List.mem_cons, List.not_mem_nil, or_false] at he
    rcases he with rfl | rfl
    · exact ⟨⟨117, lit "ser", by decide, by decide, by decide⟩, by decide⟩
    · exact ⟨⟨105, lit "d", by decide, by decide, by decide⟩, by decide⟩
  · decide

/-- **C43 is violated** (3): a character that is not ASCII and does not follow a letter shifts what comes after it, so that
letters are repeated and others lost. `— ab_c` and `— ad_c` get the same name, `AaCc`. (U+2014 is no letter and has no upper
case.) -/
theorem C43_violated_shift (u : Uni) (hl : u.letterOrDigit 0x2014 = false) (hu : u.upper 0x2014 = 0x2014) :
    namify u (utf8 (0x2014 :: lit " ab_c")) = some (lit "AaCc") ∧
    namify u (utf8 (0x2014 :: lit " ad_c")) = some (lit "AaCc") := by
  have asc : ∀ b, b < 128 → u.letterOrDigit b = isAlnum b := u.letterOrDigit_ascii
  have key : ∀ x : Nat, x = 98 ∨ x = 100 → namify u (utf8 (0x2014 :: [32, 97, x, 95, 99])) = some [65, 97, 67, 99] := by
    intro x hx
    have hr : runes 0 0 (utf8 (0x2014 :: [32, 97, x, 95, 99])) = [(0, 0x2014), (3, 32), (4, 97), (5, x), (6, 95), (7, 99)] := by
      rcases hx with rfl | rfl <;> decide
    have hs : utf8 (0x2014 :: [32, 97, x, 95, 99]) = [0xE2, 0x80, 0x94, 32, 97, x, 95, 99] := by
      rcases hx with rfl | rfl <;> decide
    have e1 : encodeRune 0x2014 = [0xE2, 0x80, 0x94] := by decide
    have hxa : isAlnum x = true := by rcases hx with rfl | rfl <;> decide
    have hx' : x < 128 := by omega
    unfold namify
    rw [hr, hs, if_neg (by simp)]
    simp only [upLoop, hl, hu, asc 95 (by decide), asc 32 (by decide), asc 97 (by decide), asc x hx', hxa,
      show isAlnum 95 = false by decide, show isAlnum 32 = false by decide, show isAlnum 97 = true by decide,
      Bool.false_eq_true, if_false, if_true, replaceAt, List.length_cons, List.length_nil, e1, encode_up u (show 32 < 128 by decide),
      encode_up u (show 97 < 128 by decide), encode_up u (show 99 < 128 by decide),
      show up 32 = 32 by decide, show up 97 = 65 by decide, show up 99 = 67 by decide]
    rcases hx with rfl | rfl <;> decide
  exact ⟨key 98 (.inl rfl), key 100 (.inr rfl)⟩

end Verif.Naming
