import Verif.Proofs.Naming

/-! # C42, C43: generated names -/

namespace Verif.Naming

/-- **C42 (valid names).** For every text, of any bytes: naming it never crashes; the result has only ASCII
letters and digits and starts with an upper-case letter unless it is empty. -/
theorem C42_valid (u : Uni) (s : Bytes) :
    ∃ r, namify u s = some r ∧ (∀ b ∈ r, isAlnum b = true) ∧ (∀ b t, r = b :: t → isUpper b = true) := by
  unfold namify
  by_cases hs : s = []
  · exact ⟨[], by rw [if_pos hs], by simp, by simp⟩
  · rw [if_neg hs]
    obtain ⟨t, ht⟩ := upLoop_some u (runes 0 0 s) 95 s.length s (fun e he => by
      have := (runes_lt s 0 0 e he).2
      omega) (Nat.le_refl _)
    exact ⟨finish t, by rw [ht]; rfl, finish_alnum t, finish_head t⟩

/-- **C42 (stable names).** For every text: naming the name changes nothing. -/
theorem C42_idempotent (u : Uni) (s r : Bytes) (h : namify u s = some r) : namify u r = some r := by
  obtain ⟨r', h1, h2, h3⟩ := C42_valid u s
  rw [h] at h1; cases h1
  exact namify_name u ⟨h2, h3⟩

theorem finish_nil_iff (s : Bytes) : finish s = [] ↔ ∀ b ∈ s, isAlnum b = true → isDigit b = true := by
  unfold finish
  constructor
  · intro h b hb ha
    split at h
    · rename_i heq
      have key : ∀ l : Bytes, l.dropWhile isDigit = [] → ∀ b ∈ l, isDigit b = true := by
        intro l
        induction l with
        | nil => simp
        | cons a l ih =>
          intro hl b hb
          rw [List.dropWhile_cons] at hl
          by_cases hd : isDigit a = true
          · rw [if_pos hd] at hl
            simp only [List.mem_cons] at hb
            rcases hb with rfl | hb
            · exact hd
            · exact ih hl b hb
          · rw [if_neg hd] at hl; cases hl
      exact key _ heq b (List.mem_filter.mpr ⟨hb, ha⟩)
    · cases h
  · intro h
    have key : ∀ l : Bytes, (∀ b ∈ l, isDigit b = true) → l.dropWhile isDigit = [] := by
      intro l
      induction l with
      | nil => simp
      | cons a l ih =>
        intro hl
        rw [List.dropWhile_cons, if_pos (hl a (by simp))]
        exact ih (fun b hb => hl b (List.mem_cons_of_mem _ hb))
    rw [key]
    intro b hb
    rw [List.mem_filter] at hb
    exact h b hb.1 hb.2

theorem cap_letters (p : Nat) (s : Bytes) (hs : Ascii s) :
    (∀ b ∈ cap p s, isAlnum b = true → isDigit b = true) ↔ (∀ b ∈ s, isAlnum b = true → isDigit b = true) := by
  induction s generalizing p with
  | nil => simp [cap]
  | cons b s ih =>
    have hb : b < 128 := hs b (by simp)
    have hs' : Ascii s := fun c hc => hs c (List.mem_cons_of_mem _ hc)
    simp only [cap, List.mem_cons, forall_eq_or_imp]
    rw [ih b hs']
    have key : ∀ b : Fin 128, (isAlnum (up b) = true → isDigit (up b) = true) ↔ (isAlnum b = true → isDigit b = true) := by
      decide
    split
    · rfl
    · rw [key ⟨b, hb⟩]

/-- **C42 (empty names).** An ASCII text gets the empty name, which is no Go identifier, exactly when it has
no letter. -/
theorem C42_empty_iff_no_letter (u : Uni) (s : Bytes) (hs : Ascii s) :
    namify u s = some [] ↔ ∀ b ∈ s, isAlnum b = true → isDigit b = true := by
  rw [namify_ascii u s hs, Option.some.injEq, finish_nil_iff, cap_letters 95 s hs]

/-- ASCII literals. -/
def lit (s : String) : Bytes := s.toList.map Char.toNat

/-- `unicode` restricted to ASCII. -/
def uni0 : Uni := ⟨isAlnum, up, fun _ _ => rfl, fun _ _ => rfl⟩

example : namify uni0 (lit "user/signed-up 2.event_id") = some (lit "UserSignedUp2EventId") := by decide
example : namify uni0 (lit "{id}") = some (lit "Id") := by decide
-- a multi-byte character shifts the text under the byte indices: `é-a` is named `Aa`
example : namify uni0 [0xC3, 0xA9, 0x2D, 0x61] = some (lit "Aa") := by decide
example : namify uni0 (lit "42") = some [] := by decide

/-! ## Distinct names -/

/-- A word: a lower-case letter followed by lower-case letters and digits. -/
def Word (w : Bytes) : Prop :=
  ∃ b t, w = b :: t ∧ isLower b = true ∧ ∀ c ∈ t, isLower c = true ∨ isDigit c = true

/-- A word with its first letter in upper case. -/
def capWord : Bytes → Bytes
  | [] => []
  | b :: t => up b :: t

/-- Words, each with what separates it from the one before: ASCII characters other than letters and digits,
at least one except before the first word. -/
def Words (ws : List (Bytes × Bytes)) : Prop :=
  (∀ e ∈ ws, Word e.2 ∧ ∀ c ∈ e.1, c < 128 ∧ isAlnum c = false) ∧ ∀ e ∈ ws.tail, e.1 ≠ []

/-- The text they form. -/
def text (ws : List (Bytes × Bytes)) : Bytes := ws.flatMap (fun e => e.1 ++ e.2)

theorem up_non {c : Nat} (h : isAlnum c = false) : up c = c := by
  unfold up
  rw [if_neg]
  intro hl
  simp [isAlnum, hl] at h

theorem cap_sep (sep : Bytes) (hsep : ∀ c ∈ sep, isAlnum c = false) (p : Nat) (s : Bytes)
    (hp : isAlnum p = false ∨ sep ≠ []) : ∃ q, isAlnum q = false ∧ cap p (sep ++ s) = sep ++ cap q s := by
  induction sep generalizing p with
  | nil =>
    rcases hp with hp | hp
    · exact ⟨p, hp, rfl⟩
    · exact absurd rfl hp
  | cons c sep ih =>
    have hc := hsep c (by simp)
    obtain ⟨q, hq, he⟩ := ih (fun d hd => hsep d (List.mem_cons_of_mem _ hd)) c (.inl hc)
    refine ⟨q, hq, ?_⟩
    simp only [List.cons_append, cap, he, up_non hc]
    split <;> rfl

theorem cap_alnum_append (t : Bytes) (p : Nat) (hp : isAlnum p = true) (h : ∀ b ∈ t, isAlnum b = true) (s : Bytes) :
    ∃ q, isAlnum q = true ∧ cap p (t ++ s) = t ++ cap q s := by
  induction t generalizing p with
  | nil => exact ⟨p, hp, rfl⟩
  | cons b t ih =>
    obtain ⟨q, hq, he⟩ := ih b (h b (by simp)) (fun c hc => h c (List.mem_cons_of_mem _ hc))
    exact ⟨q, hq, by simp [cap, hp, he]⟩

theorem Word.alnum {w : Bytes} (h : Word w) : ∀ b ∈ w, isAlnum b = true := by
  obtain ⟨b, t, rfl, hb, ht⟩ := h
  intro c hc
  simp only [List.mem_cons] at hc
  rcases hc with rfl | hc
  · simp [isAlnum, hb]
  · rcases ht c hc with h | h <;> simp [isAlnum, h]

theorem cap_text (ws : List (Bytes × Bytes)) (hw : ∀ e ∈ ws, Word e.2 ∧ ∀ c ∈ e.1, c < 128 ∧ isAlnum c = false) :
    ∀ p, (isAlnum p = false → ∀ e ∈ ws.tail, e.1 ≠ []) → (isAlnum p = true → ∀ e ∈ ws, e.1 ≠ []) →
    (cap p (text ws)).filter isAlnum = ws.flatMap (fun e => capWord e.2) := by
  induction ws with
  | nil => intros; rfl
  | cons e ws ih =>
    intro p hp1 hp2
    obtain ⟨hword, hsep⟩ := hw e (by simp)
    have hal := hword.alnum
    obtain ⟨b, t, hbt, hb, ht⟩ := hword
    have hne : isAlnum p = false ∨ e.1 ≠ [] := by
      cases hpa : isAlnum p with
      | false => exact .inl rfl
      | true => exact .inr (hp2 hpa e (by simp))
    have htail : ∀ x ∈ ws, x.1 ≠ [] := by
      cases hpa : isAlnum p with
      | false => exact hp1 hpa
      | true => intro x hx; exact hp2 hpa x (List.mem_cons_of_mem _ hx)
    obtain ⟨q, hq, he⟩ := cap_sep e.1 (fun c hc => (hsep c hc).2) p (e.2 ++ text ws) hne
    have hbal : isAlnum b = true := hal b (by rw [hbt]; simp)
    have htal : ∀ c ∈ t, isAlnum c = true := fun c hc => hal c (by rw [hbt]; simp [hc])
    obtain ⟨q', hq', he'⟩ := cap_alnum_append t b hbal htal (text ws)
    have : text (e :: ws) = e.1 ++ (e.2 ++ text ws) := by simp [text, List.append_assoc]
    rw [this, he, hbt, List.cons_append, cap, hq, if_neg (by simp), he', List.filter_append, List.filter_cons,
      if_pos (up_alnum hbal), List.filter_append, List.filter_eq_self.mpr htal,
      List.filter_eq_nil_iff.mpr (fun c hc => by simp [(hsep c hc).2]),
      ih (fun x hx => hw x (List.mem_cons_of_mem _ hx)) q' (fun h => by rw [hq'] at h; cases h) (fun _ => htail)]
    simp [hbt, capWord]

theorem namify_text (u : Uni) (ws : List (Bytes × Bytes)) (hw : Words ws) :
    namify u (text ws) = some (ws.flatMap (fun e => capWord e.2)) := by
  have hascii : Ascii (text ws) := by
    intro b hb
    simp only [text, List.mem_flatMap, List.mem_append] at hb
    obtain ⟨e, he, hb | hb⟩ := hb
    · exact ((hw.1 e he).2 b hb).1
    · exact isAlnum_lt ((hw.1 e he).1.alnum b hb)
  rw [namify_ascii u _ hascii]
  unfold finish
  rw [cap_text ws hw.1 95 (fun _ => hw.2) (fun h => absurd h (by decide))]
  cases ws with
  | nil => rfl
  | cons e ws =>
    obtain ⟨b, t, hbt, hb, ht⟩ := (hw.1 e (by simp)).1
    have hup : isUpper (up b) = true := up_letter (by simp [isAlnum, hb]) (by
      simp only [isLower, isDigit, inRange, Bool.and_eq_true, decide_eq_true_eq, Bool.and_eq_false_iff, decide_eq_false_iff_not] at hb ⊢
      omega)
    obtain ⟨hd, hu, _⟩ := isUpper_facts hup
    simp [hbt, capWord, hd, hu]

theorem lower_not_upper {b : Nat} (h : isLower b = true ∨ isDigit b = true) : isUpper b = false := by
  simp only [isLower, isDigit, isUpper, inRange, Bool.and_eq_true, decide_eq_true_eq, Bool.and_eq_false_iff, decide_eq_false_iff_not] at h ⊢
  omega

theorem lower_up {b : Nat} (h : isLower b = true) : isUpper (up b) = true := by
  apply up_letter (by simp [isAlnum, h])
  simp only [isLower, isDigit, inRange, Bool.and_eq_true, decide_eq_true_eq, Bool.and_eq_false_iff, decide_eq_false_iff_not] at h ⊢
  omega

theorem up_inj {a b : Nat} (ha : isLower a = true) (hb : isLower b = true) (h : up a = up b) : a = b := by
  unfold up at h
  rw [if_pos ha, if_pos hb] at h
  simp only [isLower, inRange, Bool.and_eq_true, decide_eq_true_eq] at ha hb
  omega

/-- Splitting at upper-case letters is unambiguous. -/
theorem split_upper (t t' x x' : Bytes) (ht : ∀ c ∈ t, isUpper c = false) (ht' : ∀ c ∈ t', isUpper c = false)
    (hx : ∀ c r, x = c :: r → isUpper c = true) (hx' : ∀ c r, x' = c :: r → isUpper c = true)
    (h : t ++ x = t' ++ x') : t = t' ∧ x = x' := by
  induction t generalizing t' with
  | nil =>
    cases t' with
    | nil => exact ⟨rfl, h⟩
    | cons c t' =>
      simp only [List.nil_append, List.cons_append] at h
      have := hx c _ h
      rw [ht' c (by simp)] at this; cases this
  | cons c t ih =>
    cases t' with
    | nil =>
      simp only [List.nil_append, List.cons_append] at h
      have := hx' c _ h.symm
      rw [ht c (by simp)] at this; cases this
    | cons c' t' =>
      simp only [List.cons_append, List.cons.injEq] at h
      obtain ⟨h1, h2⟩ := ih t' (fun d hd => ht d (List.mem_cons_of_mem _ hd))
        (fun d hd => ht' d (List.mem_cons_of_mem _ hd)) h.2
      exact ⟨by rw [h.1, h1], h2⟩

theorem flatMap_capWord_inj (ws ws' : List Bytes) (hw : ∀ w ∈ ws, Word w) (hw' : ∀ w ∈ ws', Word w)
    (h : ws.flatMap capWord = ws'.flatMap capWord) : ws = ws' := by
  have hstart : ∀ ws : List Bytes, (∀ w ∈ ws, Word w) → ∀ c r, ws.flatMap capWord = c :: r → isUpper c = true := by
    intro ws hw c r hcr
    cases ws with
    | nil => cases hcr
    | cons w ws =>
      obtain ⟨b, t, rfl, hb, _⟩ := hw w (by simp)
      simp only [List.flatMap_cons, capWord, List.cons_append, List.cons.injEq] at hcr
      rw [← hcr.1]; exact lower_up hb
  induction ws generalizing ws' with
  | nil =>
    cases ws' with
    | nil => rfl
    | cons w ws' =>
      obtain ⟨b, t, rfl, _⟩ := hw' w (by simp)
      simp [capWord] at h
  | cons w ws ih =>
    cases ws' with
    | nil =>
      obtain ⟨b, t, rfl, _⟩ := hw w (by simp)
      simp [capWord] at h
    | cons w' ws' =>
      obtain ⟨b, t, rfl, hb, ht⟩ := hw w (by simp)
      obtain ⟨b', t', rfl, hb', ht'⟩ := hw' w' (by simp)
      have hws := fun w hm => hw w (List.mem_cons_of_mem _ hm)
      have hws' := fun w hm => hw' w (List.mem_cons_of_mem _ hm)
      simp only [List.flatMap_cons, capWord, List.cons_append, List.cons.injEq] at h
      obtain ⟨h1, h2⟩ := split_upper t t' _ _ (fun c hc => lower_not_upper (ht c hc))
        (fun c hc => lower_not_upper (ht' c hc)) (hstart ws hws) (hstart ws' hws') h.2
      rw [up_inj hb hb' h.1, h1, ih ws' hws hws' h2]

/-- **C43 (partial: texts made of lower-case words and ASCII separators).** Two such texts get the same name
exactly when they have the same words, whatever separates them. Missing: distinct texts with the same words
or with upper-case letters, for which it is false (below). -/
theorem C43_same_name_iff_same_words_partial (u : Uni) (ws ws' : List (Bytes × Bytes)) (hw : Words ws) (hw' : Words ws') :
    namify u (text ws) = namify u (text ws') ↔ ws.map (·.2) = ws'.map (·.2) := by
  rw [namify_text u ws hw, namify_text u ws' hw', Option.some.injEq]
  have e : ∀ ws : List (Bytes × Bytes), ws.flatMap (fun e => capWord e.2) = (ws.map (·.2)).flatMap capWord := by
    intro ws; rw [List.flatMap_map]
  rw [e, e]
  constructor
  · apply flatMap_capWord_inj
    · intro w hm
      rw [List.mem_map] at hm
      obtain ⟨x, hx, rfl⟩ := hm
      exact (hw.1 x hx).1
    · intro w hm
      rw [List.mem_map] at hm
      obtain ⟨x, hx, rfl⟩ := hm
      exact (hw'.1 x hx).1
  · intro h; rw [h]

/-- Non-vacuity. -/
example : Words [([], lit "user"), (lit "_", lit "signed"), (lit "/-", lit "up2")] := by
  have w : ∀ s : Bytes, (match s with | [] => false | b :: t => isLower b && t.all (fun c => isLower c || isDigit c)) = true →
      Word s := by
    intro s h
    cases s with
    | nil => cases h
    | cons b t =>
      simp only [Bool.and_eq_true, List.all_eq_true, Bool.or_eq_true] at h
      exact ⟨b, t, rfl, h.1, h.2⟩
  refine ⟨?_, by decide⟩
  intro e he
  simp only [List.mem_cons, List.not_mem_nil, or_false] at he
  rcases he with rfl | rfl | rfl
  · exact ⟨w _ (by decide), by decide⟩
  · exact ⟨w _ (by decide), by decide⟩
  · exact ⟨w _ (by decide), by decide⟩

/-- **C43 is violated** (1): `user_id`, `user-id`, `userId` and `UserID`'s prefix forms collide; so do all
texts without ASCII letters. -/
theorem C43_violated (u : Uni) :
    namify u (lit "user_id") = some (lit "UserId") ∧ namify u (lit "userId") = some (lit "UserId") ∧
    namify u (lit "user.id") = some (lit "UserId") ∧ namify u (lit "1") = namify u (lit "2") := by
  have a : ∀ s : Bytes, (s.all (fun b => decide (b < 128))) = true → namify u s = some (finish (cap 95 s)) := by
    intro s h
    apply namify_ascii
    intro b hb
    simpa using List.all_eq_true.mp h b hb
  refine ⟨?_, ?_, ?_, ?_⟩
  · rw [a _ (by decide)]; decide
  · rw [a _ (by decide)]; decide
  · rw [a _ (by decide)]; decide
  · rw [a _ (by decide), a _ (by decide)]; decide

/-- **C43 is violated** (2): the type of a channel's parameters is named after what surrounds the first `{`
and the last `}` only, so channels with two parameters collide. -/
theorem C43_violated_parameters (u : Uni) :
    namifyWithoutParams u (lit "org/{a}/users/{b}") = some (lit "Org") ∧
    namifyWithoutParams u (lit "org/{a}/teams/{b}") = some (lit "Org") := by
  have a : ∀ s : Bytes, (s.all (fun b => decide (b < 128))) = true → namify u s = some (finish (cap 95 s)) := by
    intro s h
    apply namify_ascii
    intro b hb
    simpa using List.all_eq_true.mp h b hb
  have e1 : stripParams (lit "org/{a}/users/{b}").length (lit "org/{a}/users/{b}") = lit "org/_" := by decide
  have e2 : stripParams (lit "org/{a}/teams/{b}").length (lit "org/{a}/teams/{b}") = lit "org/_" := by decide
  unfold namifyWithoutParams
  rw [e1, e2, a _ (by decide)]
  decide

theorem afterLast_none : ∀ (r : Bytes), 125 ∉ r → afterLast r = none
  | [], _ => rfl
  | b :: r, h => by
    have h1 : b ≠ 125 := fun e => h (e ▸ List.mem_cons_self)
    rw [afterLast, afterLast_none r (fun hm => h (List.mem_cons_of_mem _ hm))]
    simp [h1]

theorem afterLast_last : ∀ (m r : Bytes), 40 ∉ m → 41 ∉ m → 125 ∉ r → afterLast (m ++ 125 :: r) = some r
  | [], r, _, _, h => by
    rw [List.nil_append, afterLast, afterLast_none r h]
    simp
  | b :: m, r, h1, h2, h => by
    have e1 : b ≠ 40 := fun e => h1 (e ▸ List.mem_cons_self)
    have e2 : b ≠ 41 := fun e => h2 (e ▸ List.mem_cons_self)
    rw [List.cons_append, afterLast,
      afterLast_last m r (fun hm => h1 (List.mem_cons_of_mem _ hm)) (fun hm => h2 (List.mem_cons_of_mem _ hm)) h]
    simp [e1, e2]

theorem strip_none : ∀ (f : Nat) (r : Bytes), 125 ∉ r → stripParams f r = r
  | 0, [], _ => rfl
  | _ + 1, [], _ => rfl
  | 0, _ :: _, _ => rfl
  | f + 1, b :: r, h => by
    have h' : 125 ∉ r := fun hm => h (List.mem_cons_of_mem _ hm)
    rw [stripParams, afterLast_none r h', strip_none f r h']
    simp

theorem strip_first : ∀ (a m r : Bytes) (f : Nat), a.length < f → 123 ∉ a → 40 ∉ m → 41 ∉ m → 125 ∉ r →
    stripParams f (a ++ 123 :: (m ++ 125 :: r)) = a ++ 95 :: r
  | _, _, _, 0, hf, _, _, _, _ => absurd hf (Nat.not_lt_zero _)
  | [], m, r, f + 1, _, _, h1, h2, h => by
    rw [List.nil_append, stripParams, if_pos rfl, afterLast_last m r h1 h2 h]
    simp [strip_none f r h]
  | b :: a, m, r, f + 1, hf, ha, h1, h2, h => by
    have hb : b ≠ 123 := fun e => ha (e ▸ List.mem_cons_self)
    rw [List.cons_append, stripParams, if_neg hb,
      strip_first a m r f (Nat.lt_of_succ_lt_succ hf) (fun hm => ha (List.mem_cons_of_mem _ hm)) h1 h2 h]
    rfl

/-- **C43** (part that holds): the name of the parameters of an address that has no parameter is that of the address. -/
theorem C43_no_parameters_partial (u : Uni) (s : Bytes) (h : 125 ∉ s) : namifyWithoutParams u s = namify u s := by
  unfold namifyWithoutParams
  rw [strip_none _ s h]

/-- **C43 is violated** (2, in general): whatever stands between the first `{` and the last `}`, parentheses apart, does not
count, so addresses that differ there only get one name. -/
theorem C43_violated_between (u : Uni) (a m m' r : Bytes) (ha : 123 ∉ a) (h1 : 40 ∉ m) (h2 : 41 ∉ m) (h1' : 40 ∉ m') (h2' : 41 ∉ m')
    (hr : 125 ∉ r) :
    namifyWithoutParams u (a ++ 123 :: (m ++ 125 :: r)) = namify u (a ++ 95 :: r) ∧
    namifyWithoutParams u (a ++ 123 :: (m ++ 125 :: r)) = namifyWithoutParams u (a ++ 123 :: (m' ++ 125 :: r)) := by
  unfold namifyWithoutParams
  rw [strip_first a m r _ (by simp) ha h1 h2 hr, strip_first a m' r _ (by simp) ha h1' h2' hr]
  exact ⟨rfl, rfl⟩

/-- For instance `org/{a}/users/{b}` and `org/{c}`. -/
example (u : Uni) : namifyWithoutParams u (lit "org/{a}/users/{b}/x") = namifyWithoutParams u (lit "org/{c}/x") :=
  (C43_violated_between u (lit "org/") (lit "a}/users/{b") (lit "c") (lit "/x") (by decide) (by decide) (by decide) (by decide)
    (by decide) (by decide)).2

/-- The name of a parameter is the same with and without its braces. -/
theorem namify_braces (u : Uni) (s : Bytes) (hs : Ascii s) : namify u (123 :: (s ++ [125])) = namify u s := by
  have hs2 : Ascii (123 :: (s ++ [125])) := by
    intro b hb
    simp only [List.mem_cons, List.mem_append, List.not_mem_nil, or_false] at hb
    rcases hb with rfl | hb | rfl
    · decide
    · exact hs b hb
    · decide
  rw [namify_ascii u _ hs2, namify_ascii u s hs]
  have happ : ∀ (s : Bytes) (p : Nat), cap p (s ++ [125]) = cap p s ++ [125] := by
    intro s
    induction s with
    | nil => intro p; simp only [List.nil_append, cap, show up 125 = 125 by decide]; split <;> rfl
    | cons b s ih => intro p; simp [cap, ih]
  have hp : ∀ (s : Bytes), cap 123 s = cap 95 s := by
    intro s
    cases s with
    | nil => rfl
    | cons b s => simp [cap, show isAlnum 123 = false by decide, show isAlnum 95 = false by decide]
  congr 1
  unfold finish
  simp only [cap, happ, hp, show isAlnum 95 = false by decide, show up 123 = 123 by decide]
  rw [List.filter_cons_of_neg (by decide), List.filter_append]
  simp [show isAlnum 125 = false by decide]

/-- Parentheses end a parameter: what is in braces around them is kept. -/
example : stripParams 8 (lit "a{b(c}d}") = lit "a{b(c}d}" ∧ stripParams 8 (lit "a{b}c(d}") = lit "a_c(d}" := by decide

end Verif.Naming
