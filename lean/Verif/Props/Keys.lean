import Verif.Props.Strcase

/-!
# C94. Key conversions keep properties apart
-/

namespace Verif.Strcase

open Naming

/-- What a byte becomes, delimiters put around it aside. -/
def delimChar (d v : Nat) : Nat := if isSep v then d else down v

theorem sep_changes {v n : Nat} (h : isSep v = true) : changes v n = false := by
  obtain ⟨h1, h2, h3, _⟩ := sep_facts h
  simp [changes, h1, h2, h3]

/-- The first byte written: the delimiter, or what the first byte becomes. -/
theorem delimLoop_head (d : Nat) (p : Option Nat) (v : Nat) (s : Bytes) :
    ∃ b t, delimLoop d p (v :: s) = b :: t ∧ (b = d ∨ b = delimChar d v) := by
  cases s with
  | nil => exact ⟨_, _, rfl, .inr rfl⟩
  | cons n s =>
    rw [delimLoop]
    split
    · rename_i h
      split
      · exact ⟨d, _, rfl, .inl rfl⟩
      · refine ⟨down v, _, rfl, .inr ?_⟩
        unfold delimChar
        rw [if_neg]
        intro hs
        rw [sep_changes hs] at h; cases h
    · exact ⟨_, _, rfl, .inr rfl⟩

/-- The neighbours that need a delimiter. -/
def Apart (a b : Nat) : Prop := changes a b = false

theorem apart_d {d : Nat} (hd : isAlnum d = false) (b : Nat) : changes d b = false ∧ changes b d = false := by
  obtain ⟨h1, h2, h3⟩ := not_alnum hd
  simp [changes, h1, h2, h3]

theorem isUpper_down (v : Nat) : isUpper (down v) = false := by
  rcases down_cases v with ⟨h, e⟩ | ⟨h, e⟩
  · exact upper_false (.inl (down_lower (.inl h)))
  · rw [e]; exact h

theorem isUpper_delimChar {d : Nat} (hd : isAlnum d = false) (v : Nat) : isUpper (delimChar d v) = false := by
  unfold delimChar
  split
  · exact (not_alnum hd).1
  · exact isUpper_down v

theorem isDigit_down (v : Nat) : isDigit (down v) = isDigit v := by
  rcases down_cases v with ⟨h, e⟩ | ⟨h, e⟩
  · rw [digit_false (.inl (down_lower (.inl h))), digit_false (.inr h)]
  · rw [e]

/-- Without capitals, neighbours need a delimiter only if one is a digit and the other a small letter. -/
theorem changes_small {a b : Nat} (ha : isUpper a = false) (hb : isUpper b = false) :
    changes a b = ((isLower a && isDigit b) || (isDigit a && isLower b)) := by
  simp [changes, ha, hb]

/-- Neighbours of the same kind stay so. -/
theorem changes_delimChar {d : Nat} (hd : isAlnum d = false) {v n : Nat} (h : changes v n = false) :
    changes (delimChar d v) (delimChar d n) = false := by
  unfold delimChar
  split
  · exact (apart_d hd _).1
  · split
    · exact (apart_d hd _).2
    · rw [changes_small (isUpper_down v) (isUpper_down n), isDigit_down, isDigit_down]
      cases hl : isDigit n with
      | true =>
        have hnl : isLower (down n) = false := by
          rw [down_other (upper_false (.inr hl))]; exact lower_false (.inr hl)
        cases hv : isLower (down v) with
        | false => simp [hnl]
        | true =>
          exfalso
          have : isUpper v = true ∨ isLower v = true := by
            rcases down_cases v with ⟨h', e⟩ | ⟨h', e⟩
            · exact .inl h'
            · rw [e] at hv; exact .inr hv
          rcases this with k | k <;> simp [changes, k, hl] at h
      | false =>
        cases hv : isDigit v with
        | false => simp
        | true =>
          cases hnl : isLower (down n) with
          | false => simp
          | true =>
            exfalso
            have : isUpper n = true ∨ isLower n = true := by
              rcases down_cases n with ⟨h', e⟩ | ⟨h', e⟩
              · exact .inl h'
              · rw [e] at hnl; exact .inr hnl
            rcases this with k | k <;> simp [changes, k, hv] at h

/-- A capital and a small letter, in small letters. -/
theorem changes_letters {d : Nat} (hd : isAlnum d = false) {v n : Nat} (hv : isLower v = false) (hvd : isDigit v = false)
    (hnd : isDigit n = false) (h : changes v n = true) : changes (down v) (delimChar d n) = false := by
  have hn : isUpper v = true ∧ isLower n = true := by
    simp [changes, hv, hvd, hnd] at h; exact h
  unfold delimChar
  split
  · exact (apart_d hd _).2
  · rw [changes_small (isUpper_down v) (isUpper_down n), isDigit_down, isDigit_down, hnd, hvd]
    simp

/-- What is written needs no further delimiter and has no capital. -/
theorem delimLoop_out (d : Nat) (hd : isAlnum d = false) (s : Bytes) (p : Option Nat) :
    Pairs Apart (delimLoop d p s) ∧ (∀ b ∈ delimLoop d p s, isUpper b = false ∧ (isSep b = true → b = d)) := by
  have hsep : ∀ v, isUpper (delimChar d v) = false ∧ (isSep (delimChar d v) = true → delimChar d v = d) := by
    intro v
    refine ⟨isUpper_delimChar hd v, ?_⟩
    unfold delimChar
    split
    · intro _; rfl
    · rename_i hs
      intro k
      rcases down_cases v with ⟨h', e⟩ | ⟨h', e⟩
      · have := down_lower (.inl h')
        have k' := (sep_facts k).2.1
        rw [this] at k'; cases k'
      · rw [e] at k; exact absurd k hs
  have hdd : isUpper d = false ∧ (isSep d = true → d = d) := ⟨(not_alnum hd).1, fun _ => rfl⟩
  have consd : ∀ t : Bytes, Pairs Apart t → Pairs Apart (d :: t) := by
    intro t ht
    cases t with
    | nil => trivial
    | cons b t => exact ⟨(apart_d hd b).1, ht⟩
  have consb : ∀ (b : Nat) (t : Bytes), Pairs Apart (d :: t) → Pairs Apart (b :: d :: t) :=
    fun b t ht => ⟨(apart_d hd b).2, ht⟩
  induction s generalizing p with
  | nil => exact ⟨trivial, by simp [delimLoop]⟩
  | cons v s ih =>
    cases s with
    | nil =>
      refine ⟨trivial, ?_⟩
      intro b hb
      have : b = delimChar d v := by simpa [delimLoop, delimChar] using hb
      rw [this]; exact hsep v
    | cons n s =>
      obtain ⟨ih1, ih2⟩ := ih (some v)
      obtain ⟨b, t, e, hb⟩ := delimLoop_head d (some v) n s
      rw [delimLoop]
      split
      · rename_i hch
        have hns : isSep v = false := by
          cases k : isSep v with
          | false => rfl
          | true => rw [sep_changes k] at hch; cases hch
        have hdv : delimChar d v = down v := by unfold delimChar; simp [hns]
        have part : Pairs Apart (down v :: ((if isLower v || isDigit v || isDigit n then [d] else []) ++ delimLoop d (some v) (n :: s))) ∧
            ∀ b ∈ (down v :: ((if isLower v || isDigit v || isDigit n then [d] else []) ++ delimLoop d (some v) (n :: s))),
              isUpper b = false ∧ (isSep b = true → b = d) := by
          constructor
          · split
            · exact consb _ _ (consd _ ih1)
            · rename_i hc
              simp only [Bool.or_eq_true, not_or, Bool.not_eq_true] at hc
              rw [e] at ih1 ⊢
              refine ⟨?_, ih1⟩
              rcases hb with rfl | rfl
              · exact (apart_d hd _).2
              · exact changes_letters hd hc.1.1 hc.1.2 hc.2 hch
          · intro x hx
            rcases List.mem_cons.mp hx with rfl | hx
            · rw [← hdv]; exact hsep v
            · rcases List.mem_append.mp hx with hx | hx
              · split at hx
                · simp only [List.mem_singleton] at hx; rw [hx]; exact hdd
                · cases hx
              · exact ih2 x hx
        split
        · refine ⟨consd _ part.1, ?_⟩
          intro x hx
          rcases List.mem_cons.mp hx with rfl | hx
          · exact hdd
          · exact part.2 x hx
        · exact part
      · rename_i hch
        simp only [Bool.not_eq_true] at hch
        constructor
        · show Pairs Apart (delimChar d v :: delimLoop d (some v) (n :: s))
          rw [e] at ih1 ⊢
          refine ⟨?_, ih1⟩
          rcases hb with rfl | rfl
          · exact (apart_d hd _).2
          · exact changes_delimChar hd hch
        · intro x hx
          rcases List.mem_cons.mp hx with rfl | hx
          · exact hsep v
          · exact ih2 x hx

/-- Such texts are left as they are. -/
theorem delimLoop_self (d : Nat) (s : Bytes) (p : Option Nat) (hp : Pairs Apart s)
    (hs : ∀ b ∈ s, isUpper b = false ∧ (isSep b = true → b = d)) : delimLoop d p s = s := by
  have hc : ∀ b, isUpper b = false ∧ (isSep b = true → b = d) → delimChar d b = b := by
    intro b ⟨h1, h2⟩
    unfold delimChar
    split
    · rename_i k; exact (h2 k).symm
    · exact down_other h1
  induction s generalizing p with
  | nil => rfl
  | cons v s ih =>
    cases s with
    | nil =>
      show [delimChar d v] = [v]
      rw [hc v (hs v (by simp))]
    | cons n s =>
      rw [delimLoop, if_neg (by rw [hp.1]; simp)]
      show delimChar d v :: delimLoop d (some v) (n :: s) = v :: n :: s
      rw [hc v (hs v (by simp)), ih (some v) hp.2 (fun b hb => hs b (by simp [hb]))]

theorem dropWhile_nil (s : Bytes) (h : s.dropWhile isSpace = []) : ∀ x ∈ s, isSpace x = true := by
  induction s with
  | nil => simp
  | cons b s ih =>
    rw [List.dropWhile_cons] at h
    split at h
    · rename_i hb
      intro x hx
      rcases List.mem_cons.mp hx with rfl | hx
      · exact hb
      · exact ih h x hx
    · cases h

theorem trim_shape (s : Bytes) : trim s = [] ∨
    ((∃ a t, trim s = a :: t ∧ isSpace a = false) ∧ ∃ r z, trim s = r ++ [z] ∧ isSpace z = false) := by
  have key : ∀ s : Bytes, s.dropWhile isSpace = [] ∨ ∃ a t, s.dropWhile isSpace = a :: t ∧ isSpace a = false := by
    intro s
    induction s with
    | nil => exact .inl rfl
    | cons b s ih =>
      rw [List.dropWhile_cons]
      cases h : isSpace b with
      | true => simpa using ih
      | false => exact .inr ⟨b, s, by simp, h⟩
  unfold trim
  rcases key s with h | ⟨a, t, h, ha⟩
  · left; rw [h]; rfl
  · rw [h]
    right
    rcases key (a :: t).reverse with k | ⟨z, r, k, hz⟩
    · exfalso
      have : ∀ x ∈ (a :: t).reverse, isSpace x = true := by
        intro x hx
        exact dropWhile_nil _ k x hx
      rw [this a (by simp)] at ha; cases ha
    · rw [k]
      refine ⟨?_, r.reverse, z, by simp, hz⟩
      have hsuf : (z :: r) <:+ (a :: t).reverse := k ▸ List.dropWhile_suffix _
      obtain ⟨pre, hpre⟩ := hsuf
      have e : a :: t = (z :: r).reverse ++ pre.reverse := by
        have := congrArg List.reverse hpre
        rw [List.reverse_append, List.reverse_reverse] at this
        exact this.symm
      match hz' : (z :: r).reverse with
      | [] => simp at hz'
      | x :: y =>
        rw [hz', List.cons_append, List.cons.injEq] at e
        exact ⟨x, y, rfl, by rw [← e.1]; exact ha⟩

/-- The last byte written: what the last byte becomes. -/
theorem delimLoop_last (d : Nat) (r : Bytes) (z : Nat) (p : Option Nat) :
    ∃ t, delimLoop d p (r ++ [z]) = t ++ [delimChar d z] := by
  induction r generalizing p with
  | nil => exact ⟨[], rfl⟩
  | cons v r ih =>
    obtain ⟨t, ht⟩ := ih (some v)
    match hr : r ++ [z] with
    | [] => simp at hr
    | n :: s =>
      rw [hr] at ht
      rw [List.cons_append, hr, delimLoop]
      split
      · exact ⟨(if isUpper v && isLower n && capital p then [d] else []) ++ down v ::
          ((if isLower v || isDigit v || isDigit n then [d] else []) ++ t), by rw [ht]; simp⟩
      · exact ⟨(if isSep v then d else down v) :: t, by rw [ht]; rfl⟩

theorem space_delimChar (d : Nat) (hd : isSpace d = false) (v : Nat) (h : isSpace v = false) : isSpace (delimChar d v) = false := by
  unfold delimChar
  split
  · exact hd
  · rcases down_cases v with ⟨h', e⟩ | ⟨h', e⟩
    · exact lower_space (down_lower (.inl h'))
    · rw [e]; exact h

theorem delim_idempotent (d : Nat) (hd : isAlnum d = false) (hs : isSpace d = false) (s : Bytes) :
    delimLoop d none (trim (delimLoop d none (trim s))) = delimLoop d none (trim s) := by
  obtain ⟨h1, h2⟩ := delimLoop_out d hd (trim s) none
  have ht : trim (delimLoop d none (trim s)) = delimLoop d none (trim s) := by
    rcases trim_shape s with h | ⟨⟨a, t, ha, hsa⟩, r, z, hz, hsz⟩
    · rw [h]; rfl
    · obtain ⟨b, t', e, hb⟩ := delimLoop_head d none a t
      obtain ⟨r', e'⟩ := delimLoop_last d r z none
      refine trim_ends _ b t' (delimChar d z) r' (by rw [ha]; exact e) ?_ (by rw [hz]; exact e') (space_delimChar d hs z hsz)
      rcases hb with rfl | rfl
      · exact hs
      · exact space_delimChar d hs a hsa
  rw [ht]
  exact delimLoop_self d _ none h1 h2

/-- **C94.** Converting a key twice to snake or kebab case is converting it once, for every key. -/
theorem C94_idempotent (name : String) (h : name = "snake" ∨ name = "kebab") (s : Bytes) :
    ∃ c, conversion name = some c ∧ convertKey c (convertKey c s) = convertKey c s := by
  rcases h with rfl | rfl
  · exact ⟨.snake, rfl, delim_idempotent 95 (by decide) (by decide) s⟩
  · exact ⟨.kebab, rfl, delim_idempotent 45 (by decide) (by decide) s⟩

/-- **C94.** With the option `snake` keys have no capital and none of space, `-` and `.`; with `kebab` no capital and
none of space, `_` and `.`; with `camel` letters and digits only. -/
theorem C94_form (s : Bytes) :
    (∃ c, conversion "snake" = some c ∧ ∀ b ∈ convertKey c s, ¬ (65 ≤ b ∧ b ≤ 90) ∧ b ≠ 32 ∧ b ≠ 45 ∧ b ≠ 46) ∧
    (∃ c, conversion "kebab" = some c ∧ ∀ b ∈ convertKey c s, ¬ (65 ≤ b ∧ b ≤ 90) ∧ b ≠ 32 ∧ b ≠ 95 ∧ b ≠ 46) ∧
    (∃ c, conversion "camel" = some c ∧ ∀ b ∈ convertKey c s, isAlnum b = true) := by
  refine ⟨⟨.snake, rfl, ?_⟩, ⟨.kebab, rfl, ?_⟩, ⟨.camel, rfl, C93_alnum s⟩⟩
  · intro b hb
    obtain ⟨h1, h2⟩ := (delimLoop_out 95 (by decide) _ none).2 b hb
    rw [isSep_iff] at h2
    refine ⟨fun h => ?_, by omega, by omega, by omega⟩
    rw [(cls b).1.mpr h] at h1; cases h1
  · intro b hb
    obtain ⟨h1, h2⟩ := (delimLoop_out 45 (by decide) _ none).2 b hb
    rw [isSep_iff] at h2
    refine ⟨fun h => ?_, by omega, by omega, by omega⟩
    rw [(cls b).1.mpr h] at h1; cases h1

example : toSnake (lit "This_is a-Property2") = lit "this_is_a_property_2" := by decide

/-! ## Properties stay apart -/

theorem jsonNames_iff {A : Type} [DecidableEq A] (tags : List A) : jsonNames tags = tags ↔ tags.Nodup := by
  unfold jsonNames
  rw [List.filter_eq_self, List.nodup_iff_count]
  constructor
  · intro h a
    by_cases ha : a ∈ tags
    · have := h a ha
      simp only [beq_iff_eq] at this
      omega
    · rw [List.count_eq_zero_of_not_mem ha]; omega
  · intro h a ha
    have h1 := h a
    have h2 := List.count_pos_iff.mpr ha
    simp only [beq_iff_eq]
    omega

/-- **C94 (partial).** All properties of an object are written exactly when their converted keys differ. -/
theorem C94_written_partial (c : Conversion) (keys : List Bytes) :
    jsonNames (keys.map (convertKey c)) = keys.map (convertKey c) ↔ (keys.map (convertKey c)).Nodup := jsonNames_iff _

/-- **C94.** Without conversion, the default, all are written under their keys. -/
theorem C94_none (keys : List Bytes) (h : keys.Nodup) : jsonNames (keys.map (convertKey .none)) = keys := by
  have e : keys.map (convertKey .none) = keys := by
    rw [show convertKey .none = id from rfl, List.map_id]
  rw [e]
  exact (jsonNames_iff keys).mpr h

theorem delimLoop_small (d : Nat) (t : Bytes) (h : ∀ b ∈ t, isLower b = true) (p : Option Nat) (s : Bytes)
    (hs : ∀ x y, s = x :: y → isSep x = true) : ∃ q, delimLoop d p (t ++ s) = t ++ delimLoop d q s := by
  induction t generalizing p with
  | nil => exact ⟨p, rfl⟩
  | cons b t ih =>
    have hb := h b (by simp)
    obtain ⟨q, hq⟩ := ih (fun c hc => h c (by simp [hc])) (some b)
    have hns : isSep b = false := by
      cases k : isSep b with
      | false => rfl
      | true => rw [(sep_facts k).2.1] at hb; cases hb
    have hdb : delimChar d b = b := by
      unfold delimChar; simp only [hns, Bool.false_eq_true, if_false]; exact down_other (upper_false (.inl hb))
    match hr : t ++ s with
    | [] =>
      have hs0 : s = [] := (List.append_eq_nil_iff.mp hr).2
      have ht0 : t = [] := (List.append_eq_nil_iff.mp hr).1
      refine ⟨none, ?_⟩
      rw [hs0, ht0]
      show [delimChar d b] = _
      rw [hdb]; rfl
    | n :: r =>
      have hch : changes b n = false := by
        cases t with
        | nil =>
          have := hs n r (by simpa using hr)
          obtain ⟨h1, h2, h3, _⟩ := sep_facts this
          simp [changes, upper_false (.inl hb), digit_false (.inl hb), h1, h3]
        | cons c t =>
          have hc := h c (by simp)
          have : c = n := by simpa using (List.cons.inj hr).1
          rw [← this]
          simp [changes, upper_false (.inl hb), digit_false (.inl hb), upper_false (.inl hc), digit_false (.inl hc)]
      refine ⟨q, ?_⟩
      rw [List.cons_append, hr, delimLoop, hch]
      simp only [Bool.false_eq_true, if_false]
      rw [hr] at hq
      rw [hq]
      show delimChar d b :: _ = _
      rw [hdb]
      rfl

theorem delimLoop_tail (d : Nat) (ws : List (Nat × Bytes)) (h : ∀ e ∈ ws, isSep e.1 = true ∧ SmallWord e.2) (p : Option Nat) :
    delimLoop d p (tail ws) = ws.flatMap (fun e => d :: e.2) := by
  induction ws generalizing p with
  | nil => rfl
  | cons e ws ih =>
    obtain ⟨hs, hne, hw⟩ := h e (by simp)
    have hws := fun x hx => h x (List.mem_cons_of_mem _ hx)
    have hstart : ∀ x y, tail ws = x :: y → isSep x = true := by
      intro x y hxy
      cases ws with
      | nil => cases hxy
      | cons e' ws =>
        simp only [tail, List.flatMap_cons, List.cons_append, List.cons.injEq] at hxy
        rw [← hxy.1]; exact (hws e' (by simp)).1
    have e1 : tail (e :: ws) = e.1 :: (e.2 ++ tail ws) := by simp [tail]
    obtain ⟨q, hq⟩ := delimLoop_small d e.2 hw (some e.1) (tail ws) hstart
    rw [e1]
    match hr : e.2 ++ tail ws with
    | [] => exact absurd (List.append_eq_nil_iff.mp hr).1 hne
    | n :: r =>
      rw [delimLoop, sep_changes hs]
      simp only [Bool.false_eq_true, if_false, hs, if_true]
      rw [← hr, hq, ih hws q]
      simp

/-- Conversions of texts of words of small letters. -/
theorem convert_words (d : Nat) (w : Bytes) (ws : List (Nat × Bytes)) (h : SmallWords w ws) :
    delimLoop d none (trim (w ++ tail ws)) = w ++ ws.flatMap (fun e => d :: e.2) := by
  rw [words_ends w ws h]
  obtain ⟨q, hq⟩ := delimLoop_small d w h.1.2 none (tail ws) (by
    intro x y hxy
    cases ws with
    | nil => cases hxy
    | cons e ws =>
      simp only [tail, List.flatMap_cons, List.cons_append, List.cons.injEq] at hxy
      rw [← hxy.1]; exact (h.2 e (by simp)).1)
  rw [hq, delimLoop_tail d ws h.2]

theorem split_sep (d : Nat) (hd : isLower d = false) (w w' : Bytes) (s s' : List Bytes) (hw : ∀ b ∈ w, isLower b = true)
    (hw' : ∀ b ∈ w', isLower b = true) (hs : ∀ x ∈ s, ∀ b ∈ x, isLower b = true) (hs' : ∀ x ∈ s', ∀ b ∈ x, isLower b = true)
    (h : w ++ s.flatMap (d :: ·) = w' ++ s'.flatMap (d :: ·)) : w = w' ∧ s = s' := by
  have one : ∀ (w w' x x' : Bytes), (∀ b ∈ w, isLower b = true) → (∀ b ∈ w', isLower b = true) →
      (x = [] ∨ ∃ y, x = d :: y) → (x' = [] ∨ ∃ y, x' = d :: y) → w ++ x = w' ++ x' → w = w' ∧ x = x' := by
    intro w
    induction w with
    | nil =>
      intro w' x x' _ hw' hx _ h
      cases w' with
      | nil => exact ⟨rfl, h⟩
      | cons b w' =>
        simp only [List.nil_append] at h
        rcases hx with rfl | ⟨y, rfl⟩
        · cases h
        · simp only [List.cons_append, List.cons.injEq] at h
          have := hw' b (by simp)
          rw [← h.1, hd] at this; cases this
    | cons a w ih =>
      intro w' x x' hw hw' hx hx' h
      cases w' with
      | nil =>
        simp only [List.nil_append] at h
        rcases hx' with rfl | ⟨y, rfl⟩
        · cases h
        · simp only [List.cons_append, List.cons.injEq] at h
          have := hw a (by simp)
          rw [h.1, hd] at this; cases this
      | cons b w' =>
        simp only [List.cons_append, List.cons.injEq] at h
        obtain ⟨e1, e2⟩ := ih w' x x' (fun c hc => hw c (by simp [hc])) (fun c hc => hw' c (by simp [hc])) hx hx' h.2
        exact ⟨by rw [h.1, e1], e2⟩
  have start : ∀ s : List Bytes, s.flatMap (d :: ·) = [] ∨ ∃ y, s.flatMap (d :: ·) = d :: y := by
    intro s; cases s with
    | nil => exact .inl rfl
    | cons a s => exact .inr ⟨_, rfl⟩
  obtain ⟨e, e'⟩ := one w w' _ _ hw hw' (start s) (start s') h
  refine ⟨e, ?_⟩
  clear h e hw hw'
  induction s generalizing s' with
  | nil =>
    cases s' with
    | nil => rfl
    | cons a s' => cases e'
  | cons a s ih =>
    cases s' with
    | nil => cases e'
    | cons b s' =>
      simp only [List.flatMap_cons, List.cons_append, List.cons.injEq, true_and] at e'
      obtain ⟨e1, e2⟩ := one a b _ _ (hs a (by simp)) (hs' b (by simp)) (start s) (start s') e'
      rw [e1, ih s' (fun x hx => hs x (by simp [hx])) (fun x hx => hs' x (by simp [hx])) e2]

/-- **C94 (partial).** With the option `snake` (`kebab`), a key made of words of small letters, with any of the four
separators between them, becomes these words with `_` (`-`) between them; so two such keys become the same key exactly
when they have the same words. -/
theorem C94_words_partial (w w' : Bytes) (ws ws' : List (Nat × Bytes)) (h : SmallWords w ws) (h' : SmallWords w' ws') :
    (∃ c, conversion "snake" = some c ∧ convertKey c (w ++ tail ws) = w ++ ws.flatMap (fun e => 95 :: e.2) ∧
      (convertKey c (w ++ tail ws) = convertKey c (w' ++ tail ws') ↔ w :: ws.map (·.2) = w' :: ws'.map (·.2))) ∧
    (∃ c, conversion "kebab" = some c ∧ convertKey c (w ++ tail ws) = w ++ ws.flatMap (fun e => 45 :: e.2) ∧
      (convertKey c (w ++ tail ws) = convertKey c (w' ++ tail ws') ↔ w :: ws.map (·.2) = w' :: ws'.map (·.2))) := by
  have key : ∀ d, isLower d = false →
      (delimLoop d none (trim (w ++ tail ws)) = delimLoop d none (trim (w' ++ tail ws')) ↔
        w :: ws.map (·.2) = w' :: ws'.map (·.2)) := by
    intro d hd
    rw [convert_words d w ws h, convert_words d w' ws' h']
    have e : ∀ ws : List (Nat × Bytes), ws.flatMap (fun e => d :: e.2) = (ws.map (·.2)).flatMap (d :: ·) := by
      intro ws; rw [List.flatMap_map]
    rw [e, e, List.cons.injEq]
    constructor
    · intro k
      refine split_sep d hd w w' _ _ h.1.2 h'.1.2 ?_ ?_ k
      · intro x hx
        obtain ⟨y, hy, rfl⟩ := List.mem_map.mp hx
        exact (h.2 y hy).2.2
      · intro x hx
        obtain ⟨y, hy, rfl⟩ := List.mem_map.mp hx
        exact (h'.2 y hy).2.2
    · rintro ⟨rfl, k⟩; rw [k]
  exact ⟨⟨.snake, rfl, convert_words 95 w ws h, key 95 (by decide)⟩,
    ⟨.kebab, rfl, convert_words 45 w ws h, key 45 (by decide)⟩⟩

example : toSnake (lit "user-signed up") = lit "user_signed_up" ∧ toKebab (lit "user_signed.up") = lit "user-signed-up" := by
  decide

/-- **C94, violated.** An object with the properties `userID` and `user_id`: their Go names differ, but with
every conversion neither of them is ever written. -/
theorem C94_violated_lost (u : Uni) (c : Conversion) (hc : c ≠ .none) :
    namify u (lit "userID") = some (lit "UserID") ∧ namify u (lit "user_id") = some (lit "UserId") ∧
    jsonNames ([lit "userID", lit "user_id"].map (convertKey c)) = [] := by
  have a : ∀ s : Bytes, (s.all (fun b => decide (b < 128))) = true → namify u s = some (finish (cap 95 s)) := by
    intro s h
    apply namify_ascii
    intro b hb
    exact of_decide_eq_true (List.all_eq_true.mp h b hb)
  refine ⟨by rw [a _ (by decide)]; decide, by rw [a _ (by decide)]; decide, ?_⟩
  cases c with
  | none => exact absurd rfl hc
  | _ => decide

/-- **C94.** Other names of conversions are refused. -/
theorem C94_unknown (name : String) : conversion name = Option.none ↔
    name ≠ "snake" ∧ name ≠ "kebab" ∧ name ≠ "camel" ∧ name ≠ "none" := by
  unfold conversion
  split
  · simp_all
  · split
    · simp_all
    · split
      · simp_all
      · split
        · simp_all
        · simp_all

end Verif.Strcase
