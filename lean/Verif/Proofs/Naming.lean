import Verif.Model.Naming

/-! # Proofs about generated names -/

namespace Verif.Naming

theorem isAlnum_lt {b : Nat} (h : isAlnum b = true) : b < 128 := by
  simp only [isAlnum, isLower, isUpper, isDigit, inRange, Bool.or_eq_true, Bool.and_eq_true, decide_eq_true_eq] at h
  omega

theorem up_up (b : Nat) : up (up b) = up b := by
  unfold up
  by_cases h : isLower b = true
  · rw [if_pos h]
    have : isLower (b - 32) = false := by
      simp only [isLower, inRange, Bool.and_eq_true, decide_eq_true_eq, Bool.and_eq_false_iff, decide_eq_false_iff_not] at h ⊢
      omega
    simp [this]
  · simp [h]

theorem up_alnum {b : Nat} (h : isAlnum b = true) : isAlnum (up b) = true := by
  unfold up
  by_cases hl : isLower b = true
  · rw [if_pos hl]
    simp only [isAlnum, isLower, isUpper, isDigit, inRange, Bool.or_eq_true, Bool.and_eq_true, decide_eq_true_eq] at hl ⊢
    omega
  · rw [if_neg hl]; exact h

theorem alnum_up {b : Nat} (hb : b < 128) : isAlnum (up b) = isAlnum b := by
  revert b
  decide

theorem up_lt {b : Nat} (h : b < 128) : up b < 128 := by
  unfold up; split <;> omega

theorem up_letter {b : Nat} (h : isAlnum b = true) (hd : isDigit b = false) : isUpper (up b) = true := by
  have := isAlnum_lt h
  revert b
  intro b
  intro h hd hb
  have key : ∀ b : Fin 128, isAlnum b = true → isDigit b = false → isUpper (up b) = true := by decide
  exact key ⟨b, hb⟩ h hd

theorem digit_up {b : Nat} (h : isDigit b = true) : up b = b := by
  unfold up
  rw [if_neg]
  simp only [isLower, isDigit, inRange, Bool.and_eq_true, decide_eq_true_eq] at h ⊢
  omega

/-- Upper-casing what follows a separator. -/
def cap : Nat → Bytes → Bytes
  | _, [] => []
  | prev, b :: s => (if isAlnum prev then b else up b) :: cap b s

theorem cap_length (p : Nat) (s : Bytes) : (cap p s).length = s.length := by
  induction s generalizing p with
  | nil => rfl
  | cons b s ih => simp [cap, ih]

/-- ASCII text. -/
def Ascii (s : Bytes) : Prop := ∀ b ∈ s, b < 128

theorem runes_ascii (s : Bytes) (i : Nat) (h : Ascii s) : runes 0 i s = (s.zipIdx i).map (fun e => (e.2, e.1)) := by
  induction s generalizing i with
  | nil => rfl
  | cons b s ih =>
    have hb : b < 0x80 := h b (by simp)
    simp only [runes, decodeRune, hb, if_true, List.zipIdx_cons, List.map_cons]
    rw [ih (i + 1) (fun c hc => h c (List.mem_cons_of_mem _ hc))]

theorem encode_up (u : Uni) {b : Nat} (h : b < 128) : encodeRune (u.upper b) = [up b] := by
  rw [u.upper_ascii b h, encodeRune, if_pos (up_lt h)]

theorem upLoop_ascii (u : Uni) (s : Bytes) (hs : Ascii s) : ∀ (done : Bytes) (p : Nat), p < 128 →
    upLoop u ((s.zipIdx done.length).map (fun e => (e.2, e.1))) p (done ++ s) = some (done ++ cap p s) := by
  induction s with
  | nil => intro done p _; simp [upLoop, cap]
  | cons b s ih =>
    intro done p hp
    have hb : b < 128 := hs b (by simp)
    have hs' : Ascii s := fun c hc => hs c (List.mem_cons_of_mem _ hc)
    have key : ∀ c : Nat, upLoop u ((s.zipIdx (done.length + 1)).map (fun e => (e.2, e.1))) b (done ++ c :: s) =
        some (done ++ c :: cap b s) := by
      intro c
      have := ih hs' (done ++ [c]) b hb
      simpa [List.append_assoc] using this
    simp only [List.zipIdx_cons, List.map_cons, upLoop, u.letterOrDigit_ascii p hp, cap]
    by_cases ha : isAlnum p = true
    · simp only [ha, if_true]
      exact key b
    · simp only [ha, Bool.false_eq_true, if_false]
      have hr : replaceAt u (done ++ b :: s) done.length b = some (done ++ up b :: s) := by
        unfold replaceAt
        simp [encode_up u hb]
      simp only [hr]
      exact key (up b)

theorem namify_ascii (u : Uni) (s : Bytes) (h : Ascii s) : namify u s = some (finish (cap 95 s)) := by
  unfold namify
  by_cases hs : s = []
  · subst hs; rfl
  · rw [if_neg hs, runes_ascii s 0 h]
    have := upLoop_ascii u s h [] 95 (by decide)
    simp only [List.length_nil, List.nil_append] at this
    rw [this]; rfl

/-! ## What `finish` yields -/

theorem dropWhile_head (p : Nat → Bool) (l : Bytes) : ∀ b t, l.dropWhile p = b :: t → p b = false := by
  induction l with
  | nil => intro b t h; cases h
  | cons a l ih =>
    intro b t h
    rw [List.dropWhile_cons] at h
    by_cases ha : p a = true
    · rw [if_pos ha] at h; exact ih b t h
    · rw [if_neg ha] at h
      cases h
      simpa using ha

theorem finish_alnum (s : Bytes) : ∀ b ∈ finish s, isAlnum b = true := by
  unfold finish
  have hall : ∀ b ∈ (s.filter isAlnum).dropWhile isDigit, isAlnum b = true := by
    intro b hb
    have := (List.dropWhile_sublist isDigit (l := s.filter isAlnum)).mem hb
    exact (List.mem_filter.mp this).2
  split
  · simp
  · rename_i b t heq
    intro c hc
    rw [heq] at hall
    simp only [List.mem_cons] at hc
    rcases hc with rfl | hc
    · exact up_alnum (hall b (by simp))
    · exact hall c (List.mem_cons_of_mem _ hc)

theorem finish_head (s : Bytes) : ∀ b t, finish s = b :: t → isUpper b = true := by
  unfold finish
  intro b t h
  split at h
  · cases h
  · rename_i c t' heq
    cases h
    have hd := dropWhile_head isDigit _ c t heq
    have hm : c ∈ s.filter isAlnum := (List.dropWhile_sublist isDigit).mem (by rw [heq]; simp)
    exact up_letter (List.mem_filter.mp hm).2 hd

/-- A name: letters and digits, an upper-case letter first. -/
def IsName (s : Bytes) : Prop := (∀ b ∈ s, isAlnum b = true) ∧ ∀ b t, s = b :: t → isUpper b = true

theorem isUpper_facts {b : Nat} (h : isUpper b = true) : isDigit b = false ∧ up b = b ∧ isAlnum b = true := by
  simp only [isUpper, inRange, Bool.and_eq_true, decide_eq_true_eq] at h
  have hb : b < 128 := by omega
  have key : ∀ b : Fin 128, 65 ≤ b.val ∧ b.val ≤ 90 → isDigit b = false ∧ up b = b ∧ isAlnum b = true := by decide
  exact key ⟨b, hb⟩ h

theorem cap_alnum (s : Bytes) (p : Nat) (hp : isAlnum p = true) (h : ∀ b ∈ s, isAlnum b = true) : cap p s = s := by
  induction s generalizing p with
  | nil => rfl
  | cons b s ih =>
    simp only [cap, hp, if_true]
    rw [ih b (h b (by simp)) (fun c hc => h c (List.mem_cons_of_mem _ hc))]

theorem finish_name {s : Bytes} (h : IsName s) : finish s = s := by
  unfold finish
  rw [List.filter_eq_self.mpr h.1]
  cases s with
  | nil => rfl
  | cons b t =>
    obtain ⟨hd, hu, _⟩ := isUpper_facts (h.2 b t rfl)
    simp [hd, hu]

theorem namify_name (u : Uni) {s : Bytes} (h : IsName s) : namify u s = some s := by
  rw [namify_ascii u s (fun b hb => isAlnum_lt (h.1 b hb))]
  cases s with
  | nil => rfl
  | cons b t =>
    obtain ⟨_, hu, ha⟩ := isUpper_facts (h.2 b t rfl)
    have hc : cap 95 (b :: t) = b :: t := by
      simp only [cap, show isAlnum 95 = false by decide, Bool.false_eq_true, if_false, hu]
      rw [cap_alnum t b ha (fun c hc => h.1 c (List.mem_cons_of_mem _ hc))]
    rw [hc, finish_name h]

/-! ## No slice is out of range -/

theorem runes_lt (s : Bytes) : ∀ (skip i : Nat), ∀ e ∈ runes skip i s, i ≤ e.1 ∧ e.1 < i + s.length := by
  induction s with
  | nil => intro skip i e he; cases skip <;> cases he
  | cons b s ih =>
    intro skip i e he
    cases skip with
    | succ skip =>
      have := ih skip (i + 1) e he
      simp only [List.length_cons]; omega
    | zero =>
      simp only [runes, List.mem_cons] at he
      rcases he with rfl | he
      · simp
      · have := ih _ (i + 1) e he
        simp only [List.length_cons]; omega

theorem encode_length (r : Nat) : 1 ≤ (encodeRune r).length := by
  unfold encodeRune; split
  · simp
  · split
    · simp
    · split <;> simp

theorem upLoop_some (u : Uni) (rs : List (Nat × Nat)) : ∀ (p n : Nat) (s : Bytes), (∀ e ∈ rs, e.1 < n) → n ≤ s.length →
    ∃ t, upLoop u rs p s = some t := by
  induction rs with
  | nil => intro p n s _ _; exact ⟨s, rfl⟩
  | cons e rs ih =>
    intro p n s he hn
    obtain ⟨i, r⟩ := e
    have hi : i < n := he (i, r) (by simp)
    simp only [upLoop]
    split
    · exact ih r n s (fun e h => he e (List.mem_cons_of_mem _ h)) hn
    · have hr : replaceAt u s i r = some (s.take i ++ encodeRune (u.upper r) ++ s.drop (i + 1)) := by
        unfold replaceAt; rw [if_pos (by omega)]
      simp only [hr]
      apply ih r n _ (fun e h => he e (List.mem_cons_of_mem _ h))
      have := encode_length (u.upper r)
      simp only [List.length_append, List.length_take, List.length_drop]
      omega

end Verif.Naming
