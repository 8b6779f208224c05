import Verif.Model.ChannelAddr
import Verif.Proofs.Json
import Verif.Props.Naming

/-! # Evaluating generated addresses -/

namespace Verif.GoLit

open Json (hexVal hexDigit hexVal_hexDigit prepend uEscape)
open AddProps (goEsc goQuote hex2)

theorem readStr_close (s : Str) : readStr ('"' :: s) = some ([], s) := by
  rw [readStr.eq_def]; simp

theorem readStr_plain (c : Char) (s : Str) (h1 : c ≠ '"') (h2 : c ≠ '\n') (h3 : c ≠ '\\') :
    readStr (c :: s) = prepend c (readStr s) := by
  rw [readStr.eq_def]; simp only [h1, h2, h3, if_false]

theorem readStr_x (a b ch : Char) (s : Str) (h : hexChar 0x80 [a, b] = some ch) :
    readStr ('\\' :: 'x' :: a :: b :: s) = prepend ch (readStr s) := by
  rw [readStr.eq_def]; simp [h]

theorem readStr_u (a b c d ch : Char) (s : Str) (h : hexChar 0x110000 [a, b, c, d] = some ch) :
    readStr ('\\' :: 'u' :: a :: b :: c :: d :: s) = prepend ch (readStr s) := by
  rw [readStr.eq_def]; simp [h]

theorem readStr_U (a b c d e f g h' ch : Char) (s : Str) (h : hexChar 0x110000 [a, b, c, d, e, f, g, h'] = some ch) :
    readStr ('\\' :: 'U' :: a :: b :: c :: d :: e :: f :: g :: h' :: s) = prepend ch (readStr s) := by
  rw [readStr.eq_def]; simp [h]

theorem readStr_esc (e ch : Char) (s : Str) (hx : e ≠ 'x') (hu : e ≠ 'u') (hU : e ≠ 'U') (h : unescape e = some ch) :
    readStr ('\\' :: e :: s) = prepend ch (readStr s) := by
  rw [readStr.eq_def]
  simp only [show ('\\' = '"') = False by simp, show ('\\' = '\n') = False by simp, if_false, if_true]
  split
  · rename_i heq; simp only [List.cons.injEq] at heq; exact absurd heq.1 hx
  · rename_i heq; simp only [List.cons.injEq] at heq; exact absurd heq.1 hu
  · rename_i heq; simp only [List.cons.injEq] at heq; exact absurd heq.1 hU
  · rename_i heq; simp only [List.cons.injEq] at heq
    obtain ⟨rfl, rfl⟩ := heq
    simp [h]
  · rename_i heq; cases heq

theorem char_valid (c : Char) : c.toNat.isValidChar := c.valid

theorem toChar_toNat (c : Char) : toChar c.toNat = some c := by
  unfold toChar
  rw [if_pos (char_valid c), Char.ofNat_toNat]

theorem char_lt (c : Char) : c.toNat < 0x110000 := by
  have := char_valid c
  unfold Nat.isValidChar at this
  omega

theorem hexChar_of (max : Nat) (ds : Str) (c : Char) (h : hexNum 0 ds = some c.toNat) (hm : c.toNat < max) :
    hexChar max ds = some c := by
  unfold hexChar
  rw [h]
  simp only [if_pos hm, toChar_toNat]

theorem hexNum_digit (n d : Nat) (s : Str) (hd : d < 16) : hexNum n (hexDigit d :: s) = hexNum (n * 16 + d) s := by
  rw [hexNum, hexVal_hexDigit d hd]

theorem readStr_goEsc (isPrint : Char → Bool) (c : Char) (t : Str) :
    readStr (goEsc isPrint c ++ t) = prepend c (readStr t) := by
  unfold goEsc
  by_cases hq : c = '"'
  · rw [if_pos hq]; subst hq; exact readStr_esc _ _ t (by decide) (by decide) (by decide) (by decide)
  rw [if_neg hq]
  by_cases hb : c = '\\'
  · rw [if_pos hb]; subst hb; exact readStr_esc _ _ t (by decide) (by decide) (by decide) (by decide)
  rw [if_neg hb]
  have hch : ∀ n, c.toNat = n → c = Char.ofNat n := fun n h => by rw [← h, Char.ofNat_toNat]
  by_cases hnp : (0x20 ≤ c.toNat ∧ c.toNat < 0x7f) ∨ (0x80 ≤ c.toNat ∧ isPrint c = true)
  · rw [if_pos hnp]
    refine readStr_plain c t hq ?_ hb
    rintro rfl
    revert hnp; simp
  rw [if_neg hnp]
  by_cases n7 : c.toNat = 7
  · rw [if_pos n7]; have hc := hch _ n7; subst hc; exact readStr_esc _ _ t (by decide) (by decide) (by decide) (by decide)
  rw [if_neg n7]
  by_cases n8 : c.toNat = 8
  · rw [if_pos n8]; have hc := hch _ n8; subst hc; exact readStr_esc _ _ t (by decide) (by decide) (by decide) (by decide)
  rw [if_neg n8]
  by_cases n12 : c.toNat = 12
  · rw [if_pos n12]; have hc := hch _ n12; subst hc; exact readStr_esc _ _ t (by decide) (by decide) (by decide) (by decide)
  rw [if_neg n12]
  by_cases n10 : c.toNat = 10
  · rw [if_pos n10]; have hc := hch _ n10; subst hc; exact readStr_esc _ _ t (by decide) (by decide) (by decide) (by decide)
  rw [if_neg n10]
  by_cases n13 : c.toNat = 13
  · rw [if_pos n13]; have hc := hch _ n13; subst hc; exact readStr_esc _ _ t (by decide) (by decide) (by decide) (by decide)
  rw [if_neg n13]
  by_cases n9 : c.toNat = 9
  · rw [if_pos n9]; have hc := hch _ n9; subst hc; exact readStr_esc _ _ t (by decide) (by decide) (by decide) (by decide)
  rw [if_neg n9]
  by_cases n11 : c.toNat = 11
  · rw [if_pos n11]; have hc := hch _ n11; subst hc; exact readStr_esc _ _ t (by decide) (by decide) (by decide) (by decide)
  rw [if_neg n11]
  have hm : ∀ n, n % 16 < 16 := fun n => Nat.mod_lt _ (by omega)
  have hlt := char_lt c
  by_cases hx : c.toNat < 0x20 ∨ c.toNat = 0x7f
  · rw [if_pos hx]
    apply readStr_x
    apply hexChar_of _ _ _ _ (by omega)
    rw [hexNum_digit _ _ _ (hm _), hexNum_digit _ _ _ (hm _), hexNum]
    congr 1; omega
  rw [if_neg hx]
  by_cases hu : c.toNat < 0x10000
  · rw [if_pos hu]
    apply readStr_u
    apply hexChar_of _ _ _ _ (by omega)
    rw [hexNum_digit _ _ _ (hm _), hexNum_digit _ _ _ (hm _), hexNum_digit _ _ _ (hm _), hexNum_digit _ _ _ (hm _), hexNum]
    congr 1; omega
  · rw [if_neg hu]
    apply readStr_U
    apply hexChar_of _ _ _ _ (by omega)
    rw [hexNum_digit _ _ _ (hm _), hexNum_digit _ _ _ (hm _), hexNum_digit _ _ _ (hm _), hexNum_digit _ _ _ (hm _),
      hexNum_digit _ _ _ (hm _), hexNum_digit _ _ _ (hm _), hexNum_digit _ _ _ (hm _), hexNum_digit _ _ _ (hm _), hexNum]
    congr 1; omega

/-- Go reads back what `%q` wrote, for every text. -/
theorem readStr_goQuote (isPrint : Char → Bool) (s rest : Str) :
    readStr (s.flatMap (goEsc isPrint) ++ '"' :: rest) = some (s, rest) := by
  induction s with
  | nil => exact readStr_close rest
  | cons c s ih =>
    rw [List.flatMap_cons, List.append_assoc, readStr_goEsc, ih]
    rfl

end Verif.GoLit

namespace Verif.ChannelAddr

open AddProps (goEsc goQuote)
open Naming (Uni Ascii namify namify_braces C42_valid isAlnum)

/-- The text of tokens. -/
def untok : Tok → Str
  | .lit c => [c]
  | .par s => '{' :: (s ++ ['}'])

theorem flatMap_lit (f : Tok → Str) (g : Char → Str) (h : ∀ c, f (.lit c) = g c) (acc : Str) :
    (acc.map Tok.lit).flatMap f = acc.flatMap g := by
  rw [List.flatMap_map]
  have : (fun c => f (.lit c)) = g := funext h
  rw [this]

theorem flatMap_single (acc : Str) : acc.flatMap (fun c => [c]) = acc := by
  induction acc with
  | nil => rfl
  | cons c acc ih => simp [ih]

theorem untok_tokens (s : Str) : (tokens none s).flatMap untok = s ∧
    ∀ acc, (tokens (some acc) s).flatMap untok = '{' :: (acc ++ s) := by
  induction s with
  | nil =>
    refine ⟨rfl, fun acc => ?_⟩
    simp only [tokens, List.flatMap_cons, untok, List.singleton_append, List.append_nil]
    rw [flatMap_lit untok (fun c => [c]) (fun _ => rfl), flatMap_single]
  | cons c s ih =>
    refine ⟨?_, fun acc => ?_⟩
    · simp only [tokens]
      split
      · rename_i h; subst h; rw [ih.2]; rfl
      · simp [untok, ih.1]
    · simp only [tokens]
      split
      · rename_i h; subst h; simp [untok, ih.1]
      · split
        · rename_i h; subst h
          rw [List.flatMap_append, ih.2, List.flatMap_cons, flatMap_lit untok (fun c => [c]) (fun _ => rfl), flatMap_single]
          simp [untok]
        · rw [ih.2]; simp

/-- Parameters found have no brace. -/
theorem tokens_par (s : Str) : (∀ p, .par p ∈ tokens none s → '{' ∉ p ∧ '}' ∉ p) ∧
    ∀ acc, '{' ∉ acc ∧ '}' ∉ acc → ∀ p, .par p ∈ tokens (some acc) s → '{' ∉ p ∧ '}' ∉ p := by
  induction s with
  | nil =>
    refine ⟨by simp [tokens], fun acc _ p hp => ?_⟩
    simp [tokens] at hp
  | cons c s ih =>
    refine ⟨?_, fun acc hacc => ?_⟩
    · intro p hp
      simp only [tokens] at hp
      split at hp
      · exact ih.2 [] (by simp) p hp
      · simp only [List.mem_cons, reduceCtorEq, false_or] at hp
        exact ih.1 p hp
    · intro p hp
      simp only [tokens] at hp
      split at hp
      · simp only [List.mem_cons, Tok.par.injEq] at hp
        rcases hp with rfl | hp
        · exact hacc
        · exact ih.1 p hp
      · rename_i h1
        split at hp
        · simp only [List.mem_append, List.mem_cons, reduceCtorEq, List.mem_map, and_false, exists_const, or_false, false_or] at hp
          exact ih.2 [] (by simp) p hp
        · rename_i h2
          apply ih.2 (acc ++ [c]) _ p hp
          simp only [List.mem_append, List.mem_cons, List.not_mem_nil, or_false, not_or]
          exact ⟨⟨hacc.1, fun h => h2 h.symm⟩, ⟨hacc.2, fun h => h1 h.symm⟩⟩

/-- The text without `%` has no `%` token. -/
theorem tokens_no_percent (s : Str) (h : '%' ∉ s) : (.lit '%') ∉ tokens none s := by
  intro hm
  have hu := (untok_tokens s).1
  apply h
  rw [← hu, List.mem_flatMap]
  exact ⟨_, hm, by simp [untok]⟩

theorem utf8_ascii (s : Str) (h : ∀ c ∈ s, c.toNat < 128) : utf8 s = s.map Char.toNat ∧ Ascii (s.map Char.toNat) := by
  constructor
  · unfold utf8
    induction s with
    | nil => rfl
    | cons c s ih =>
      rw [List.flatMap_cons, ih (fun d hd => h d (List.mem_cons_of_mem _ hd)), Naming.encodeRune, if_pos (h c (by simp))]
      rfl
  · intro b hb
    rw [List.mem_map] at hb
    obtain ⟨c, hc, rfl⟩ := hb
    exact h c hc

theorem nameOf_braces (u : Uni) (s : Str) (h : ∀ c ∈ s, c.toNat < 128) :
    nameOf u ('{' :: (s ++ ['}'])) = nameOf u s := by
  unfold nameOf
  obtain ⟨h1, h2⟩ := utf8_ascii s h
  obtain ⟨h3, _⟩ := utf8_ascii ('{' :: (s ++ ['}'])) (by
    intro c hc
    simp only [List.mem_cons, List.mem_append, List.not_mem_nil, or_false] at hc
    rcases hc with rfl | hc | rfl
    · decide
    · exact h c hc
    · decide)
  rw [h1, h3]
  have e : List.map Char.toNat ('{' :: (s ++ ['}'])) = 123 :: (s.map Char.toNat ++ [125]) := by simp
  rw [e, namify_braces u _ h2]

/-- A name contains no comma and is defined. -/
theorem nameOf_some (u : Uni) (s : Str) : ∃ n, nameOf u s = some n ∧ ',' ∉ n := by
  obtain ⟨r, h1, h2, _⟩ := C42_valid u (utf8 s)
  refine ⟨r.map Char.ofNat, by simp [nameOf, h1], ?_⟩
  intro hm
  rw [List.mem_map] at hm
  obtain ⟨b, hb, hc⟩ := hm
  have ha := h2 b hb
  have hlt := Naming.isAlnum_lt ha
  have key : ∀ b : Fin 128, isAlnum b = true → Char.ofNat b ≠ ',' := by decide
  exact key ⟨b, hlt⟩ ha hc

end Verif.ChannelAddr
