import Verif.Proofs.Decode
import Verif.Props.Validations
import Verif.Spec.Validator

/-!
# Lemmas on running validation tags
-/

namespace Verif.Validator

open Decode (natOf natOf_append natOf_toDigits)

/-! ## Numbers -/

/-- Digits only. -/
def AllDigits (s : Str) : Prop := ∀ c ∈ s, c.isDigit = true

theorem allDigits_toDigits (n : Nat) : AllDigits (Nat.toDigits 10 n) :=
  fun _ h => Nat.isDigit_of_mem_toDigits (by decide) (by decide) h

theorem allDigits_not_mem {s : Str} (h : AllDigits s) {c : Char} (hc : c.isDigit = false) : c ∉ s :=
  fun hm => by rw [h c hm] at hc; cases hc

theorem sign_of_not {s : Str} (h1 : '-' ∉ s) (h2 : '+' ∉ s) : sign s = (false, s) := by
  unfold sign
  split
  · exact absurd List.mem_cons_self h1
  · exact absurd List.mem_cons_self h2
  · rfl

theorem sign_digits {c : Char} {s : Str} (h : c.isDigit = true) : sign (c :: s) = (false, c :: s) := by
  unfold sign
  split
  · rename_i h'; cases h'; cases h
  · rename_i h'; cases h'; cases h
  · rfl

theorem digits_toDigits (n : Nat) : digits (Nat.toDigits 10 n) = some n := by
  unfold digits
  rw [if_neg Nat.toDigits_ne_nil, natOf_toDigits]

theorem natOf_none {s : Str} {c : Char} (hc : Json.isDigit c = false) (h : c ∈ s) (a : Nat) : natOf a s = none := by
  induction s generalizing a with
  | nil => cases h
  | cons b s ih =>
    unfold natOf
    split
    · rename_i hb
      rcases List.mem_cons.mp h with rfl | h
      · rw [hc] at hb; cases hb
      · exact ih h _
    · rfl

theorem digits_none {s : Str} {c : Char} (hc : Json.isDigit c = false) (h : c ∈ s) : digits s = none := by
  unfold digits
  split
  · rfl
  · exact natOf_none hc h 0

theorem cut_not_mem {c : Char} {s : Str} (h : c ∉ s) : cut c s = (s, none) := by
  induction s with
  | nil => rfl
  | cons a s ih =>
    simp only [List.mem_cons, not_or] at h
    simp [cut, Ne.symm h.1, ih h.2]

theorem cut_append {c : Char} {s t : Str} (h : c ∉ s) : cut c (s ++ c :: t) = (s, some t) := by
  induction s with
  | nil => simp [cut]
  | cons a s ih =>
    simp only [List.mem_cons, not_or] at h
    simp [cut, Ne.symm h.1, ih h.2]

theorem stripZeros_spec (s : Str) : ∃ k, s = stripZeros s ++ List.replicate k '0' := by
  have key : ∀ t : Str, ∃ k, t = List.replicate k '0' ++ t.dropWhile (· == '0') := by
    intro t
    induction t with
    | nil => exact ⟨0, rfl⟩
    | cons c t ih =>
      by_cases h : c = '0'
      · obtain ⟨k, hk⟩ := ih
        refine ⟨k + 1, ?_⟩
        subst h
        simp only [List.dropWhile_cons, beq_self_eq_true, if_true, List.replicate_succ, List.cons_append]
        rw [← hk]
      · exact ⟨0, by simp [h]⟩
  obtain ⟨k, hk⟩ := key s.reverse
  refine ⟨k, ?_⟩
  have := congrArg List.reverse hk
  rw [List.reverse_reverse, List.reverse_append, List.reverse_replicate] at this
  exact this

theorem natOf_zeros (m k : Nat) : natOf m (List.replicate k '0') = some (m * 10 ^ k) := by
  induction k generalizing m with
  | zero => simp [natOf]
  | succ k ih =>
    have h : natOf m (List.replicate (k + 1) '0') = natOf (m * 10) (List.replicate k '0') := rfl
    rw [h, ih, Nat.pow_succ, Nat.mul_assoc, Nat.mul_comm 10]

/-- The scientific notation of a large number. -/
theorem gNat_large {n : Nat} (h : 1000000 ≤ n) : ∃ c frac m k,
    Nat.toDigits 10 n = c :: frac ++ List.replicate k '0' ∧ digits (c :: frac) = some m ∧ n = m * 10 ^ k ∧
    gNat n = c :: ((if frac = [] then [] else '.' :: frac) ++ 'e' :: '+' :: twoDigits (frac.length + k)) := by
  have hl : ¬ (Nat.toDigits 10 n).length ≤ 6 := by
    rw [Nat.length_toDigits_le_iff (by decide) (by decide)]
    omega
  obtain ⟨k, hk⟩ := stripZeros_spec (Nat.toDigits 10 n)
  have hn := natOf_toDigits n
  cases hs : stripZeros (Nat.toDigits 10 n) with
  | nil =>
    rw [hs] at hk
    rw [hk, List.nil_append, natOf_zeros] at hn
    simp at hn
    omega
  | cons c frac =>
    rw [hs] at hk
    rw [hk, natOf_append] at hn
    cases hm : natOf 0 (c :: frac) with
    | none => rw [hm] at hn; cases hn
    | some m =>
      rw [hm] at hn
      simp only [Option.bind_some, natOf_zeros, Option.some.injEq] at hn
      refine ⟨c, frac, m, k, hk, ?_, hn.symm, ?_⟩
      · unfold digits; rw [if_neg (by simp), hm]
      · unfold gNat
        simp only [hs, if_neg hl]
        have : (Nat.toDigits 10 n).length - 1 = frac.length + k := by
          rw [hk]; simp
        rw [this]

theorem gNat_small {n : Nat} (h : n < 1000000) : gNat n = Nat.toDigits 10 n := by
  have hl : (Nat.toDigits 10 n).length ≤ 6 := by
    rw [Nat.length_toDigits_le_iff (by decide) (by decide)]
    omega
  unfold gNat
  simp only [if_pos hl]

theorem gNat_head (n : Nat) : ∃ c s, gNat n = c :: s ∧ c.isDigit = true := by
  by_cases h : n < 1000000
  · rw [gNat_small h]
    cases hd : Nat.toDigits 10 n with
    | nil => exact absurd hd Nat.toDigits_ne_nil
    | cons c s => exact ⟨c, s, rfl, allDigits_toDigits n c (by rw [hd]; exact List.mem_cons_self)⟩
  · obtain ⟨c, frac, m, k, h1, _, _, h4⟩ := gNat_large (n := n) (by omega)
    exact ⟨c, _, h4, allDigits_toDigits n c (by rw [h1]; simp)⟩

theorem sign_gNat (n : Nat) : sign (gNat n) = (false, gNat n) := by
  obtain ⟨c, s, h, hc⟩ := gNat_head n
  rw [h]; exact sign_digits hc

/-- Numbers under a million are read back by `ParseInt`. -/
theorem parseInt_small {b : Int} (h : b.natAbs < 1000000) : parseInt (gPrint b) = some b := by
  cases b with
  | ofNat n =>
    have h' : n < 1000000 := h
    have e : digits (gNat n) = some n := by rw [gNat_small h', digits_toDigits]
    simp only [parseInt, gPrint, sign_gNat, e]
    rw [if_neg (by simp), if_pos (by omega)]
    rfl
  | negSucc n =>
    have h' : n + 1 < 1000000 := h
    have e : digits (gNat (n + 1)) = some (n + 1) := by rw [gNat_small h', digits_toDigits]
    simp only [parseInt, gPrint, sign, e]
    rw [if_pos trivial, if_pos (by omega)]
    rfl

/-- From a million on, `ParseInt` fails. -/
theorem parseInt_large {b : Int} (h : 1000000 ≤ b.natAbs) : parseInt (gPrint b) = none := by
  have key : ∀ n, 1000000 ≤ n → digits (gNat n) = none := by
    intro n hn
    obtain ⟨c, frac, m, k, _, _, _, h4⟩ := gNat_large hn
    exact digits_none (c := 'e') (by decide) (by rw [h4]; simp)
  cases b with
  | ofNat n => simp only [parseInt, gPrint, sign_gNat, key n h]
  | negSucc n => simp only [parseInt, gPrint, sign, key (n + 1) h]

theorem exponent_twoDigits (n : Nat) : exponent (some ('+' :: twoDigits n)) = some (n : Int) := by
  have : digits (twoDigits n) = some n := by
    unfold twoDigits
    split
    · unfold digits
      rw [if_neg (by simp)]
      have h : natOf 0 ('0' :: Nat.toDigits 10 n) = natOf 0 (Nat.toDigits 10 n) := rfl
      rw [h, natOf_toDigits]
    · exact digits_toDigits n
  simp [exponent, sign, this]

theorem parseFloat_gNat (n : Nat) (neg : Bool) (s : Str) (hs : sign s = (neg, gNat n)) :
    parseFloat s = some (if neg then -(n : Rat) else (n : Rat)) := by
  by_cases h : n < 1000000
  · have e1 : cut 'e' (gNat n) = (Nat.toDigits 10 n, none) := by
      rw [gNat_small h]; exact cut_not_mem (allDigits_not_mem (allDigits_toDigits n) (by decide))
    have e2 : cut '.' (Nat.toDigits 10 n) = (Nat.toDigits 10 n, none) :=
      cut_not_mem (allDigits_not_mem (allDigits_toDigits n) (by decide))
    simp [parseFloat, hs, e1, e2, digits_toDigits, exponent, fraction]
  · obtain ⟨c, frac, m, k, h1, h2, h3, h4⟩ := gNat_large (n := n) (by omega)
    have hd : AllDigits (c :: frac) := fun x hx => allDigits_toDigits n x (by rw [h1]; exact List.mem_append_left _ hx)
    have hc : c.isDigit = true := hd c List.mem_cons_self
    have hf : AllDigits frac := fun x hx => hd x (List.mem_cons_of_mem _ hx)
    have e1 : cut 'e' (gNat n) = (c :: (if frac = [] then [] else '.' :: frac), some ('+' :: twoDigits (frac.length + k))) := by
      rw [h4]
      refine cut_append (s := c :: (if frac = [] then [] else '.' :: frac)) ?_
      intro hm
      rcases List.mem_cons.mp hm with rfl | hm
      · cases hc
      · split at hm
        · cases hm
        · rcases List.mem_cons.mp hm with hm | hm
          · cases hm
          · exact allDigits_not_mem hf (by decide) hm
    have e2 : cut '.' (c :: (if frac = [] then [] else '.' :: frac)) =
        ([c], if frac = [] then none else some frac) := by
      have hc' : '.' ∉ [c] := by
        intro hm
        rw [List.mem_singleton] at hm
        subst hm; cases hc
      split
      · rw [cut_not_mem hc']
      · exact cut_append (s := [c]) hc'
    have e3 : fraction (if frac = [] then none else some frac) = frac := by
      split
      · rename_i hf; rw [hf]; rfl
      · rfl
    have hr : (m : Rat) * (10 : Rat) ^ (((frac.length + k : Nat) : Int) - (frac.length : Int)) = (n : Rat) := by
      have : ((frac.length + k : Nat) : Int) - (frac.length : Int) = (k : Int) := by omega
      rw [this, Rat.zpow_natCast, h3, Rat.natCast_mul, Rat.natCast_pow]
      rfl
    simp only [parseFloat, hs, e1, e2, e3]
    rw [List.singleton_append, h2, exponent_twoDigits]
    simp only [hr]

/-- Bounds are read back by `ParseFloat`, however large. -/
theorem parseFloat_gPrint (b : Int) : parseFloat (gPrint b) = some (b : Rat) := by
  cases b with
  | ofNat n =>
    rw [gPrint, parseFloat_gNat n false _ (sign_gNat n)]
    rfl
  | negSucc n =>
    rw [gPrint, parseFloat_gNat (n + 1) true _ rfl]
    simp only [if_true]
    congr 1

/-! ## Texts of tags -/

open Validations (V AnyV Dir validateTag isFieldPointer Printable Plain directives core ifDefined enumDirs constDirs)

theorem mem_gNat {n : Nat} {c : Char} (h : c ∈ gNat n) : c.isDigit = true ∨ c ∈ ['.', 'e', '+'] := by
  have ht : ∀ k, c ∈ twoDigits k → c.isDigit = true := by
    intro k hk
    unfold twoDigits at hk
    split at hk
    · rcases List.mem_cons.mp hk with rfl | hk
      · rfl
      · exact allDigits_toDigits _ c hk
    · exact allDigits_toDigits _ c hk
  by_cases hn : n < 1000000
  · rw [gNat_small hn] at h
    exact .inl (allDigits_toDigits n c h)
  · obtain ⟨a, frac, m, k, h1, _, _, h4⟩ := gNat_large (n := n) (by omega)
    have hd : ∀ x ∈ a :: frac, x.isDigit = true := fun x hx => allDigits_toDigits n x (by rw [h1]; exact List.mem_append_left _ hx)
    rw [h4] at h
    rcases List.mem_cons.mp h with rfl | h
    · exact .inl (hd _ List.mem_cons_self)
    · rcases List.mem_append.mp h with h | h
      · split at h
        · cases h
        · rcases List.mem_cons.mp h with rfl | h
          · exact .inr (by simp)
          · exact .inl (hd _ (List.mem_cons_of_mem _ h))
      · rcases List.mem_cons.mp h with rfl | h
        · exact .inr (by simp)
        · rcases List.mem_cons.mp h with rfl | h
          · exact .inr (by simp)
          · exact .inl (ht _ h)

theorem mem_gPrint {b : Int} {c : Char} (h : c ∈ gPrint b) : c.isDigit = true ∨ c ∈ ['-', '.', 'e', '+'] := by
  cases b with
  | ofNat n => exact (mem_gNat h).imp id (List.mem_cons_of_mem _)
  | negSucc n =>
    rcases List.mem_cons.mp h with rfl | h
    · exact .inr List.mem_cons_self
    · exact (mem_gNat h).imp id (List.mem_cons_of_mem _)

theorem gPrint_not_mem {b : Int} {c : Char} (h1 : c.isDigit = false) (h2 : c ∉ ['-', '.', 'e', '+']) : c ∉ gPrint b := by
  intro h
  rcases mem_gPrint h with h | h
  · rw [h1] at h; cases h
  · exact h2 h

theorem noHex_of_not_mem {s : Str} (h : 'x' ∉ s) : noHex s = true := by
  induction s with
  | nil => rfl
  | cons c s ih =>
    unfold noHex
    split
    · rfl
    · rename_i heq; cases heq; simp at h
    · rename_i heq; cases heq; exact ih (fun hm => h (List.mem_cons_of_mem _ hm))

theorem unescape_noHex {s : Str} (h : noHex s = true) : unescape s = s := by
  induction s with
  | nil => rfl
  | cons c s ih =>
    unfold unescape
    split
    · rename_i heq; cases heq; cases h
    · rename_i heq; cases heq; cases h
    · rename_i heq
      cases heq
      congr 1
      refine ih ?_
      unfold noHex at h
      split at h
      · rename_i heq; cases heq
      · cases h
      · rename_i heq; cases heq; exact h
    · rename_i heq; cases heq

theorem noHex_cons {c : Char} {s : Str} (hc : c ≠ '0') (h : noHex s = true) : noHex (c :: s) = true := by
  unfold noHex
  split
  · rfl
  · rename_i heq; cases heq; exact absurd rfl hc
  · rename_i heq; cases heq; exact h

theorem noHex_append {s t : Str} (hs : noHex s = true) (ht : noHex t = true) (hx : ∀ c u, t = c :: u → c ≠ 'x') :
    noHex (s ++ t) = true := by
  induction s with
  | nil => exact ht
  | cons c s ih =>
    have hs' : noHex s = true := by
      unfold noHex at hs
      split at hs
      · rename_i heq; cases heq
      · cases hs
      · rename_i heq; cases heq; exact hs
    have ih := ih hs'
    rw [List.cons_append]
    unfold noHex
    split
    · rfl
    · rename_i r heq
      simp only [List.cons.injEq] at heq
      obtain ⟨rfl, heq⟩ := heq
      cases s with
      | nil => exact absurd rfl (hx 'x' r heq)
      | cons d s => rw [List.cons_append] at heq; cases heq; cases hs
    · rename_i heq; cases heq; exact ih

theorem noHex_join (vals : List Str) (h : ∀ s ∈ vals, noHex s = true) :
    noHex (Str.join ' ' (vals.map (fun s => '\'' :: (s ++ ['\''])))) = true := by
  have hq : ∀ s : Str, noHex s = true → noHex ('\'' :: (s ++ ['\''])) = true := fun s hs =>
    noHex_cons (by decide) (noHex_append hs rfl (fun c u e => by cases e; decide))
  induction vals with
  | nil => rfl
  | cons s vals ih =>
    have ih := ih (fun x hx => h x (List.mem_cons_of_mem _ hx))
    have h1 := hq s (h s List.mem_cons_self)
    cases vals with
    | nil => simpa [Str.join] using h1
    | cons t vals =>
      have e : Str.join ' ' ((s :: t :: vals).map (fun s => '\'' :: (s ++ ['\'']))) =
          ('\'' :: (s ++ ['\''])) ++ (' ' :: Str.join ' ' ((t :: vals).map (fun s => '\'' :: (s ++ ['\''])))) := by
        simp [Str.join]
      rw [e]
      exact noHex_append h1 (noHex_cons (by decide) ih) (fun c u e => by cases e; decide)

/-- The constraints can be written in a tag. -/
structure Writable (v : V) : Prop where
  enum : ∀ s, AnyV.str s ∈ v.enum → TagText s
  const : ∀ s, v.const = some (.str s) → TagText s

theorem Writable.printable {v : V} (h : Writable v) : Printable gPrint v where
  num := fun _ => ⟨gPrint_not_mem (by decide) (by decide), gPrint_not_mem (by decide) (by decide)⟩
  enum := fun s hs => ⟨⟨(h.enum s hs).1, (h.enum s hs).2.1⟩, (h.enum s hs).2.2.1⟩
  const := fun s hs => ⟨(h.const s hs).1, (h.const s hs).2.1⟩

/-- A directive as the validator reads it. -/
def parsed : Dir → Str × Str
  | .required => (kRequired, [])
  | .omitempty => (kOmitempty, [])
  | .num name value => (name, gPrint value)
  | .unique => (kUnique, [])
  | .oneof values => (kOneof, Str.join ' ' (values.map (fun s => '\'' :: (s ++ ['\'']))))
  | .eq value => (kEq, value)

/-- The names of numeric directives. -/
def numNames : List Str := [kMin, kMax, kGte, kLte, kGt, kLt]

/-- Directives the generator writes. -/
def Good : Dir → Prop
  | .num name _ => name ∈ numNames
  | .oneof vals => ∀ s ∈ vals, TagText s
  | .eq s => TagText s
  | _ => True

theorem directive_eq {name p : Str} (hn : '=' ∉ name) (hp : noHex p = true) : directive (name ++ '=' :: p) = (name, p) := by
  unfold directive
  rw [cut_append hn]
  simp only [unescape_noHex hp]

theorem directive_name {name : Str} (hn : '=' ∉ name) : directive name = (name, []) := by
  unfold directive
  rw [cut_not_mem hn]

theorem directive_print {d : Dir} (h : Good d) : directive (d.print gPrint) = parsed d := by
  cases d with
  | required => exact directive_name (name := kRequired) (by decide)
  | omitempty => exact directive_name (name := kOmitempty) (by decide)
  | unique => exact directive_name (name := kUnique) (by decide)
  | num name value =>
    have hn : '=' ∉ name := by
      have : ∀ n ∈ numNames, '=' ∉ n := by decide
      exact this name h
    exact directive_eq hn (noHex_of_not_mem (gPrint_not_mem (by decide) (by decide)))
  | oneof vals =>
    exact directive_eq (name := kOneof) (by decide) (noHex_join vals (fun s hs => (h s hs).2.2.2.2.2.2.2))
  | eq s => exact directive_eq (name := kEq) (by decide) h.2.2.2.2.2.2.2

theorem mem_ifDefined {name : Str} {n : Int} {d : Dir} (h : d ∈ ifDefined name n) : d = .num name n ∧ n ≠ 0 := by
  unfold ifDefined at h
  split at h
  · exact ⟨List.mem_singleton.mp h, by assumption⟩
  · cases h

theorem good_core {v : V} (h : Writable v) : ∀ d ∈ core v, Good d := by
  intro d hd
  have hnum : ∀ (name : Str) (n : Int), name ∈ numNames → d ∈ ifDefined name n → Good d := by
    intro name n hn h
    obtain ⟨rfl, _⟩ := mem_ifDefined h
    exact hn
  unfold core at hd
  simp only [List.mem_append] at hd
  rcases hd with (((((((hd | hd) | hd) | hd) | hd) | hd) | hd) | hd) | hd
  · exact hnum kMin _ (by decide) hd
  · exact hnum kMax _ (by decide) hd
  · exact hnum kGte _ (by decide) hd
  · exact hnum kLte _ (by decide) hd
  · exact hnum kGt _ (by decide) hd
  · exact hnum kLt _ (by decide) hd
  · split at hd
    · rw [List.mem_singleton] at hd; subst hd; trivial
    · cases hd
  · have : d = .oneof (v.enum.filterMap Validations.asStr) := by unfold enumDirs at hd; grind
    subst this
    intro s hs
    rw [List.mem_filterMap] at hs
    obtain ⟨a, ha, has⟩ := hs
    cases a with
    | other i => cases has
    | str s' => cases has; exact h.enum s ha
  · unfold constDirs at hd
    split at hd
    · rename_i s hs
      rw [List.mem_singleton] at hd; subst hd
      exact h.const s hs
    · cases hd

theorem good_directives {v : V} (h : Writable v) (p a : Bool) : ∀ d ∈ directives v p a, Good d := by
  intro d hd
  rcases Validations.directives_mem v p a d hd with rfl | rfl | hd
  · trivial
  · trivial
  · exact good_core h d hd

theorem known_good {d : Dir} (h : Good d) : known (parsed d).1 = true := by
  have : ∀ n ∈ numNames, known n = true := by decide
  cases d with
  | num name value => exact this name h
  | required => decide
  | omitempty => decide
  | unique => decide
  | oneof vals => show known kOneof = true; decide
  | eq s => show known kEq = true; decide

/-- Reading the tag gives back the directives. -/
theorem parseTag_validateTag {v : V} (h : Writable v) (p a : Bool) :
    parseTag (validateTag gPrint v p a) = (directives v p a).map (fun d => [parsed d]) := by
  have hpl := Validations.directives_plain gPrint v h.printable p a
  have hg := good_directives h p a
  unfold parseTag
  by_cases hd : directives v p a = []
  · have : validateTag gPrint v p a = [] := by unfold validateTag; rw [hd]; rfl
    rw [if_pos this, hd]; rfl
  · have hs : Str.split ',' (validateTag gPrint v p a) = (directives v p a).map (Dir.print gPrint) := by
      unfold validateTag
      rw [Str.split_join ',']
      · simpa using hd
      · intro t ht
        rw [List.mem_map] at ht
        obtain ⟨d', hd', rfl⟩ := ht
        exact (hpl d' hd').1
    have hne : validateTag gPrint v p a ≠ [] := by
      intro h0
      rw [h0] at hs
      cases hds : directives v p a with
      | nil => exact hd hds
      | cons x xs =>
        rw [hds] at hs
        have hx : [] = x.print gPrint := by
          have : Str.split ',' [] = [[]] := by decide
          rw [this] at hs
          simp only [List.map_cons, List.cons.injEq] at hs
          exact hs.1
        have hp := directive_print (hg x (by rw [hds]; exact List.mem_cons_self))
        rw [← hx] at hp
        have hk := known_good (hg x (by rw [hds]; exact List.mem_cons_self))
        rw [← hp] at hk
        revert hk
        decide
    rw [if_neg hne, hs, List.map_map]
    apply List.map_congr_left
    intro d hd
    simp only [Function.comp, Str.split_single '|' _ (hpl d hd).2, List.map_cons, List.map_nil]
    rw [directive_print (hg d hd)]

/-! ## Running directives -/

theorem runDir_required (s : Sch) (p : Bool) (x : GoV) (t : Str) : runDir s p x (kRequired, t) = .of (hasValue p x) := by
  unfold runDir; dsimp only; rw [if_pos rfl]

theorem runDir_min (s : Sch) (p : Bool) (x : GoV) (t : Str) :
    runDir s p x (kMin, t) = compare (fun a b => decide (b ≤ a)) (fun a b => decide (b ≤ a)) t x := by
  unfold runDir; dsimp only; rw [if_neg (by decide), if_pos rfl]

theorem runDir_max (s : Sch) (p : Bool) (x : GoV) (t : Str) :
    runDir s p x (kMax, t) = compare (fun a b => decide (a ≤ b)) (fun a b => decide (a ≤ b)) t x := by
  unfold runDir; dsimp only; rw [if_neg (by decide), if_neg (by decide), if_pos rfl]

theorem runDir_gte (s : Sch) (p : Bool) (x : GoV) (t : Str) :
    runDir s p x (kGte, t) = compare (fun a b => decide (b ≤ a)) (fun a b => decide (b ≤ a)) t x := by
  unfold runDir; dsimp only; rw [if_neg (by decide), if_neg (by decide), if_neg (by decide), if_pos rfl]

theorem runDir_lte (s : Sch) (p : Bool) (x : GoV) (t : Str) :
    runDir s p x (kLte, t) = compare (fun a b => decide (a ≤ b)) (fun a b => decide (a ≤ b)) t x := by
  unfold runDir; dsimp only; rw [if_neg (by decide), if_neg (by decide), if_neg (by decide), if_neg (by decide), if_pos rfl]

theorem runDir_gt (s : Sch) (p : Bool) (x : GoV) (t : Str) :
    runDir s p x (kGt, t) = compare (fun a b => decide (b < a)) (fun a b => decide (b < a)) t x := by
  unfold runDir
  dsimp only
  rw [if_neg (by decide), if_neg (by decide), if_neg (by decide), if_neg (by decide), if_neg (by decide), if_pos rfl]

theorem runDir_lt (s : Sch) (p : Bool) (x : GoV) (t : Str) :
    runDir s p x (kLt, t) = compare (fun a b => decide (a < b)) (fun a b => decide (a < b)) t x := by
  unfold runDir
  dsimp only
  rw [if_neg (by decide), if_neg (by decide), if_neg (by decide), if_neg (by decide), if_neg (by decide),
    if_neg (by decide), if_pos rfl]

theorem runDir_unique (s : Sch) (p : Bool) (x : GoV) (t : Str) : runDir s p x (kUnique, t) = runUnique s x := by
  unfold runDir
  dsimp only
  rw [if_neg (by decide), if_neg (by decide), if_neg (by decide), if_neg (by decide), if_neg (by decide),
    if_neg (by decide), if_neg (by decide), if_pos rfl]

theorem runDir_oneof (s : Sch) (p : Bool) (x : GoV) (t : Str) : runDir s p x (kOneof, t) = runOneof t x := by
  unfold runDir
  dsimp only
  rw [if_neg (by decide), if_neg (by decide), if_neg (by decide), if_neg (by decide), if_neg (by decide),
    if_neg (by decide), if_neg (by decide), if_neg (by decide), if_pos rfl]

theorem runDir_eq (s : Sch) (p : Bool) (x : GoV) (t : Str) : runDir s p x (kEq, t) = runEq t x := by
  unfold runDir
  dsimp only
  rw [if_neg (by decide), if_neg (by decide), if_neg (by decide), if_neg (by decide), if_neg (by decide),
    if_neg (by decide), if_neg (by decide), if_neg (by decide), if_neg (by decide), if_pos rfl]

theorem Res.of_pass {b : Bool} : Res.of b = .pass ↔ b = true := by cases b <;> decide
theorem Res.of_ne_panic (b : Bool) : Res.of b ≠ .panic := by cases b <;> decide

theorem runAlts_single (s : Sch) (p : Bool) (x : GoV) (d : Str × Str) : runAlts s p x [d] = runDir s p x d := by
  unfold runAlts
  cases runDir s p x d <;> rfl

theorem isOmit_parsed {d : Dir} (h : Good d) (hd : d ≠ .omitempty) : isOmit [parsed d] = false := by
  have : ∀ n ∈ numNames, isOmit [(n, [])] = false := by decide
  cases d with
  | omitempty => exact absurd rfl hd
  | num name value => exact this name h
  | required => decide
  | unique => decide
  | oneof vals => show (kOneof == kOmitempty) = false; decide
  | eq s => show (kEq == kOmitempty) = false; decide

theorem loop_dirs (s : Sch) (p : Bool) (y : GoV) (nested : Res) (ds : List Dir) (hg : ∀ d ∈ ds, Good d ∧ d ≠ .omitempty)
    (hp : ∀ d ∈ ds, runDir s p y (parsed d) ≠ .panic) :
    (loop s p y nested (ds.map (fun d => [parsed d])) = .panic → nested = .panic) ∧
    (loop s p y nested (ds.map (fun d => [parsed d])) = .pass ↔
      (∀ d ∈ ds, runDir s p y (parsed d) = .pass) ∧ nested = .pass) := by
  induction ds with
  | nil => simp [loop]
  | cons d ds ih =>
    have ih := ih (fun x hx => hg x (List.mem_cons_of_mem _ hx)) (fun x hx => hp x (List.mem_cons_of_mem _ hx))
    have h1 := hg d List.mem_cons_self
    have h2 := hp d List.mem_cons_self
    simp only [List.map_cons, loop, isOmit_parsed h1.1 h1.2, runAlts_single, Bool.false_eq_true, if_false]
    cases hr : runDir s p y (parsed d) with
    | pass =>
      refine ⟨ih.1, ih.2.trans ?_⟩
      simp [hr]
    | fail => simp [hr]
    | panic => exact absurd hr h2

theorem all_core (P : Dir → Prop) (v : V) : (∀ d ∈ core v, P d) ↔
    (v.minLength ≠ 0 → P (.num kMin v.minLength)) ∧ (v.maxLength ≠ 0 → P (.num kMax v.maxLength)) ∧
    (v.minimum ≠ 0 → P (.num kGte v.minimum)) ∧ (v.maximum ≠ 0 → P (.num kLte v.maximum)) ∧
    (v.exclusiveMinimum ≠ 0 → P (.num kGt v.exclusiveMinimum)) ∧
    (v.exclusiveMaximum ≠ 0 → P (.num kLt v.exclusiveMaximum)) ∧
    (v.uniqueItems = true → P .unique) ∧ (∀ d ∈ enumDirs v, P d) ∧ (∀ d ∈ constDirs v, P d) := by
  have hi : ∀ (name : Str) (n : Int), (∀ d ∈ ifDefined name n, P d) ↔ (n ≠ 0 → P (.num name n)) := by
    intro name n
    unfold ifDefined
    by_cases h : n = 0 <;> simp [h]
  have hu : (∀ d ∈ (if v.uniqueItems = true then [Dir.unique] else []), P d) ↔ (v.uniqueItems = true → P .unique) := by
    by_cases h : v.uniqueItems = true <;> simp [h]
  have hc : (∀ d ∈ core v, P d) ↔
      (∀ d ∈ ifDefined kMin v.minLength, P d) ∧ (∀ d ∈ ifDefined kMax v.maxLength, P d) ∧
      (∀ d ∈ ifDefined kGte v.minimum, P d) ∧ (∀ d ∈ ifDefined kLte v.maximum, P d) ∧
      (∀ d ∈ ifDefined kGt v.exclusiveMinimum, P d) ∧ (∀ d ∈ ifDefined kLt v.exclusiveMaximum, P d) ∧
      (∀ d ∈ (if v.uniqueItems = true then [Dir.unique] else []), P d) ∧ (∀ d ∈ enumDirs v, P d) ∧
      (∀ d ∈ constDirs v, P d) := by
    unfold core
    simp only [List.mem_append, or_imp, forall_and, and_assoc]
    rfl
  rw [hc, hi, hi, hi, hi, hi, hi, hu]
  simp only [ne_eq, Int.natCast_eq_zero]

theorem enumDirs_decoded {d : Decl} (h : ∀ l, d.enum = some l → l ≠ []) :
    enumDirs d.decoded = match d.enum with
      | none => []
      | some l => [.oneof l] := by
  unfold enumDirs Decl.decoded
  cases he : d.enum with
  | none => rfl
  | some l =>
    have hf : (l.map AnyV.str).filterMap Validations.asStr = l := by
      rw [List.filterMap_map]
      have : (Validations.asStr ∘ AnyV.str) = some := by funext s; rfl
      rw [this, List.filterMap_some]
    simp only [hf, List.length_map, if_true]
    rw [if_pos (List.length_pos_iff.mpr (h l he))]

theorem constDirs_decoded (d : Decl) : constDirs d.decoded = match d.const with
      | none => []
      | some s => [.eq s] := by
  unfold constDirs Decl.decoded
  cases d.const <;> rfl

theorem words_eq (o : Option Str) (t : Str) : words o t = Validations.oneofVals o t := by
  induction t generalizing o with
  | nil => cases o <;> rfl
  | cons c t ih => cases o <;> simp only [words, Validations.oneofVals] <;> split <;> simp_all

/-- What running the constraints has to give. -/
def Runs (d : Decl) (s : Sch) (p : Bool) (y : GoV) : Prop :=
  (∀ c ∈ core d.decoded, runDir s p y (parsed c) ≠ .panic) ∧
  ((∀ c ∈ core d.decoded, runDir s p y (parsed c) = .pass) ↔ Meets d y)

theorem runs_str {d : Decl} (h : Fits d .str) (p : Bool) (x : Str) : Runs d .str p (.str x) := by
  obtain ⟨he, h1, h2, h3, h4⟩ := h
  have e1 : d.decoded.minimum = 0 := by rw [he]; rfl
  have e2 : d.decoded.maximum = 0 := by rw [he]; rfl
  have e3 : d.decoded.exclusiveMinimum = 0 := by rw [he]; rfl
  have e4 : d.decoded.exclusiveMaximum = 0 := by rw [he]; rfl
  have e5 : d.decoded.uniqueItems = false := by rw [he]; rfl
  have hmin : ∀ n : Nat, n < 1000000 → runDir .str p (.str x) (parsed (.num kMin n)) = .of (decide ((n : Int) ≤ x.length)) := by
    intro n hn
    simp only [parsed, runDir_min, compare, parseInt_small (b := (n : Int)) hn]
  have hmax : ∀ n : Nat, n < 1000000 → runDir .str p (.str x) (parsed (.num kMax n)) = .of (decide ((x.length : Int) ≤ n)) := by
    intro n hn
    simp only [parsed, runDir_max, compare, parseInt_small (b := (n : Int)) hn]
  have hone : ∀ l : List Str, (∀ s ∈ l, TagText s) → runDir .str p (.str x) (parsed (.oneof l)) = .of (l.contains x) := by
    intro l hl
    simp only [parsed, runDir_oneof, runOneof]
    rw [words_eq, Validations.oneofVals_join l (fun s hs => (hl s hs).2.2.1)]
  have heq : ∀ c : Str, runDir .str p (.str x) (parsed (.eq c)) = .of (x == c) := by
    intro c
    simp only [parsed, runDir_eq, runEq]
  have hlen : d.decoded.minLength = numOf d.minLength := rfl
  have hlen' : d.decoded.maxLength = numOf d.maxLength := rfl
  unfold Runs
  rw [all_core, all_core]
  simp only [e1, e2, e3, e4, e5, hlen, hlen', enumDirs_decoded (fun l hl => (h3 l hl).1), constDirs_decoded]
  simp only [ne_eq, not_true_eq_false, false_implies, Bool.false_eq_true, true_and, Meets]
  constructor
  · refine ⟨?_, ?_, ?_, ?_⟩
    · intro h0
      cases hm : d.minLength with
      | none => rw [hm] at h0; exact absurd rfl h0
      | some n => rw [numOf, hmin n (h1 n hm)]; exact Res.of_ne_panic _
    · intro h0
      cases hm : d.maxLength with
      | none => rw [hm] at h0; exact absurd rfl h0
      | some n => rw [numOf, hmax n (h2 n hm).2]; exact Res.of_ne_panic _
    · cases hm : d.enum with
      | none => intro c hc; cases hc
      | some l =>
        intro c hc
        rw [List.mem_singleton.mp hc, hone l (h3 l hm).2]
        exact Res.of_ne_panic _
    · cases hm : d.const with
      | none => intro c hc; cases hc
      | some s =>
        intro c hc
        rw [List.mem_singleton.mp hc, heq]
        exact Res.of_ne_panic _
  · refine and_congr ?_ (and_congr ?_ (and_congr ?_ ?_))
    · cases hm : d.minLength with
      | none => simp [Holds, numOf]
      | some n =>
        rw [numOf, hmin n (h1 n hm), Res.of_pass]
        simp only [Holds, Option.some.injEq, decide_eq_true_eq]
        constructor
        · rintro h a rfl
          by_cases h0 : n = 0
          · omega
          · have := h h0; omega
        · intro h _; have := h n rfl; omega
    · cases hm : d.maxLength with
      | none => simp [Holds, numOf]
      | some n =>
        rw [numOf, hmax n (h2 n hm).2, Res.of_pass]
        simp only [Holds, Option.some.injEq, decide_eq_true_eq]
        constructor
        · rintro h a rfl
          have := h (h2 n hm).1; omega
        · intro h _; have := h n rfl; omega
    · cases hm : d.enum with
      | none => simp [Holds]
      | some l =>
        simp only [List.mem_singleton, forall_eq, hone l (h3 l hm).2, Res.of_pass, Holds, Option.some.injEq]
        simp
    · cases hm : d.const with
      | none => simp [Holds]
      | some s =>
        simp only [List.mem_singleton, forall_eq, heq, Res.of_pass, Holds, Option.some.injEq]
        simp

/-- A bound that is declared. -/
theorem bound_ok {o : Option Int} {r : Int → Res} {q : Int → Prop} (hne : ∀ b, o = some b → b ≠ 0)
    (hr : ∀ b, o = some b → ∃ c : Bool, r b = .of c ∧ (c = true ↔ q b)) :
    (numOf o ≠ 0 → r (numOf o) ≠ .panic) ∧ ((numOf o ≠ 0 → r (numOf o) = .pass) ↔ Holds o q) := by
  cases o with
  | none => simp [numOf, Holds]
  | some b =>
    obtain ⟨c, hc, hq⟩ := hr b rfl
    rw [numOf, hc]
    refine ⟨fun _ => Res.of_ne_panic _, ?_⟩
    rw [Res.of_pass, hq]
    simp [Holds, hne b rfl]

theorem runs_bounds {d : Decl} {s : Sch} {p : Bool} {y : GoV}
    (he : d = { required := d.required, minimum := d.minimum, maximum := d.maximum, exclusiveMinimum := d.exclusiveMinimum,
                exclusiveMaximum := d.exclusiveMaximum })
    {q1 q2 q3 q4 : Int → Prop}
    (h1 : ∀ b, d.minimum = some b → b ≠ 0) (h2 : ∀ b, d.maximum = some b → b ≠ 0)
    (h3 : ∀ b, d.exclusiveMinimum = some b → b ≠ 0) (h4 : ∀ b, d.exclusiveMaximum = some b → b ≠ 0)
    (r1 : ∀ b, d.minimum = some b → ∃ c : Bool, runDir s p y (kGte, gPrint b) = .of c ∧ (c = true ↔ q1 b))
    (r2 : ∀ b, d.maximum = some b → ∃ c : Bool, runDir s p y (kLte, gPrint b) = .of c ∧ (c = true ↔ q2 b))
    (r3 : ∀ b, d.exclusiveMinimum = some b → ∃ c : Bool, runDir s p y (kGt, gPrint b) = .of c ∧ (c = true ↔ q3 b))
    (r4 : ∀ b, d.exclusiveMaximum = some b → ∃ c : Bool, runDir s p y (kLt, gPrint b) = .of c ∧ (c = true ↔ q4 b)) :
    (∀ c ∈ core d.decoded, runDir s p y (parsed c) ≠ .panic) ∧
    ((∀ c ∈ core d.decoded, runDir s p y (parsed c) = .pass) ↔
      Holds d.minimum q1 ∧ Holds d.maximum q2 ∧ Holds d.exclusiveMinimum q3 ∧ Holds d.exclusiveMaximum q4) := by
  have e1 : d.decoded.minLength = 0 := by rw [he]; rfl
  have e2 : d.decoded.maxLength = 0 := by rw [he]; rfl
  have e3 : d.decoded.uniqueItems = false := by rw [he]; rfl
  have e4 : enumDirs d.decoded = [] := by rw [he]; rfl
  have e5 : constDirs d.decoded = [] := by rw [he]; rfl
  have b1 := bound_ok (r := fun b => runDir s p y (kGte, gPrint b)) h1 r1
  have b2 := bound_ok (r := fun b => runDir s p y (kLte, gPrint b)) h2 r2
  have b3 := bound_ok (r := fun b => runDir s p y (kGt, gPrint b)) h3 r3
  have b4 := bound_ok (r := fun b => runDir s p y (kLt, gPrint b)) h4 r4
  rw [all_core, all_core, e1, e2, e3, e4, e5]
  simp only [ne_eq, not_true_eq_false, false_implies, Bool.false_eq_true, true_and, List.not_mem_nil, implies_true, and_true]
  exact ⟨⟨b1.1, b2.1, b3.1, b4.1⟩, and_congr b1.2 (and_congr b2.2 (and_congr b3.2 b4.2))⟩

theorem runs_int {d : Decl} (h : Fits d .int) (p : Bool) (n : Int) : Runs d .int p (.int n) := by
  obtain ⟨he, h1, h2, h3, h4⟩ := h
  refine runs_bounds he (fun b hb => (h1 b hb).1) (fun b hb => (h2 b hb).1) (fun b hb => (h3 b hb).1)
    (fun b hb => (h4 b hb).1) ?_ ?_ ?_ ?_
  · intro b hb
    refine ⟨decide (b ≤ n), ?_, decide_eq_true_iff⟩
    simp only [runDir_gte, compare, parseInt_small (h1 b hb).2]
  · intro b hb
    refine ⟨decide (n ≤ b), ?_, decide_eq_true_iff⟩
    simp only [runDir_lte, compare, parseInt_small (h2 b hb).2]
  · intro b hb
    refine ⟨decide (b < n), ?_, decide_eq_true_iff⟩
    simp only [runDir_gt, compare, parseInt_small (h3 b hb).2]
  · intro b hb
    refine ⟨decide (n < b), ?_, decide_eq_true_iff⟩
    simp only [runDir_lt, compare, parseInt_small (h4 b hb).2]

theorem runs_num {d : Decl} (h : Fits d .num) (p : Bool) (n : Rat) : Runs d .num p (.flt n) := by
  obtain ⟨he, h1, h2, h3, h4⟩ := h
  refine runs_bounds he (fun b hb => (h1 b hb).1) (fun b hb => (h2 b hb).1) (fun b hb => (h3 b hb).1)
    (fun b hb => (h4 b hb).1) ?_ ?_ ?_ ?_
  · intro b hb
    refine ⟨decide ((b : Rat) ≤ n), ?_, decide_eq_true_iff⟩
    simp only [runDir_gte, compare, parseFloat_gPrint]
  · intro b hb
    refine ⟨decide (n ≤ (b : Rat)), ?_, decide_eq_true_iff⟩
    simp only [runDir_lte, compare, parseFloat_gPrint]
  · intro b hb
    refine ⟨decide ((b : Rat) < n), ?_, decide_eq_true_iff⟩
    simp only [runDir_gt, compare, parseFloat_gPrint]
  · intro b hb
    refine ⟨decide (n < (b : Rat)), ?_, decide_eq_true_iff⟩
    simp only [runDir_lt, compare, parseFloat_gPrint]

theorem free_core {d : Decl} (h : d.Free) : core d.decoded = [] := by
  rcases h with rfl | rfl <;> rfl

theorem free_meets {d : Decl} (h : d.Free) (y : GoV) : Meets d y := by
  rcases h with rfl | rfl <;> unfold Meets <;> split <;> simp [Holds]

theorem runs_free {d : Decl} (h : d.Free) (s : Sch) (p : Bool) (y : GoV) : Runs d s p y := by
  unfold Runs
  rw [free_core h]
  simp [free_meets h y]

/-- Types whose values are compared as JSON values are. -/
def Scalar : Sch → Prop
  | .str | .int | .num | .bool => True
  | _ => False

theorem sameKey_scalar {e : Sch} (he : Scalar e) {a b : GoV} (ha : Typed e a) (hb : Typed e b) : sameKey a b = jsonEq a b := by
  cases e <;> cases he <;> cases a <;> cases ha <;> cases b <;> cases hb <;> simp only [sameKey, jsonEq]

theorem noDup_scalar {e : Sch} (he : Scalar e) (l : List GoV) (hl : ∀ x ∈ l, Typed e x) :
    noDup l = true ↔ l.Pairwise (fun a b => jsonEq a b = false) := by
  induction l with
  | nil => simp [noDup]
  | cons x xs ih =>
    have ih := ih (fun y hy => hl y (List.mem_cons_of_mem _ hy))
    rw [noDup, List.pairwise_cons, ← ih, Bool.and_eq_true]
    refine and_congr ?_ Iff.rfl
    rw [Bool.not_eq_true', List.any_eq_false]
    constructor
    · intro h y hy
      have := h y hy
      rw [sameKey_scalar he (hl x List.mem_cons_self) (hl y (List.mem_cons_of_mem _ hy))] at this
      simpa using this
    · intro h y hy
      rw [sameKey_scalar he (hl x List.mem_cons_self) (hl y (List.mem_cons_of_mem _ hy)), h y hy]
      simp

theorem runs_arr {d i : Decl} {e : Sch} (h : Fits d (.arr i e)) (p : Bool) (l : Option (List GoV))
    (ht : Typed (.arr i e) (.slice l)) : Runs d (.arr i e) p (.slice l) := by
  obtain ⟨he, hu⟩ := h
  cases hq : d.unique with
  | false =>
    have : d.Free := by
      rw [he, hq]
      cases d.required
      · exact .inl rfl
      · exact .inr rfl
    exact runs_free this _ _ _
  | true =>
    have hsc : Scalar e ∧ hashable e = true := by
      have := hu hq
      cases e <;> first | exact ⟨trivial, by unfold hashable; rfl⟩ | cases this
    have hc : core d.decoded = [.unique] := by
      rw [he, hq]; rfl
    unfold Runs
    rw [hc]
    simp only [List.mem_singleton, forall_eq, parsed, runDir_unique, runUnique, hsc.2, if_true]
    refine ⟨Res.of_ne_panic _, ?_⟩
    rw [Res.of_pass]
    cases l with
    | none => simp [Meets]
    | some l =>
      simp only [Meets, hq, true_implies]
      exact noDup_scalar hsc.1 l (by
        have ht : ∀ xs, some l = some xs → ∀ x ∈ xs, Typed e x := by
          unfold Typed at ht; exact ht
        exact ht l rfl)

theorem runs {d : Decl} {s : Sch} (h : Fits d s) (p : Bool) {y : GoV} (ht : Typed s y) : Runs d s p y := by
  cases s with
  | str => cases y <;> unfold Typed at ht <;> first | exact runs_str h p _ | cases ht
  | int => cases y <;> unfold Typed at ht <;> first | exact runs_int h p _ | cases ht
  | num => cases y <;> unfold Typed at ht <;> first | exact runs_num h p _ | cases ht
  | bool => exact runs_free h _ _ _
  | arr i e =>
    cases y with
    | slice l => exact runs_arr h p l ht
    | _ => unfold Typed at ht; cases ht
  | obj fs => exact runs_free h _ _ _

theorem fits_writable {d : Decl} {s : Sch} (h : Fits d s) : Writable d.decoded := by
  have none : d.enum = none → d.const = none → Writable d.decoded := by
    intro h1 h2
    refine ⟨?_, ?_⟩
    · intro s hs; simp [Decl.decoded, h1] at hs
    · intro s hs; simp [Decl.decoded, h2] at hs
  have free : d.Free → Writable d.decoded := by
    rintro (rfl | rfl)
    · exact ⟨(fun s hs => by cases hs), (fun s hs => by cases hs)⟩
    · exact ⟨(fun s hs => by cases hs), (fun s hs => by cases hs)⟩
  cases s with
  | str =>
    obtain ⟨_, _, _, h3, h4⟩ := h
    refine ⟨?_, ?_⟩
    · intro s hs
      unfold Decl.decoded at hs
      cases he : d.enum with
      | none => simp [he] at hs
      | some l => simp [he] at hs; exact (h3 l he).2 s hs
    · intro s hs
      unfold Decl.decoded at hs
      cases he : d.const with
      | none => simp [he] at hs
      | some c => simp [he] at hs; subst hs; exact h4 c he
  | int => exact none (by rw [h.1]) (by rw [h.1])
  | num => exact none (by rw [h.1]) (by rw [h.1])
  | bool => exact free h
  | arr i e => exact none (by rw [h.1]) (by rw [h.1])
  | obj fs => exact free h

theorem typed_present {s : Sch} {x : GoV} (h : Typed s x) (hs : s.isArray = false) : present x = some x := by
  cases s <;> cases hs <;> cases x <;> unfold Typed at h <;> first | rfl | exact h.elim

theorem typed_slice {s : Sch} {x : GoV} (h : Typed s x) (hs : s.isArray = true) : ∃ l, x = .slice l := by
  cases s <;> cases hs
  cases x <;> unfold Typed at h <;> first | exact ⟨_, rfl⟩ | exact h.elim

mutual
theorem free_conforms : ∀ (s : Sch), s.Free → ∀ y, Typed s y → Conforms s y
  | .str, _, y, _ => by unfold Conforms; trivial
  | .int, _, y, _ => by unfold Conforms; trivial
  | .num, _, y, _ => by unfold Conforms; trivial
  | .bool, _, y, _ => by unfold Conforms; trivial
  | .arr d e, h, y, ht => by
    cases y with
    | slice l =>
      unfold Conforms
      unfold Typed at ht
      unfold Sch.Free at h
      intro xs hx x hm
      exact ⟨free_meets h.1 x, free_conforms e h.2 x (ht xs hx x hm)⟩
    | _ => unfold Typed at ht; cases ht
  | .obj fs, h, y, ht => by
    cases y with
    | struct xs =>
      unfold Conforms
      unfold Typed at ht
      unfold Sch.Free at h
      exact free_conformsF fs h xs ht
    | _ => unfold Typed at ht; cases ht
theorem free_conformsF : ∀ (fs : Flds), fs.Free → ∀ xs, TypedF fs xs → ConformsF fs xs
  | .nil, _, xs, _ => by unfold ConformsF; trivial
  | .cons d s r, h, xs, ht => by
    cases xs with
    | nil => unfold TypedF at ht; cases ht
    | cons x xs =>
      unfold TypedF at ht
      unfold Flds.Free at h
      unfold ConformsF
      refine ⟨⟨?_, ?_⟩, free_conformsF r h.2.2 xs ht.2⟩
      · intro hp
        cases hr : d.required with
        | false => rfl
        | true =>
          have h1 := ht.1
          rw [hr, Bool.true_or, if_pos rfl] at h1
          cases hs : s.isArray with
          | true => rw [h.1.2 hs] at hr; cases hr
          | false =>
            rw [typed_present h1 hs] at hp; cases hp
      · intro y hy
        refine ⟨free_meets h.1.1 y, free_conforms s h.2.1 y ?_⟩
        have h1 := ht.1
        split at h1
        · cases x with
          | ptr o => unfold Typed at h1; cases s <;> cases h1
          | slice l =>
            cases l with
            | none => cases hy
            | some l => cases hy; exact h1
          | _ => cases hy; exact h1
        · obtain ⟨o, rfl, h2⟩ := h1
          exact h2 y hy
end

/-! ## Fields and structures -/

theorem both_ne_panic {a b : Res} (ha : a ≠ .panic) (hb : b ≠ .panic) : a.both b ≠ .panic := by
  cases a <;> cases b <;> simp_all [Res.both]

theorem both_pass {a b : Res} : a.both b = .pass ↔ a = .pass ∧ b = .pass := by
  cases a <;> cases b <;> simp [Res.both]

theorem core_good {d : Decl} {s : Sch} (h : Fits d s) : ∀ c ∈ core d.decoded, Good c ∧ c ≠ .omitempty := by
  intro c hc
  refine ⟨good_core (fits_writable h) c hc, ?_⟩
  rintro rfl
  unfold core at hc
  simp only [List.mem_append] at hc
  rcases hc with (((((((hc | hc) | hc) | hc) | hc) | hc) | hc) | hc) | hc
  · cases (mem_ifDefined hc).1
  · cases (mem_ifDefined hc).1
  · cases (mem_ifDefined hc).1
  · cases (mem_ifDefined hc).1
  · cases (mem_ifDefined hc).1
  · cases (mem_ifDefined hc).1
  · split at hc
    · cases List.mem_singleton.mp hc
    · cases hc
  · unfold enumDirs at hc; grind
  · unfold constDirs at hc
    split at hc
    · cases List.mem_singleton.mp hc
    · cases hc

/-- A field conforms. -/
def FieldOk (d : Decl) (s : Sch) (x : GoV) : Prop :=
  (present x = none → d.required = false) ∧ ∀ y, present x = some y → Meets d y ∧ Conforms s y

theorem field_ok {d : Decl} {s : Sch} (h : Fits d s) (nested : GoV → Res)
    (hn : ∀ y, Typed s y → nested y ≠ .panic ∧ (nested y = .pass ↔ Conforms s y)) {x : GoV}
    (ht : if d.required || s.isArray then Typed s x else ∃ o, x = .ptr o ∧ ∀ y, o = some y → Typed s y) :
    runField s nested (parseTag (tagText d s)) x ≠ .panic ∧
    (runField s nested (parseTag (tagText d s)) x = .pass ↔ FieldOk d s x) := by
  have hw := fits_writable h
  have hgood := good_directives hw (isFieldPointer d.required d.decoded s.isArray) s.isArray
  have hknown : (parseTag (tagText d s)).all (fun alts => alts.all (fun d => known d.1)) = true := by
    unfold tagText
    rw [parseTag_validateTag hw]
    simp only [List.all_map, List.all_eq_true, Function.comp]
    intro c hc
    simp [known_good (hgood c hc)]
  have hdirs : parseTag (tagText d s) =
      (directives d.decoded (isFieldPointer d.required d.decoded s.isArray) s.isArray).map (fun d => [parsed d]) := by
    unfold tagText
    exact parseTag_validateTag hw _ _
  have hcg := core_good h
  unfold runField
  rw [if_pos hknown]
  have hreq : d.decoded.isRequired = d.required := rfl
  have hloop : ∀ (p : Bool) (y : GoV), Typed s y →
      loop s p y (nested y) ((core d.decoded).map (fun d => [parsed d])) ≠ .panic ∧
      (loop s p y (nested y) ((core d.decoded).map (fun d => [parsed d])) = .pass ↔ Meets d y ∧ Conforms s y) := by
    intro p y hy
    obtain ⟨r1, r2⟩ := runs h p hy
    obtain ⟨l1, l2⟩ := loop_dirs s p y (nested y) (core d.decoded) hcg r1
    exact ⟨fun h0 => (hn y hy).1 (l1 h0), l2.trans (and_congr r2 (hn y hy).2)⟩
  cases hr : d.required with
  | true =>
    rw [hr, Bool.true_or, if_pos rfl] at ht
    cases hs : s.isArray with
    | true =>
      obtain ⟨l, rfl⟩ := typed_slice ht hs
      have hd : directives d.decoded (isFieldPointer d.required d.decoded s.isArray) s.isArray =
          .required :: core d.decoded := by
        rw [Validations.directives_eq, hreq, hr, hs]
        simp
      rw [hdirs, hd]
      simp only [List.map_cons, loop]
      rw [isOmit_parsed (d := .required) trivial (by simp), runAlts_single]
      simp only [Bool.false_eq_true, if_false, parsed, runDir_required, hasValue]
      cases l with
      | none =>
        refine ⟨by simp [Res.of], ?_⟩
        simp [FieldOk, present, hr, Res.of]
      | some l =>
        have := hloop false (.slice (some l)) ht
        refine ⟨this.1, this.2.trans ?_⟩
        simp [FieldOk, present]
    | false =>
      have hd : directives d.decoded (isFieldPointer d.required d.decoded s.isArray) s.isArray = core d.decoded := by
        rw [Validations.directives_eq, hreq, hr, hs]
        have hp : isFieldPointer true d.decoded false = false := by simp [isFieldPointer]
        rw [hp]
        cases core d.decoded <;> simp
      rw [hdirs, hd]
      have hp := typed_present ht hs
      have hl := hloop false x ht
      have hx : FieldOk d s x ↔ Meets d x ∧ Conforms s x := by
        simp [FieldOk, hp]
      cases x with
      | ptr o => cases s <;> unfold Typed at ht <;> exact ht.elim
      | _ => exact ⟨hl.1, hl.2.trans hx.symm⟩
  | false =>
    have hd : directives d.decoded (isFieldPointer d.required d.decoded s.isArray) s.isArray =
        if core d.decoded = [] then [] else .omitempty :: core d.decoded := by
      rw [Validations.directives_eq, hreq, hr]
      cases core d.decoded <;> simp
    rw [hdirs, hd]
    have homit : isOmit [parsed .omitempty] = true := by decide
    cases hs : s.isArray with
    | true =>
      rw [hr, hs, Bool.or_true, if_pos rfl] at ht
      obtain ⟨l, rfl⟩ := typed_slice ht hs
      have hl := hloop false (.slice l) ht
      cases l with
      | none =>
        have hok : FieldOk d s (.slice none) := by simp [FieldOk, present, hr]
        by_cases hc : core d.decoded = []
        · rw [if_pos hc]
          rw [hc] at hl
          have hcf : Conforms s (.slice none) := by
            cases s <;> cases hs
            unfold Conforms
            intro xs hx; cases hx
          have : nested (.slice none) = .pass := (hn _ ht).2.mpr hcf
          simp only [List.map_nil, loop, this]
          exact ⟨by decide, by simp [hok]⟩
        · rw [if_neg hc]
          simp only [List.map_cons, loop, homit, if_true, hasValue]
          exact ⟨by simp, by simp [hok]⟩
      | some l =>
        have hx : FieldOk d s (.slice (some l)) ↔ Meets d (.slice (some l)) ∧ Conforms s (.slice (some l)) := by
          simp [FieldOk, present]
        by_cases hc : core d.decoded = []
        · rw [if_pos hc]
          rw [hc] at hl
          exact ⟨hl.1, hl.2.trans hx.symm⟩
        · rw [if_neg hc]
          simp only [List.map_cons, loop, homit, if_true, hasValue]
          exact ⟨hl.1, hl.2.trans hx.symm⟩
    | false =>
      rw [hr, hs, Bool.or_false, if_neg (by simp)] at ht
      obtain ⟨o, rfl, ho⟩ := ht
      cases o with
      | none =>
        have hok : FieldOk d s (.ptr none) := by simp [FieldOk, present, hr]
        by_cases hc : core d.decoded = []
        · rw [if_pos hc]
          exact ⟨by simp, by simp [hok]⟩
        · rw [if_neg hc]
          simp only [List.map_cons, homit, if_true]
          exact ⟨by decide, by simp [hok]⟩
      | some y =>
        have hy := ho y rfl
        have hl := hloop true y hy
        have hx : FieldOk d s (.ptr (some y)) ↔ Meets d y ∧ Conforms s y := by
          simp [FieldOk, present]
        have hv : hasValue true y = true := by
          have := typed_present hy hs
          cases y with
          | slice l => cases l with
            | none => cases this
            | some l => rfl
          | _ => rfl
        by_cases hc : core d.decoded = []
        · rw [if_pos hc]
          rw [hc] at hl
          exact ⟨hl.1, hl.2.trans hx.symm⟩
        · rw [if_neg hc]
          simp only [List.map_cons, loop, homit, if_true, hv]
          exact ⟨hl.1, hl.2.trans hx.symm⟩

mutual
theorem inside_ok : ∀ (s : Sch), s.Fine → ∀ y, Typed s y → inside s y ≠ .panic ∧ (inside s y = .pass ↔ Conforms s y)
  | .str, _, y, _ => by unfold inside Conforms; simp
  | .int, _, y, _ => by unfold inside Conforms; simp
  | .num, _, y, _ => by unfold inside Conforms; simp
  | .bool, _, y, _ => by unfold inside Conforms; simp
  | .arr d e, h, y, ht => by
    have : Conforms (.arr d e) y := free_conforms (.arr d e) (by unfold Sch.Free; unfold Sch.Fine at h; exact h) y ht
    have hi : inside (.arr d e) y = .pass := by unfold inside; rfl
    rw [hi]
    exact ⟨by decide, by simp [this]⟩
  | .obj fs, h, y, ht => by
    cases y with
    | struct xs =>
      unfold inside Conforms
      unfold Typed at ht
      unfold Sch.Fine at h
      exact struct_ok fs h xs ht
    | _ => unfold Typed at ht; exact ht.elim
theorem struct_ok : ∀ (fs : Flds), fs.Fine → ∀ xs, TypedF fs xs →
    runStruct fs xs ≠ .panic ∧ (runStruct fs xs = .pass ↔ ConformsF fs xs)
  | .nil, _, xs, _ => by unfold runStruct ConformsF; simp
  | .cons d s r, h, xs, ht => by
    cases xs with
    | nil => unfold TypedF at ht; exact ht.elim
    | cons x xs =>
      unfold TypedF at ht
      unfold Flds.Fine at h
      have h1 := field_ok h.1 (inside s) (inside_ok s h.2.1) ht.1
      have h2 := struct_ok r h.2.2 xs ht.2
      unfold runStruct ConformsF
      exact ⟨both_ne_panic h1.1 h2.1, both_pass.trans (and_congr h1.2 h2.2)⟩
end

end Verif.Validator
