import Verif.Spec.Times

namespace Verif.Times

theorem digitVal_digit (n : Nat) (h : n < 10) : digitVal (digit n) = some n := by
  revert h; revert n; decide

theorem digits_length (w n : Nat) : (digits w n).length = w := by
  induction w generalizing n with
  | zero => rfl
  | succ w ih => simp [digits, ih]

/-- All characters are digits. -/
def Digits (s : Str) : Prop := ∀ c ∈ s, ∃ d, digitVal c = some d

theorem digits_digits (w n : Nat) : Digits (digits w n) := by
  induction w generalizing n with
  | zero => intro c hc; simp [digits] at hc
  | succ w ih =>
    intro c hc
    simp only [digits, List.mem_append, List.mem_singleton] at hc
    rcases hc with hc | rfl
    · exact ih _ c hc
    · exact ⟨_, digitVal_digit _ (by omega)⟩

theorem readNat_append (s t : Str) (hs : Digits s) (a : Nat) : readNat a (s ++ t) = readNat (readNat a s) t := by
  induction s generalizing a with
  | nil => rfl
  | cons c s ih =>
    obtain ⟨d, hd⟩ := hs c (by simp)
    simp only [List.cons_append, readNat, hd]
    exact ih (fun c hc => hs c (by simp [hc])) _

theorem readNat_digits (w n : Nat) : readNat 0 (digits w n) = n % 10 ^ w := by
  induction w generalizing n with
  | zero => simp [digits, readNat, Nat.mod_one]
  | succ w ih =>
    rw [digits, readNat_append _ _ (digits_digits _ _), ih]
    simp only [readNat, digitVal_digit (n % 10) (by omega)]
    rw [Nat.pow_succ, Nat.mul_comm (10 ^ w) 10, Nat.mod_mul]
    omega

theorem readNat_zeros (a k : Nat) : readNat a (List.replicate k '0') = a * 10 ^ k := by
  induction k generalizing a with
  | zero => simp [readNat]
  | succ k ih =>
    have : digitVal '0' = some 0 := by decide
    rw [List.replicate_succ]
    simp only [readNat, this]
    rw [ih, Nat.pow_succ]
    rw [Nat.add_zero, Nat.mul_comm 10 a, Nat.mul_assoc, Nat.mul_comm 10]

theorem two_digits (n : Nat) (h : n < 100) (s : Str) : two (digits 2 n ++ s) = some (n, s) := by
  have h1 := digitVal_digit (n / 10 % 10) (by omega)
  have h2 := digitVal_digit (n % 10) (by omega)
  simp only [digits, List.nil_append, List.cons_append, two, h1, h2]
  congr 2
  omega

theorem oneOrTwo_digits (n : Nat) (h : n < 100) (s : Str) : oneOrTwo (digits 2 n ++ s) = some (n, s) := by
  have h1 := digitVal_digit (n / 10 % 10) (by omega)
  have h2 := digitVal_digit (n % 10) (by omega)
  simp only [digits, List.nil_append, List.cons_append, oneOrTwo, h1, h2]
  congr 2
  omega

theorem four_digits (n : Nat) (h : n < 10000) (s : Str) : four (digits 4 n ++ s) = some (n, s) := by
  have h1 := digitVal_digit (n / 10 / 10 / 10 % 10) (by omega)
  have h2 := digitVal_digit (n / 10 / 10 % 10) (by omega)
  have h3 := digitVal_digit (n / 10 % 10) (by omega)
  have h4 := digitVal_digit (n % 10) (by omega)
  simp only [digits, List.nil_append, List.cons_append, four, h1, h2, h3, h4]
  congr 2
  omega

theorem padded_small (w n : Nat) (h : n < 10 ^ w) : padded w n = digits w n := by simp [padded, h]

theorem skip_self (c : Char) (s : Str) : skip c (c :: s) = some s := by simp [skip]

theorem leading_digits (ds s : Str) (h : Digits ds) (hs : ∀ c ∈ s.head?, digitVal c = none) :
    leading (ds ++ s) = (ds, s) := by
  induction ds with
  | nil =>
    cases s with
    | nil => rfl
    | cons c s => simp [leading, hs c (by simp)]
  | cons c ds ih =>
    obtain ⟨d, hd⟩ := h c (by simp)
    simp only [List.cons_append, leading, hd, ih (fun c hc => h c (by simp [hc]))]

/-- Zeros at the end, and the rest. -/
theorem trimZeros_split (s : Str) : ∃ k, s = trimZeros s ++ List.replicate k '0' := by
  have h := List.takeWhile_append_dropWhile (p := fun c : Char => decide (c = '0')) (l := s.reverse)
  refine ⟨(s.reverse.takeWhile (fun c => decide (c = '0'))).length, ?_⟩
  have h1 : s.reverse.takeWhile (fun c => decide (c = '0')) =
      List.replicate (s.reverse.takeWhile (fun c => decide (c = '0'))).length '0' := by
    apply List.eq_replicate_iff.mpr
    refine ⟨rfl, fun c hc => ?_⟩
    have := List.all_eq_true.mp (List.all_takeWhile (l := s.reverse) (p := fun c : Char => decide (c = '0'))) c hc
    simpa using this
  have h2 := congrArg List.reverse h
  rw [List.reverse_append, List.reverse_reverse, h1, List.reverse_replicate] at h2
  exact h2.symm

theorem trimZeros_digits (n : Nat) : Digits (trimZeros (digits 9 n)) := by
  intro c hc
  obtain ⟨k, hk⟩ := trimZeros_split (digits 9 n)
  exact digits_digits 9 n c (by rw [hk]; simp [hc])

theorem nanosOf_trim (n : Nat) (h : n < 10 ^ 9) : nanosOf (trimZeros (digits 9 n)) = n := by
  obtain ⟨k, hk⟩ := trimZeros_split (digits 9 n)
  have hl : (trimZeros (digits 9 n)).length + k = 9 := by
    have := congrArg List.length hk
    simpa [digits_length] using this.symm
  have hr : readNat 0 (digits 9 n) = n := by rw [readNat_digits]; exact Nat.mod_eq_of_lt h
  rw [hk, readNat_append _ _ (trimZeros_digits n), readNat_zeros] at hr
  have ht : (trimZeros (digits 9 n)).take 9 = trimZeros (digits 9 n) := List.take_of_length_le (by omega)
  unfold nanosOf
  rw [ht]
  have : 9 - (trimZeros (digits 9 n)).length = k := by omega
  rw [this]
  exact hr

theorem trimZeros_ne_nil (n : Nat) (h : n < 10 ^ 9) (h0 : n ≠ 0) : trimZeros (digits 9 n) ≠ [] := by
  intro he
  have := nanosOf_trim n h
  rw [he] at this
  simp [nanosOf, readNat] at this
  exact h0 this.symm

/-- What cannot follow a fraction. -/
def ZoneHead (s : Str) : Prop := ∃ c t, s = c :: t ∧ digitVal c = none ∧ c ≠ '.' ∧ c ≠ ','

theorem parseFraction_none (s : Str) (h : ZoneHead s) : parseFraction s = (0, s) := by
  obtain ⟨c, t, rfl, _, h2, h3⟩ := h
  cases t with
  | nil => rfl
  | cons d t => simp [parseFraction, h2, h3]

theorem parseFraction_some (ds : Str) (hd : Digits ds) (hn : ds ≠ []) (s : Str) (h : ZoneHead s) :
    parseFraction ('.' :: (ds ++ s)) = (nanosOf ds, s) := by
  obtain ⟨c, t, rfl, h1, _, _⟩ := h
  have hl := leading_digits ds (c :: t) hd (by simp [h1])
  cases ds with
  | nil => exact absurd rfl hn
  | cons d ds =>
    obtain ⟨x, hx⟩ := hd d (by simp)
    rw [List.cons_append] at hl ⊢
    simp [parseFraction, hx, hl]

theorem parseFraction_fraction (n : Nat) (h : n < 10 ^ 9) (s : Str) (hz : ZoneHead s) :
    parseFraction (fraction n ++ s) = (n, s) := by
  unfold fraction
  split
  · next h0 => subst h0; exact parseFraction_none s hz
  · next h0 =>
    rw [List.cons_append, parseFraction_some _ (trimZeros_digits n) (trimZeros_ne_nil n h h0) s hz, nanosOf_trim n h]

theorem zoneText_head (o : Int) : ZoneHead (zoneText o) := by
  unfold zoneText
  split
  · exact ⟨'Z', [], rfl, by decide, by decide, by decide⟩
  · by_cases h : zoneMinutes o < 0
    · exact ⟨'-', _, by simp [h]; rfl, by decide, by decide, by decide⟩
    · exact ⟨'+', _, by simp [h]; rfl, by decide, by decide, by decide⟩

theorem natAbs_lt (z : Int) : (z.natAbs : Int) = if z < 0 then -z else z := by split <;> omega

theorem parseZone_zoneText (o : Int) (h : (zoneMinutes o).natAbs / 60 ≤ 24) :
    parseZone (zoneText o) = some (60 * zoneMinutes o, []) := by
  unfold zoneText
  split
  · next h0 => subst h0; rfl
  · generalize hz : zoneMinutes o = z at h
    have hp1 : padded 2 (z.natAbs / 60) = digits 2 (z.natAbs / 60) := padded_small _ _ (by omega)
    have hp2 : padded 2 (z.natAbs % 60) = digits 2 (z.natAbs % 60) := padded_small _ _ (by omega)
    have ht1 := two_digits (z.natAbs / 60) (by omega) (':' :: digits 2 (z.natAbs % 60))
    have ht2 := two_digits (z.natAbs % 60) (by omega) []
    rw [List.append_nil] at ht2
    have hc : ¬ (24 < z.natAbs / 60 ∨ 60 < z.natAbs % 60) := by omega
    by_cases hn : z < 0
    · have : ¬ ('-' = 'Z') := by decide
      have h2 : ¬ ('-' = '+') := by decide
      simp only [hn, if_true, hp1, hp2, parseZone, this, h2, if_false, ht1, skip_self, ht2, hc]
      congr 2
      omega
    · have : ¬ ('+' = 'Z') := by decide
      simp only [hn, if_true, hp1, hp2, parseZone, this, if_false, ht1, skip_self, ht2, hc]
      congr 2
      omega

theorem leap_iff (y : Nat) : decide (Leap (y : Int)) = isLeap y := by
  have h : Leap (y : Int) ↔ (y % 4 = 0 ∧ (y % 100 ≠ 0 ∨ y % 400 = 0)) := by unfold Leap; omega
  rw [Bool.eq_iff_iff]
  simp only [isLeap, decide_eq_true_eq, Bool.and_eq_true, Bool.or_eq_true, h]

theorem day_iff (y month day : Nat) :
    Day (y : Int) month day ↔ ¬ (month = 0 ∨ 12 < month) ∧ ¬ (day < 1 ∨ daysIn month y < day) := by
  unfold Day
  rw [leap_iff]
  by_cases hm : 12 < month ∨ month = 0
  · constructor
    · rintro ⟨h1, _, n, hn, _⟩
      have : (monthLengths (isLeap y)).length ≤ month - 1 := by simp [monthLengths]; omega
      rw [List.getElem?_eq_none this] at hn
      cases hn
    · rintro ⟨h, _⟩; omega
  · have : month = 1 ∨ month = 2 ∨ month = 3 ∨ month = 4 ∨ month = 5 ∨ month = 6 ∨ month = 7 ∨ month = 8 ∨ month = 9 ∨
        month = 10 ∨ month = 11 ∨ month = 12 := by omega
    rcases this with rfl | rfl | rfl | rfl | rfl | rfl | rfl | rfl | rfl | rfl | rfl | rfl <;>
      simp [monthLengths, daysIn] <;> (try split) <;> omega

theorem day_month (y : Int) (month day : Nat) (h : Day y month day) : 1 ≤ month ∧ month ≤ 12 ∧ 1 ≤ day ∧ day ≤ 31 := by
  obtain ⟨h1, h2, n, hn, h3⟩ := h
  have hl : month - 1 < 12 := by
    have := (List.getElem?_eq_some_iff.mp hn).1
    simpa [monthLengths] using this
  have h31 : ∀ b, ∀ n ∈ monthLengths b, n ≤ 31 := by decide
  have := h31 _ n (List.mem_of_getElem? hn)
  omega

theorem parseSeconds_ok (y mo d h mi sec nanos : Nat) (hs : sec < 60) (frac zone : Str) (z : Int)
    (hf : parseFraction (frac ++ zone) = (nanos, zone)) (hz : parseZone zone = some (z, []))
    (hd : ¬ (d < 1 ∨ daysIn mo y < d)) :
    parseSeconds y mo d h mi (digits 2 sec ++ (frac ++ zone)) = some ⟨y, mo, d, h, mi, sec, nanos, z⟩ := by
  unfold parseSeconds
  rw [two_digits sec (by omega)]
  have : ¬ 60 ≤ sec := by omega
  simp only [this, if_false, hf, hz, finish, hd, ne_eq, not_true_eq_false]

theorem parse_ok (y mo d h mi sec nanos : Nat) (hy : y < 10000) (hm : mo < 100) (hd2 : d < 100) (hh : h < 24) (hmi : mi < 60)
    (hs : sec < 60) (frac zone : Str) (z : Int)
    (hf : parseFraction (frac ++ zone) = (nanos, zone)) (hz : parseZone zone = some (z, []))
    (hd : Day (y : Int) mo d) :
    parse (digits 4 y ++ '-' :: (digits 2 mo ++ '-' :: (digits 2 d ++ 'T' :: (digits 2 h ++ ':' :: (digits 2 mi ++ ':' ::
      (digits 2 sec ++ (frac ++ zone))))))) = some ⟨y, mo, d, h, mi, sec, nanos, z⟩ := by
  obtain ⟨hd1, hd3⟩ := (day_iff y mo d).mp hd
  have h24 : ¬ 24 ≤ h := by omega
  have h60 : ¬ 60 ≤ mi := by omega
  unfold parse
  rw [four_digits y hy]
  simp only [skip_self]
  rw [two_digits mo hm]
  simp only [hd1, if_false, skip_self]
  rw [two_digits d hd2]
  simp only [skip_self, parseClock]
  rw [oneOrTwo_digits h (by omega)]
  simp only [h24, if_false, skip_self]
  rw [two_digits mi (by omega)]
  simp only [h60, if_false, skip_self]
  exact parseSeconds_ok y mo d h mi sec nanos hs frac zone z hf hz hd3

/-- What arrives: the offset of the zone in whole minutes. -/
def arrived (m : Moment) (nanos : Nat) : Moment := { m with nanos := nanos, offset := 60 * zoneMinutes m.offset }

theorem civil_digits (m : Moment) (hv : Valid m) (hy : 0 ≤ m.year ∧ m.year ≤ 9999) (tail : Str) :
    civilText m ++ tail = digits 4 m.year.natAbs ++ '-' :: (digits 2 m.month ++ '-' :: (digits 2 m.day ++ 'T' ::
      (digits 2 m.hour ++ ':' :: (digits 2 m.min ++ ':' :: (digits 2 m.sec ++ tail))))) := by
  obtain ⟨_, hm, _, hd⟩ := day_month _ _ _ hv.day
  have := hv.hour; have := hv.min; have := hv.sec
  have hn : ¬ m.year < 0 := by omega
  simp only [civilText, paddedInt, hn, if_false, padded_small 4 m.year.natAbs (by omega), padded_small 2 m.month (by omega),
    padded_small 2 m.day (by omega), padded_small 2 m.hour (by omega), padded_small 2 m.min (by omega),
    padded_small 2 m.sec (by omega), List.append_assoc, List.cons_append]

theorem parse_text (m : Moment) (hv : Valid m) (hy : 0 ≤ m.year ∧ m.year ≤ 9999)
    (hz : (zoneMinutes m.offset).natAbs / 60 ≤ 24) (frac : Str) (nanos : Nat)
    (hf : parseFraction (frac ++ zoneText m.offset) = (nanos, zoneText m.offset)) :
    parse (civilText m ++ (frac ++ zoneText m.offset)) = some (arrived m nanos) := by
  obtain ⟨_, hm, _, hd⟩ := day_month _ _ _ hv.day
  have hyn : (m.year.natAbs : Int) = m.year := by omega
  rw [civil_digits m hv hy, parse_ok _ _ _ _ _ _ nanos (by omega) (by omega) (by omega) hv.hour hv.min hv.sec _ _ _ hf
    (parseZone_zoneText _ hz) (by rw [hyn]; exact hv.day)]
  simp [arrived, hyn]

theorem viaText_ok (m : Moment) (hv : Valid m) (hy : 0 ≤ m.year ∧ m.year ≤ 9999)
    (hz : (zoneMinutes m.offset).natAbs / 60 ≤ 24) : viaText m = some (arrived m 0) := by
  have := parse_text m hv hy hz [] 0 (parseFraction_none _ (zoneText_head _))
  simpa [viaText, format] using this

theorem formatNano_ok (m : Moment) (hv : Valid m) (hy : 0 ≤ m.year ∧ m.year ≤ 9999)
    (hz : (zoneMinutes m.offset).natAbs / 60 ≤ 24) : parse (formatNano m) = some (arrived m m.nanos) :=
  parse_text m hv hy hz _ _ (parseFraction_fraction _ hv.nanos _ (zoneText_head _))

/-! ## Texts that are not read -/

theorem digit_ne (c d : Char) (h : ∃ x, digitVal c = some x) (hd : digitVal d = none) : d ≠ c := by
  rintro rfl
  obtain ⟨x, hx⟩ := h
  rw [hd] at hx; cases hx

theorem width_big (k n : Nat) (h : 10 ^ k ≤ n) : k < width n := by
  induction k generalizing n with
  | zero => unfold width; split <;> omega
  | succ k ih =>
    rw [width]
    rw [Nat.pow_succ] at h
    have : 1 ≤ 10 ^ k := Nat.one_le_pow _ _ (by decide)
    have hn : ¬ n < 10 := by omega
    have := ih (n / 10) (by omega)
    simp only [hn, if_false]
    omega

theorem padded_big (w n : Nat) (h : 10 ^ w ≤ n) : Digits (padded w n) ∧ w < (padded w n).length := by
  have : ¬ n < 10 ^ w := by omega
  simp only [padded, this, if_false]
  exact ⟨digits_digits _ _, by rw [digits_length]; exact width_big w n h⟩

theorem parse_negative (m : Moment) (h : m.year < 0) (tail : Str) : parse (civilText m ++ tail) = none := by
  have : ∀ s, four ('-' :: s) = none := by
    intro s
    have hd : digitVal '-' = none := by decide
    cases s with
    | nil => rfl
    | cons b s => cases s with
      | nil => rfl
      | cons c s => cases s with
        | nil => rfl
        | cons d s => simp [four, hd]
  simp only [civilText, paddedInt, h, if_true, List.cons_append, parse, this]

theorem parse_large (m : Moment) (h : 9999 < m.year) (tail : Str) : parse (civilText m ++ tail) = none := by
  have hn : ¬ m.year < 0 := by omega
  obtain ⟨hd, hl⟩ := padded_big 4 m.year.natAbs (by omega)
  simp only [civilText, paddedInt, hn, if_false, List.append_assoc]
  generalize padded 4 m.year.natAbs = ds at hd hl
  match ds, hd, hl with
  | a :: b :: c :: d :: e :: ds, hd, _ =>
    obtain ⟨xa, ha⟩ := hd a (by simp)
    obtain ⟨xb, hb⟩ := hd b (by simp)
    obtain ⟨xc, hc⟩ := hd c (by simp)
    obtain ⟨xd, hd'⟩ := hd d (by simp)
    have he := digit_ne e '-' (hd e (by simp)) (by decide)
    simp [parse, four, ha, hb, hc, hd', skip, he]

theorem parseZone_large (o : Int) (h : 24 < (zoneMinutes o).natAbs / 60) : parseZone (zoneText o) = none := by
  have h0 : o ≠ 0 := by rintro rfl; simp [zoneMinutes] at h
  simp only [zoneText, h0, if_false]
  generalize zoneMinutes o = z at h
  generalize hc : (if z < 0 then '-' else '+') = c
  have hZ : c ≠ 'Z' := by subst hc; split <;> decide
  simp only [parseZone, hZ, if_false]
  by_cases hb : z.natAbs / 60 < 100
  · have hp2 : padded 2 (z.natAbs % 60) = digits 2 (z.natAbs % 60) := padded_small _ _ (by omega)
    have ht2 := two_digits (z.natAbs % 60) (by omega) []
    rw [List.append_nil] at ht2
    rw [padded_small 2 _ hb, hp2, two_digits _ hb]
    simp [skip_self, ht2, h]
  · obtain ⟨hd, hl⟩ := padded_big 2 (z.natAbs / 60) (by omega)
    generalize padded 2 (z.natAbs / 60) = ds at hd hl
    match ds, hd, hl with
    | a :: b :: e :: ds, hd, _ =>
      obtain ⟨xa, ha⟩ := hd a (by simp)
      obtain ⟨xb, hb⟩ := hd b (by simp)
      have he := digit_ne e ':' (hd e (by simp)) (by decide)
      simp [two, ha, hb, skip, he]

theorem viaText_none (m : Moment) (hv : Valid m)
    (h : ¬ ((0 ≤ m.year ∧ m.year ≤ 9999) ∧ (zoneMinutes m.offset).natAbs / 60 ≤ 24)) : viaText m = none := by
  unfold viaText format
  by_cases hn : m.year < 0
  · exact parse_negative m hn _
  · by_cases hl : 9999 < m.year
    · exact parse_large m hl _
    · have hz : 24 < (zoneMinutes m.offset).natAbs / 60 := by omega
      obtain ⟨_, hm, _, hd⟩ := day_month _ _ _ hv.day
      have hyn : (m.year.natAbs : Int) = m.year := by omega
      obtain ⟨hd1, hd3⟩ := (day_iff m.year.natAbs m.month m.day).mp (by rw [hyn]; exact hv.day)
      have h24 : ¬ 24 ≤ m.hour := by have := hv.hour; omega
      have h60 : ¬ 60 ≤ m.min := by have := hv.min; omega
      have hs60 : ¬ 60 ≤ m.sec := by have := hv.sec; omega
      rw [civil_digits m hv (by omega)]
      unfold parse
      rw [four_digits _ (by omega)]
      simp only [skip_self]
      rw [two_digits m.month (by omega)]
      simp only [hd1, if_false, skip_self]
      rw [two_digits m.day (by omega)]
      simp only [skip_self, parseClock]
      rw [oneOrTwo_digits m.hour (by omega)]
      simp only [h24, if_false, skip_self]
      rw [two_digits m.min (by omega)]
      simp only [h60, if_false, skip_self, parseSeconds]
      rw [two_digits m.sec (by omega)]
      simp only [hs60, if_false, parseFraction_none _ (zoneText_head _), parseZone_large _ hz]

/-- When the hours of the zone are small enough. -/
theorem zone_iff (o : Int) (k : Nat) : (zoneMinutes o).natAbs / 60 ≤ k ↔ o.natAbs < (k + 1) * 3600 := by
  unfold zoneMinutes
  have : (o.tdiv 60).natAbs = o.natAbs / 60 := by rw [Int.natAbs_tdiv]; rfl
  rw [this]
  omega

theorem zone_tmod (o : Int) : 60 * zoneMinutes o = o - o.tmod 60 := by
  unfold zoneMinutes
  have := Int.mul_tdiv_add_tmod o 60
  omega

theorem instant_arrived (m : Moment) (n : Nat) :
    instant (arrived m n) = instant m - m.nanos + n + (m.offset.tmod 60) * 10 ^ 9 := by
  have h := zone_tmod m.offset
  unfold instant arrived
  simp only [h]
  omega

end Verif.Times
