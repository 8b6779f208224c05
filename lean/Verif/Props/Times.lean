import Verif.Proofs.Times
import Verif.Props.Payload

/-! # C113: date-times arrive as the same point in time -/

namespace Verif.Times

/-- **C113 (partial: headers and payloads).** The point in time arrives exactly when the year has four digits, the zone
is less than 25 hours away and consists of whole minutes, and there is no fraction of a second. The time is then the same,
with its zone. -/
theorem C113_text_iff_partial (m : Moment) (hv : Valid m) :
    ((∃ m', viaText m = some m' ∧ instant m' = instant m) ↔
      (0 ≤ m.year ∧ m.year ≤ 9999) ∧ m.offset.natAbs < 25 * 3600 ∧ 60 ∣ m.offset ∧ m.nanos = 0) ∧
    ((∃ m', viaText m = some m' ∧ instant m' = instant m) → viaText m = some m) := by
  have hn := hv.nanos
  have hb1 := Int.tmod_lt_of_pos m.offset (b := 60) (by decide)
  have hb2 := Int.lt_tmod_of_pos m.offset (b := 60) (by decide)
  have hdvd : 60 ∣ m.offset ↔ m.offset.tmod 60 = 0 := Int.dvd_iff_tmod_eq_zero
  have hone : (∃ m', viaText m = some m' ∧ instant m' = instant m) →
      ((0 ≤ m.year ∧ m.year ≤ 9999) ∧ m.offset.natAbs < 25 * 3600 ∧ 60 ∣ m.offset ∧ m.nanos = 0) := by
    rintro ⟨m', h1, h2⟩
    by_cases hc : (0 ≤ m.year ∧ m.year ≤ 9999) ∧ (zoneMinutes m.offset).natAbs / 60 ≤ 24
    · rw [viaText_ok m hv hc.1 hc.2] at h1
      cases h1
      rw [instant_arrived] at h2
      refine ⟨hc.1, (zone_iff _ 24).mp hc.2, ?_, ?_⟩
      · rw [hdvd]; omega
      · omega
    · rw [viaText_none m hv hc] at h1; cases h1
  have htwo : ((0 ≤ m.year ∧ m.year ≤ 9999) ∧ m.offset.natAbs < 25 * 3600 ∧ 60 ∣ m.offset ∧ m.nanos = 0) →
      viaText m = some m := by
    rintro ⟨hy, ho, hd, h0⟩
    rw [viaText_ok m hv hy ((zone_iff _ 24).mpr ho)]
    have := zone_tmod m.offset
    rw [hdvd.mp hd, Int.sub_zero] at this
    simp only [arrived, this, ← h0]
  exact ⟨⟨hone, fun h => ⟨m, htwo h, rfl⟩⟩, fun h => htwo (hone h)⟩

/-- **C113 (partial: JSON).** In a JSON object fractions of a second are kept; zones must be less than a day away. -/
theorem C113_json_iff_partial (m : Moment) (hv : Valid m) :
    ((∃ m', viaJson m = some m' ∧ instant m' = instant m) ↔
      (0 ≤ m.year ∧ m.year ≤ 9999) ∧ m.offset.natAbs < 24 * 3600 ∧ 60 ∣ m.offset) ∧
    ((∃ m', viaJson m = some m' ∧ instant m' = instant m) → viaJson m = some m) := by
  have hb1 := Int.tmod_lt_of_pos m.offset (b := 60) (by decide)
  have hb2 := Int.lt_tmod_of_pos m.offset (b := 60) (by decide)
  have hdvd : 60 ∣ m.offset ↔ m.offset.tmod 60 = 0 := Int.dvd_iff_tmod_eq_zero
  have hlen : (paddedInt 4 m.year).length = 4 ↔ (0 ≤ m.year ∧ m.year ≤ 9999) := by
    unfold paddedInt
    split
    · next h =>
      have : 4 ≤ (padded 4 m.year.natAbs).length := by
        unfold padded
        split
        · rw [digits_length]; omega
        · next h => rw [digits_length]; have := width_big 4 m.year.natAbs (by omega); omega
      simp only [List.length_cons]; omega
    · next h =>
      by_cases hs : m.year.natAbs < 10 ^ 4
      · rw [padded_small 4 _ hs, digits_length]; omega
      · have := (padded_big 4 m.year.natAbs (by omega)).2
        omega
  have hz0 : m.offset = 0 → (zoneMinutes m.offset).natAbs / 60 = 0 := by intro h; rw [h]; rfl
  have hval : ((0 ≤ m.year ∧ m.year ≤ 9999) ∧ m.offset.natAbs < 24 * 3600) → viaJson m = some (arrived m m.nanos) := by
    rintro ⟨hy, ho⟩
    have hz : (zoneMinutes m.offset).natAbs / 60 ≤ 23 := (zone_iff _ 23).mpr ho
    have hz' : ¬ (m.offset ≠ 0 ∧ 24 ≤ (zoneMinutes m.offset).natAbs / 60) := by omega
    simp only [viaJson, marshal, hlen.mpr hy, hz', ne_eq, not_true_eq_false, if_false, Option.bind_some]
    exact formatNano_ok m hv hy (by omega)
  have hnone : ¬ ((0 ≤ m.year ∧ m.year ≤ 9999) ∧ m.offset.natAbs < 24 * 3600) → viaJson m = none := by
    intro hc
    unfold viaJson marshal
    by_cases hy : 0 ≤ m.year ∧ m.year ≤ 9999
    · have hz : ¬ (zoneMinutes m.offset).natAbs / 60 ≤ 23 := fun h => hc ⟨hy, (zone_iff _ 23).mp h⟩
      have hz' : m.offset ≠ 0 ∧ 24 ≤ (zoneMinutes m.offset).natAbs / 60 := by
        refine ⟨fun h => ?_, by omega⟩
        have := hz0 h; omega
      simp only [hlen.mpr hy, ne_eq, not_true_eq_false, if_false]
      rw [if_pos hz']; rfl
    · have : (paddedInt 4 m.year).length ≠ 4 := fun h => hy (hlen.mp h)
      simp only [this, ne_eq, not_false_eq_true, if_true, Option.bind_none]
  have hone : (∃ m', viaJson m = some m' ∧ instant m' = instant m) →
      ((0 ≤ m.year ∧ m.year ≤ 9999) ∧ m.offset.natAbs < 24 * 3600 ∧ 60 ∣ m.offset) := by
    rintro ⟨m', h1, h2⟩
    by_cases hc : (0 ≤ m.year ∧ m.year ≤ 9999) ∧ m.offset.natAbs < 24 * 3600
    · rw [hval hc] at h1
      cases h1
      rw [instant_arrived] at h2
      refine ⟨hc.1, hc.2, ?_⟩
      rw [hdvd]; omega
    · rw [hnone hc] at h1; cases h1
  have htwo : ((0 ≤ m.year ∧ m.year ≤ 9999) ∧ m.offset.natAbs < 24 * 3600 ∧ 60 ∣ m.offset) → viaJson m = some m := by
    rintro ⟨hy, ho, hd⟩
    rw [hval ⟨hy, ho⟩]
    have := zone_tmod m.offset
    rw [hdvd.mp hd, Int.sub_zero] at this
    simp only [arrived, this]
  exact ⟨⟨hone, fun h => ⟨m, htwo h, rfl⟩⟩, fun h => htwo (hone h)⟩

/-- What arrives from a header or a payload is the time cut to whole seconds, if the zone has whole minutes. -/
theorem C113_text_whole_seconds (m m' : Moment) (hv : Valid m) (h : viaText m = some m') (hz : 60 ∣ m.offset) :
    instant m' ≤ instant m ∧ instant m < instant m' + 10 ^ 9 ∧ m' = { m with nanos := 0 } := by
  by_cases hc : (0 ≤ m.year ∧ m.year ≤ 9999) ∧ (zoneMinutes m.offset).natAbs / 60 ≤ 24
  · rw [viaText_ok m hv hc.1 hc.2] at h
    cases h
    have h0 := Int.dvd_iff_tmod_eq_zero.mp hz
    have := zone_tmod m.offset
    rw [h0, Int.sub_zero] at this
    have hn := hv.nanos
    rw [instant_arrived, h0]
    refine ⟨by omega, by omega, by simp only [arrived, this]⟩
  · rw [viaText_none m hv hc] at h; cases h

theorem rfc2_digits (n : Nat) (h : n < 100) : rfc2 n = digits 2 n := by
  simp only [rfc2, digits, List.nil_append, List.cons_append]
  rw [Nat.mod_eq_of_lt (a := n / 10) (by omega)]

theorem rfc4_digits (n : Nat) (h : n < 10000) : rfc4 n = digits 4 n := by
  simp only [rfc4, digits, List.nil_append, List.cons_append]
  have h1 : n / 10 / 10 / 10 % 10 = n / 1000 := by omega
  have h2 : n / 10 / 10 % 10 = n / 100 % 10 := by omega
  rw [h1, h2]

theorem fracNanos_zero (ds : List Nat) : fracNanos 0 ds = 0 := by
  induction ds with
  | nil => rfl
  | cons d ds ih => simp [fracNanos, ih]

/-- The unit of the first of that many digits. -/
def unitOf : Nat → Nat
  | 0 => 0
  | k + 1 => 10 ^ k

theorem unitOf_div (k : Nat) : unitOf (k + 1) / 10 = unitOf k := by
  cases k with
  | zero => rfl
  | succ k => simp [unitOf, Nat.pow_succ]

theorem readNat_frac (k : Nat) (ds : List Nat) (hd : ∀ d ∈ ds, d ≤ 9) (a : Nat) :
    readNat a ((ds.map digit).take k) * 10 ^ (k - ((ds.map digit).take k).length) = a * 10 ^ k + fracNanos (unitOf k) ds := by
  induction k generalizing ds a with
  | zero => simp [readNat, unitOf, fracNanos_zero]
  | succ k ih =>
    cases ds with
    | nil => simp [readNat, fracNanos]
    | cons d ds =>
      have hdd := hd d (by simp)
      simp only [List.map_cons, List.take_succ_cons, readNat, digitVal_digit d (by omega), List.length_cons,
        Nat.add_sub_add_right, fracNanos, unitOf_div]
      rw [ih ds (fun d h => hd d (by simp [h]))]
      simp only [unitOf, Nat.pow_succ, Nat.add_mul]
      rw [Nat.mul_comm 10 a, Nat.mul_assoc, Nat.mul_comm 10 (10 ^ k)]
      omega

theorem nanosOf_digits (ds : List Nat) (hd : ∀ d ∈ ds, d ≤ 9) : nanosOf (ds.map digit) = fracNanos (10 ^ 8) ds := by
  have := readNat_frac 9 ds hd 0
  rw [Nat.zero_mul, Nat.zero_add] at this
  exact this

theorem rfcZone_head (z : Option (Bool × Nat × Nat)) : ZoneHead (rfcZone false z) := by
  match z with
  | none => exact ⟨'Z', [], rfl, by decide, by decide, by decide⟩
  | some (true, h, m) => exact ⟨'-', _, rfl, by decide, by decide, by decide⟩
  | some (false, h, m) => exact ⟨'+', _, rfl, by decide, by decide, by decide⟩

theorem rfcZone_more (z : Option (Bool × Nat × Nat)) (hz : ∀ s h m, z = some (s, h, m) → h ≤ 23 ∧ m ≤ 59) (t : Str) :
    parseZone (rfcZone false z ++ t) = some (rfcOffset z, t) := by
  match z with
  | none => rfl
  | some (s, h, m) =>
    obtain ⟨h1, h2⟩ := hz s h m rfl
    have ht1 := two_digits h (by omega) (':' :: (digits 2 m ++ t))
    have ht2 := two_digits m (by omega) t
    have hc : ¬ (24 < h ∨ 60 < m) := by omega
    cases s with
    | true =>
      have e1 : ¬ ('-' = 'Z') := by decide
      have e2 : ¬ ('-' = '+') := by decide
      simp only [rfcZone, if_true, rfc2_digits h (by omega), rfc2_digits m (by omega), parseZone, e1, e2, if_false, ht1,
        skip_self, ht2, hc, rfcOffset, List.cons_append, List.append_assoc]
    | false =>
      have e1 : ¬ ('+' = 'Z') := by decide
      simp only [rfcZone, if_true, rfc2_digits h (by omega), rfc2_digits m (by omega), parseZone, e1, if_false, ht1,
        skip_self, ht2, hc, rfcOffset, Bool.false_eq_true, List.cons_append, List.append_assoc]

theorem rfcZone_read (z : Option (Bool × Nat × Nat)) (hz : ∀ s h m, z = some (s, h, m) → h ≤ 23 ∧ m ≤ 59) :
    parseZone (rfcZone false z) = some (rfcOffset z, []) := by
  have := rfcZone_more z hz []
  rwa [List.append_nil] at this

theorem digits_of_list (ds : List Nat) (hd : ∀ d ∈ ds, d ≤ 9) : Digits (ds.map digit) := by
  intro c hc
  obtain ⟨d, h1, rfl⟩ := List.mem_map.mp hc
  exact ⟨d, digitVal_digit d (by have := hd d h1; omega)⟩

/-- **C113 (partial: texts of others).** Every date-time of RFC 3339 is read as what it says, to the nanosecond, unless it
is a leap second or written with small letters. -/
theorem C113_reads_rfc3339_partial (r : Rfc) (hr : r.Ok) (hs : r.sec ≤ 59) (hl : r.lower = false) :
    parse r.text = some r.moment := by
  obtain ⟨_, hm, _, hd⟩ := day_month _ _ _ hr.day
  have hy := hr.year; have hh := hr.hour; have hmi := hr.min
  have hf : ∃ nanos, parseFraction (rfcFrac r.frac ++ rfcZone false r.zone) = (nanos, rfcZone false r.zone) ∧
      nanos = r.moment.nanos := by
    unfold Rfc.moment
    cases hfr : r.frac with
    | none => exact ⟨0, parseFraction_none _ (rfcZone_head _), rfl⟩
    | some ds =>
      obtain ⟨h1, h2⟩ := hr.frac ds hfr
      refine ⟨_, parseFraction_some _ (digits_of_list ds h2) (by simpa using h1) _ (rfcZone_head _), ?_⟩
      exact nanosOf_digits ds h2
  obtain ⟨nanos, hf, hn⟩ := hf
  have := parse_ok r.year r.month r.day r.hour r.min r.sec nanos (by omega) (by omega) (by omega) (by omega) (by omega)
    (by omega) _ _ _ hf (rfcZone_read r.zone hr.zone) hr.day
  simp only [Rfc.text, hl, rfc4_digits r.year (by omega), rfc2_digits r.month (by omega), rfc2_digits r.day (by omega),
    rfc2_digits r.hour (by omega), rfc2_digits r.min (by omega), rfc2_digits r.sec (by omega)]
  rw [hn] at this
  exact this

/-- Whatever is behind a date-time makes it unreadable. -/
theorem C113_refuses_more (r : Rfc) (hr : r.Ok) (hs : r.sec ≤ 59) (hl : r.lower = false) (t : Str) (ht : t ≠ []) :
    parse (r.text ++ t) = none := by
  obtain ⟨_, hm, _, hd⟩ := day_month _ _ _ hr.day
  have hy := hr.year; have hh := hr.hour; have hmi := hr.min
  obtain ⟨hd1, hd3⟩ := (day_iff r.year r.month r.day).mp hr.day
  have h24 : ¬ 24 ≤ r.hour := by omega
  have h60 : ¬ 60 ≤ r.min := by omega
  have hs60 : ¬ 60 ≤ r.sec := by omega
  have hzh : ZoneHead (rfcZone false r.zone ++ t) := by
    obtain ⟨c, u, he, h1, h2, h3⟩ := rfcZone_head r.zone
    exact ⟨c, u ++ t, by rw [he]; rfl, h1, h2, h3⟩
  have hf : (parseFraction (rfcFrac r.frac ++ (rfcZone false r.zone ++ t))).2 = rfcZone false r.zone ++ t := by
    cases hfr : r.frac with
    | none => rw [show rfcFrac none = [] from rfl, List.nil_append, parseFraction_none _ hzh]
    | some ds =>
      obtain ⟨h1, h2⟩ := hr.frac ds hfr
      rw [show rfcFrac (some ds) = '.' :: ds.map digit from rfl, List.cons_append,
        parseFraction_some _ (digits_of_list ds h2) (by simpa using h1) _ hzh]
  simp only [Rfc.text, hl, rfc4_digits r.year (by omega), rfc2_digits r.month (by omega), rfc2_digits r.day (by omega),
    rfc2_digits r.hour (by omega), rfc2_digits r.min (by omega), rfc2_digits r.sec (by omega), Bool.false_eq_true, if_false,
    List.append_assoc, List.cons_append]
  unfold parse
  rw [four_digits _ (by omega)]
  simp only [skip_self]
  rw [two_digits r.month (by omega)]
  simp only [hd1, if_false, skip_self]
  rw [two_digits r.day (by omega)]
  simp only [skip_self, parseClock]
  rw [oneOrTwo_digits r.hour (by omega)]
  simp only [h24, if_false, skip_self]
  rw [two_digits r.min (by omega)]
  simp only [h60, if_false, skip_self, parseSeconds]
  rw [two_digits r.sec (by omega)]
  simp only [hs60, if_false, hf, rfcZone_more r.zone hr.zone t, finish, ht, ne_eq, not_false_eq_true, if_true]

theorem digitVal_lt (c : Char) (d : Nat) (h : digitVal c = some d) : d < 10 := by
  unfold digitVal at h
  have e0 : '0'.toNat = 48 := rfl
  have e9 : '9'.toNat = 57 := rfl
  rw [e0, e9] at h
  split at h
  · cases h; omega
  · cases h

theorem readNat_lt (s : Str) : ∀ a k, a < 10 ^ k → readNat a s < 10 ^ (k + s.length) := by
  induction s with
  | nil => intro a k h; exact h
  | cons c s ih =>
    intro a k h
    unfold readNat
    split
    · next d hd =>
      have hlt := digitVal_lt c d hd
      have := ih (10 * a + d) (k + 1) (by rw [Nat.pow_succ]; omega)
      rw [List.length_cons, ← Nat.add_assoc, Nat.add_right_comm]
      exact this
    · exact Nat.lt_of_lt_of_le h (Nat.pow_le_pow_right (by decide) (by omega))

theorem nanosOf_lt (ds : Str) : nanosOf ds < 10 ^ 9 := by
  unfold nanosOf
  have hl : (ds.take 9).length ≤ 9 := List.length_take_le 9 ds
  have := readNat_lt (ds.take 9) 0 0 (by decide)
  rw [Nat.zero_add] at this
  have hp : 0 < 10 ^ (9 - (ds.take 9).length) := Nat.pow_pos (by decide)
  have := Nat.mul_lt_mul_of_pos_right this hp
  rw [← Nat.pow_add, show (ds.take 9).length + (9 - (ds.take 9).length) = 9 by omega] at this
  exact this

theorem parseFraction_lt (s : Str) : (parseFraction s).1 < 10 ^ 9 := by
  unfold parseFraction
  split
  · split
    · exact nanosOf_lt _
    · exact (by decide : 0 < 10 ^ 9)
  · exact (by decide : 0 < 10 ^ 9)

/-- Only times are read: a date that does not exist, or hour 24, is refused. -/
theorem C113_reads_only_times (s : Str) (m : Moment) (h : parse s = some m) : Valid m ∧ 0 ≤ m.year := by
  unfold parse at h
  split at h
  · cases h
  split at h
  · cases h
  split at h
  · cases h
  split at h
  · cases h
  next hmonth =>
  split at h
  · cases h
  split at h
  · cases h
  split at h
  · cases h
  unfold parseClock at h
  split at h
  · cases h
  split at h
  · cases h
  next hhour =>
  split at h
  · cases h
  split at h
  · cases h
  split at h
  · cases h
  next hmin =>
  split at h
  · cases h
  unfold parseSeconds at h
  split at h
  · cases h
  split at h
  · cases h
  next hsec =>
  split at h
  · cases h
  unfold finish at h
  split at h
  · cases h
  split at h
  · cases h
  next hday =>
  cases h
  exact ⟨⟨(day_iff _ _ _).mpr ⟨hmonth, hday⟩, by dsimp only; omega, by dsimp only; omega, by dsimp only; omega,
    parseFraction_lt _⟩, Int.natCast_nonneg _⟩

theorem year_length (y : Int) (h : (paddedInt 4 y).length = 4) : 0 ≤ y ∧ y ≤ 9999 := by
  unfold paddedInt at h
  split at h
  · have : 4 ≤ (padded 4 y.natAbs).length := by
      unfold padded
      split
      · rw [digits_length]; omega
      · rw [digits_length]; have := width_big 4 y.natAbs (by omega); omega
    simp only [List.length_cons] at h; omega
  · by_cases hs : y.natAbs < 10 ^ 4
    · omega
    · have := (padded_big 4 y.natAbs (by omega)).2
      omega

theorem digit_of_val (c : Char) (x : Nat) (h : digitVal c = some x) : digit x = c ∧ x ≤ 9 := by
  unfold digitVal at h
  split at h
  · next hc =>
    cases h
    have h0 : '0'.toNat = 48 := rfl
    have h9 : '9'.toNat = 57 := rfl
    refine ⟨?_, by omega⟩
    have : '0'.toNat + (c.toNat - '0'.toNat) = c.toNat := by omega
    unfold digit
    rw [this, Char.ofNat_toNat]
  · cases h

theorem list_of_digits (s : Str) (h : Digits s) : ∃ ds : List Nat, ds.map digit = s ∧ ∀ d ∈ ds, d ≤ 9 := by
  induction s with
  | nil => exact ⟨[], rfl, by simp⟩
  | cons c s ih =>
    obtain ⟨x, hx⟩ := h c (by simp)
    obtain ⟨ds, h1, h2⟩ := ih (fun c hc => h c (by simp [hc]))
    obtain ⟨h3, h4⟩ := digit_of_val c x hx
    refine ⟨x :: ds, by simp [h1, h3], ?_⟩
    intro d hd
    rcases List.mem_cons.mp hd with rfl | hd
    · exact h4
    · exact h2 d hd

theorem fraction_rfc (n : Nat) (h : n < 10 ^ 9) :
    ∃ f : Option (List Nat), fraction n = rfcFrac f ∧ ∀ ds, f = some ds → ds ≠ [] ∧ (∀ d ∈ ds, d ≤ 9) ∧ ds.length ≤ 9 := by
  unfold fraction
  split
  · exact ⟨none, rfl, by simp⟩
  · next h0 =>
    obtain ⟨ds, h1, h2⟩ := list_of_digits _ (trimZeros_digits n)
    refine ⟨some ds, by simp [rfcFrac, h1], ?_⟩
    intro ds' e
    cases e
    refine ⟨?_, h2, ?_⟩
    · rintro rfl
      exact trimZeros_ne_nil n h h0 h1.symm
    · obtain ⟨k, hk⟩ := trimZeros_split (digits 9 n)
      have := congrArg List.length hk
      rw [digits_length, List.length_append, ← h1, List.length_map] at this
      omega

theorem zone_rfc (o : Int) (h : o ≠ 0 → (zoneMinutes o).natAbs / 60 ≤ 23) :
    ∃ z : Option (Bool × Nat × Nat), zoneText o = rfcZone false z ∧ ∀ s h m, z = some (s, h, m) → h ≤ 23 ∧ m ≤ 59 := by
  unfold zoneText
  split
  · exact ⟨none, rfl, by simp⟩
  · next h0 =>
    have hz := h h0
    refine ⟨some (decide (zoneMinutes o < 0), (zoneMinutes o).natAbs / 60, (zoneMinutes o).natAbs % 60), ?_, ?_⟩
    · simp only [rfcZone, padded_small 2 ((zoneMinutes o).natAbs / 60) (by omega),
        padded_small 2 ((zoneMinutes o).natAbs % 60) (by omega), rfc2_digits ((zoneMinutes o).natAbs / 60) (by omega),
        rfc2_digits ((zoneMinutes o).natAbs % 60) (by omega), decide_eq_true_eq]
    · intro s h m e
      cases e
      omega

/-- What is written into JSON objects is a date-time of RFC 3339, with at most nine digits in the fraction, that says the
point in time in the same zone up to whole minutes. -/
theorem C113_writes_rfc3339 (m : Moment) (hv : Valid m) (s : Str) (h : marshal m = some s) :
    ∃ r : Rfc, r.Ok ∧ r.sec ≤ 59 ∧ r.lower = false ∧ (∀ ds, r.frac = some ds → ds.length ≤ 9) ∧ s = r.text ∧
      r.moment = { m with offset := 60 * zoneMinutes m.offset } := by
  unfold marshal at h
  split at h
  · cases h
  next hy =>
  split at h
  · cases h
  next hz =>
  cases h
  have hy' := year_length m.year (Decidable.of_not_not hy)
  have hz' : m.offset ≠ 0 → (zoneMinutes m.offset).natAbs / 60 ≤ 23 := by
    intro h0
    by_cases hc : 24 ≤ (zoneMinutes m.offset).natAbs / 60
    · exact absurd ⟨h0, hc⟩ hz
    · omega
  have hz24 : (zoneMinutes m.offset).natAbs / 60 ≤ 24 := by
    by_cases h0 : m.offset = 0
    · rw [h0]; decide
    · have := hz' h0; omega
  obtain ⟨f, hf1, hf2⟩ := fraction_rfc m.nanos hv.nanos
  obtain ⟨z, hz1, hz2⟩ := zone_rfc m.offset hz'
  have hyn : (m.year.natAbs : Int) = m.year := by omega
  let r : Rfc := { year := m.year.natAbs, month := m.month, day := m.day, hour := m.hour, min := m.min, sec := m.sec,
                   frac := f, zone := z }
  have h1 := hv.hour; have h2 := hv.min; have h3 := hv.sec
  have hok : r.Ok := by
    refine ⟨?_, ?_, ?_, ?_, ?_, fun ds hd => ⟨(hf2 ds hd).1, (hf2 ds hd).2.1⟩, hz2⟩
    · show m.year.natAbs ≤ 9999; omega
    · show Day (m.year.natAbs : Int) m.month m.day
      rw [hyn]; exact hv.day
    · show m.hour ≤ 23; omega
    · show m.min ≤ 59; omega
    · show m.sec ≤ 60; omega
  have htext : formatNano m = r.text := by
    obtain ⟨_, hm, _, hd⟩ := day_month _ _ _ hv.day
    rw [formatNano, civil_digits m hv hy', hf1, hz1]
    simp only [r, Rfc.text, rfc4_digits m.year.natAbs (by omega), rfc2_digits m.month (by omega),
      rfc2_digits m.day (by omega), rfc2_digits m.hour (by omega), rfc2_digits m.min (by omega),
      rfc2_digits m.sec (by omega), Bool.false_eq_true, if_false]
  have hsec : r.sec ≤ 59 := by show m.sec ≤ 59; omega
  refine ⟨r, hok, hsec, rfl, fun ds hd => (hf2 ds hd).2.2, htext, ?_⟩
  have p1 := C113_reads_rfc3339_partial r hok hsec rfl
  have p2 := formatNano_ok m hv hy' hz24
  rw [htext, p1] at p2
  rw [Option.some.inj p2]
  rfl

example : ∃ r : Rfc, r.Ok ∧ "2024-02-29T23:30:00.25+05:30".toList = r.text ∧ r.moment = ⟨2024, 2, 29, 23, 30, 0, 250000000, 19800⟩ := by
  obtain ⟨r, h1, _, _, _, h2, h3⟩ := C113_writes_rfc3339 ⟨2024, 2, 29, 23, 30, 0, 250000000, 19800⟩
    ⟨⟨by decide, by decide, 29, by decide, by decide⟩, by decide, by decide, by decide, by decide⟩
    "2024-02-29T23:30:00.25+05:30".toList (by decide +kernel)
  exact ⟨r, h1, h2, h3⟩

/-- C113 is violated by leap seconds, which RFC 3339 allows: none of their texts is read. -/
theorem C113_violated_leap_second (r : Rfc) (hr : r.Ok) (hs : r.sec = 60) (hl : r.lower = false) : parse r.text = none := by
  obtain ⟨_, hm, _, hd⟩ := day_month _ _ _ hr.day
  have hy := hr.year; have hh := hr.hour; have hmi := hr.min
  obtain ⟨hd1, hd3⟩ := (day_iff r.year r.month r.day).mp hr.day
  have h24 : ¬ 24 ≤ r.hour := by omega
  have h60 : ¬ 60 ≤ r.min := by omega
  simp only [Rfc.text, hl, rfc4_digits r.year (by omega), rfc2_digits r.month (by omega), rfc2_digits r.day (by omega),
    rfc2_digits r.hour (by omega), rfc2_digits r.min (by omega), rfc2_digits r.sec (by omega), Bool.false_eq_true, if_false]
  unfold parse
  rw [four_digits _ (by omega)]
  simp only [skip_self]
  rw [two_digits r.month (by omega)]
  simp only [hd1, if_false, skip_self]
  rw [two_digits r.day (by omega)]
  simp only [skip_self, parseClock]
  rw [oneOrTwo_digits r.hour (by omega)]
  simp only [h24, if_false, skip_self]
  rw [two_digits r.min (by omega)]
  simp only [h60, if_false, skip_self, parseSeconds]
  rw [two_digits r.sec (by omega)]
  simp [hs]

/-- C113 is violated by small letters, which RFC 3339 allows: none of these texts is read. -/
theorem C113_violated_small_letters (r : Rfc) (hr : r.Ok) (hl : r.lower = true) : parse r.text = none := by
  obtain ⟨_, hm, _, hd⟩ := day_month _ _ _ hr.day
  have hy := hr.year
  obtain ⟨hd1, hd3⟩ := (day_iff r.year r.month r.day).mp hr.day
  simp only [Rfc.text, hl, rfc4_digits r.year (by omega), rfc2_digits r.month (by omega), rfc2_digits r.day (by omega), if_true]
  unfold parse
  rw [four_digits _ (by omega)]
  simp only [skip_self]
  rw [two_digits r.month (by omega)]
  simp only [hd1, if_false, skip_self]
  rw [two_digits r.day (by omega)]
  simp [skip]

/-- Half a second past the beginning of 2020. -/
def half : Moment := ⟨2020, 1, 1, 0, 0, 0, 500000000, 0⟩

/-- Noon of the first of July 1920 in Amsterdam, 19 minutes and 32 seconds east of Greenwich. -/
def amsterdam : Moment := ⟨1920, 7, 1, 12, 0, 0, 0, 19 * 60 + 32⟩

/-- The year 10000. -/
def far : Moment := ⟨10000, 1, 1, 0, 0, 0, 0, 0⟩

theorem day_of (y month day : Nat) (h : ¬ (month = 0 ∨ 12 < month) ∧ ¬ (day < 1 ∨ daysIn month y < day)) : Day y month day :=
  (day_iff y month day).mpr h

theorem half_valid : Valid half := ⟨day_of 2020 1 1 (by decide), by decide, by decide, by decide, by decide⟩
theorem amsterdam_valid : Valid amsterdam := ⟨day_of 1920 7 1 (by decide), by decide, by decide, by decide, by decide⟩
theorem far_valid : Valid far := ⟨day_of 10000 1 1 (by decide), by decide, by decide, by decide, by decide⟩

/-- C113 is violated by fractions of a second in headers and payloads: half a second is lost. -/
theorem C113_violated_fraction : Valid half ∧ ∃ m', viaText half = some m' ∧ instant m' + 500000000 = instant half :=
  ⟨half_valid, { half with nanos := 0 }, by decide +kernel, by decide +kernel⟩

/-- C113 is violated by zones with seconds, in headers, payloads and JSON: what arrives is 32 seconds later. -/
theorem C113_violated_zone : Valid amsterdam ∧ ∃ m', viaText amsterdam = some m' ∧ viaJson amsterdam = some m' ∧
    instant m' = instant amsterdam + 32 * 10 ^ 9 :=
  ⟨amsterdam_valid, { amsterdam with offset := 19 * 60 }, by decide +kernel, by decide +kernel, by decide +kernel⟩

/-- C113 is violated by years of five digits: as header or payload they are sent, and refused by the receiver. -/
theorem C113_violated_year : Valid far ∧ viaText far = none ∧ marshal far = none :=
  ⟨far_valid, viaText_none far far_valid (by decide), by simp [marshal, paddedInt, padded, far, width, digits]⟩

/-! ## The assumptions of C37 and C38 -/

/-- Times that can be written and read. -/
def Good (m : Moment) : Prop := Valid m ∧ (0 ≤ m.year ∧ m.year ≤ 9999) ∧ m.offset.natAbs < 25 * 3600

/-- The bytes of a text of ASCII characters. -/
def toBytes (s : Str) : Bytes := s.map (fun c => UInt8.ofNat c.toNat)

/-- Characters that are single bytes. -/
def ofBytes (b : Bytes) : Str := b.map (fun x => Char.ofNat x.toNat)

theorem ofBytes_toBytes (s : Str) (h : ∀ c ∈ s, c.toNat < 128) : ofBytes (toBytes s) = s := by
  unfold ofBytes toBytes
  rw [List.map_map]
  conv => rhs; rw [← List.map_id s]
  apply List.map_congr_left
  intro c hc
  have := h c hc
  show Char.ofNat (UInt8.ofNat c.toNat).toNat = c
  rw [UInt8.toNat_ofNat_of_lt' (by show c.toNat < 256; omega)]
  exact Char.ofNat_toNat c

theorem digit_ascii (n : Nat) (h : n < 10) : (digit n).toNat < 128 := by revert h; revert n; decide

theorem digits_ascii (w n : Nat) : ∀ c ∈ digits w n, c.toNat < 128 := by
  induction w generalizing n with
  | zero => intro c hc; simp [digits] at hc
  | succ w ih =>
    intro c hc
    simp only [digits, List.mem_append, List.mem_singleton] at hc
    rcases hc with hc | rfl
    · exact ih _ c hc
    · exact digit_ascii _ (by omega)

theorem padded_ascii (w n : Nat) : ∀ c ∈ padded w n, c.toNat < 128 := by
  unfold padded; split <;> exact digits_ascii _ _

theorem format_ascii (m : Moment) : ∀ c ∈ format m, c.toNat < 128 := by
  have hp := padded_ascii
  have h1 : '-'.toNat < 128 := by decide
  have h2 : ':'.toNat < 128 := by decide
  have h3 : 'T'.toNat < 128 := by decide
  have h4 : '+'.toNat < 128 := by decide
  have h5 : 'Z'.toNat < 128 := by decide
  have hy : ∀ c ∈ paddedInt 4 m.year, c.toNat < 128 := by
    intro c hc
    unfold paddedInt at hc
    split at hc
    · rcases List.mem_cons.mp hc with rfl | hc
      · exact h1
      · exact hp _ _ c hc
    · exact hp _ _ c hc
  have hz : ∀ c ∈ zoneText m.offset, c.toNat < 128 := by
    intro c hc
    unfold zoneText at hc
    split at hc
    · simp only [List.mem_singleton] at hc; subst hc; exact h5
    · simp only [List.mem_cons, List.mem_append] at hc
      rcases hc with rfl | hc | rfl | hc
      · split
        · exact h1
        · exact h4
      · exact hp _ _ c hc
      · exact h2
      · exact hp _ _ c hc
  intro c hc
  simp only [format, civilText, List.mem_append, List.mem_cons] at hc
  rcases hc with (hc | rfl | hc | rfl | hc | rfl | hc | rfl | hc | rfl | hc) | hc
  · exact hy c hc
  · exact h1
  · exact hp _ _ c hc
  · exact h1
  · exact hp _ _ c hc
  · exact h3
  · exact hp _ _ c hc
  · exact h2
  · exact hp _ _ c hc
  · exact h2
  · exact hp _ _ c hc
  · exact hz c hc

theorem good_arrived (m : Moment) (h : Good m) : Good (arrived m 0) := by
  obtain ⟨hv, hy, ho⟩ := h
  refine ⟨⟨hv.day, hv.hour, hv.min, hv.sec, by simp [arrived]⟩, hy, ?_⟩
  have h1 := zone_tmod m.offset
  have h2 := Int.mul_tdiv_add_tmod m.offset 60
  have h3 : (m.offset.tdiv 60).natAbs = m.offset.natAbs / 60 := by rw [Int.natAbs_tdiv]; rfl
  show (60 * zoneMinutes m.offset).natAbs < _
  unfold zoneMinutes
  have h60 : Int.natAbs 60 = 60 := rfl
  rw [Int.natAbs_mul, h3, h60]
  omega

open Classical in
/-- The libraries of C37 and C38 with the times of Go. -/
noncomputable def goLib {J : Type} (marshal : J → Option Bytes) (unmarshal : Bytes → Option J) : Payload.Lib J {m // Good m} where
  marshal := marshal
  unmarshal := unmarshal
  format t := toBytes (format t.1)
  parse b := match parse (ofBytes b) with
    | none => none
    | some m => if h : Good m then some ⟨m, h⟩ else none
  trunc t := ⟨arrived t.1 0, good_arrived t.1 t.2⟩

/-- What C37 and C38 assume about times is true of Go's, for years of four digits and zones less than 25 hours away. -/
theorem C113_assumption_of_C37 {J : Type} (marshal : J → Option Bytes) (unmarshal : Bytes → Option J)
    (hj : ∀ v b, marshal v = some b → unmarshal b = some v) : (goLib marshal unmarshal).Lawful := by
  refine ⟨hj, fun t => ?_⟩
  obtain ⟨m, hg⟩ := t
  have h := viaText_ok m hg.1 hg.2.1 ((zone_iff _ 24).mpr hg.2.2)
  have ha := good_arrived m hg
  have hb := ofBytes_toBytes _ (format_ascii m)
  unfold viaText at h
  simp only [goLib, hb, h, ha, dif_pos]

/-- A date-time payload arrives exactly when it is in whole seconds and its zone in whole minutes. -/
theorem C113_payload_iff {J : Type} (marshal : J → Option Bytes) (unmarshal : Bytes → Option J)
    (hj : ∀ v b, marshal v = some b → unmarshal b = some v) (isRef : Bool) (m : Moment) (hg : Good m) :
    Payload.Survives (goLib marshal unmarshal) ⟨.dateTime, isRef⟩ (⟨m, hg⟩ : {m // Good m}) ↔ m.nanos = 0 ∧ 60 ∣ m.offset := by
  rw [Payload.C37_times_survive_iff_partial _ (C113_assumption_of_C37 marshal unmarshal hj)]
  have hdvd : 60 ∣ m.offset ↔ m.offset.tmod 60 = 0 := Int.dvd_iff_tmod_eq_zero
  have hz := zone_tmod m.offset
  show (⟨arrived m 0, _⟩ : {m // Good m}) = ⟨m, hg⟩ ↔ _
  rw [Subtype.mk.injEq]
  constructor
  · intro h
    have h1 := congrArg Moment.nanos h
    have h2 := congrArg Moment.offset h
    simp only [arrived] at h1 h2
    exact ⟨h1.symm, hdvd.mpr (by omega)⟩
  · rintro ⟨h1, h2⟩
    rw [hdvd.mp h2, Int.sub_zero] at hz
    simp only [arrived, hz, ← h1]

/-! ## Examples -/

/-- A moment that arrives in every way, with a zone. -/
def paris : Moment := ⟨2024, 2, 29, 23, 59, 59, 0, 3600⟩

theorem paris_valid : Valid paris := ⟨day_of 2024 2 29 (by decide), by decide, by decide, by decide, by decide⟩

example : format paris = "2024-02-29T23:59:59+01:00".toList := by decide +kernel
example : ∃ m', viaText paris = some m' ∧ instant m' = instant paris :=
  (C113_text_iff_partial paris paris_valid).1.mpr (by decide)
example : formatNano { half with nanos := 120000, offset := -12600 } = "2020-01-01T00:00:00.00012-03:30".toList := by decide +kernel
example : ∃ m', viaJson half = some m' ∧ instant m' = instant half :=
  (C113_json_iff_partial half half_valid).1.mpr (by decide)
example : ¬ ∃ m', viaText half = some m' ∧ instant m' = instant half :=
  fun h => absurd ((C113_text_iff_partial half half_valid).1.mp h).2.2.2 (by decide)
example : viaText half = some { half with nanos := 0 } ∧ (60 : Int) ∣ half.offset := ⟨by decide +kernel, by decide⟩

/-- Points in time are what one expects: a day after the last of February 2024. -/
example : instant ⟨2024, 3, 1, 0, 0, 0, 0, 0⟩ - instant ⟨2024, 2, 28, 0, 0, 0, 0, 0⟩ = 2 * 86400 * 10 ^ 9 := by decide +kernel
/-- The beginning of 1970 in UTC is one in the morning in Paris; 2000 years have 730485 days. -/
example : instant ⟨1970, 1, 1, 0, 0, 0, 0, 0⟩ = instant ⟨1970, 1, 1, 1, 0, 0, 0, 3600⟩ ∧ yearStart 2000 = 730485 := by decide +kernel

/-- A text of RFC 3339 with many digits, and its meaning. -/
def sample : Rfc := ⟨1985, 4, 12, 23, 20, 50, some [5, 2, 0, 0, 0, 0, 0, 0, 1, 9], some (true, 8, 30), false⟩

theorem sample_ok : sample.Ok := by
  refine ⟨by decide, day_of 1985 4 12 (by decide), by decide, by decide, by decide, ?_, ?_⟩
  · intro ds h; cases h; exact ⟨by simp, by decide⟩
  · intro s h m hz; cases hz; decide

example : sample.text = "1985-04-12T23:20:50.5200000019-08:30".toList := by decide
example : parse sample.text = some ⟨1985, 4, 12, 23, 20, 50, 520000001, -30600⟩ := C113_reads_rfc3339_partial sample sample_ok (by decide) rfl

example : parse (sample.text ++ [' ']) = none := C113_refuses_more sample sample_ok (by decide) rfl _ (by decide)
example : parse "2023-02-29T00:00:00Z".toList = none ∧ parse "2023-02-28T7:00:00,25Z".toList = some ⟨2023, 2, 28, 7, 0, 0, 250000000, 0⟩ := by decide

/-- The leap second at the end of 1990, an example of RFC 3339. -/
def leap1990 : Rfc := ⟨1990, 12, 31, 23, 59, 60, none, none, false⟩

theorem leap1990_ok : leap1990.Ok := by
  refine ⟨by decide, day_of 1990 12 31 (by decide), by decide, by decide, by decide, ?_, ?_⟩
  · intro ds h; cases h
  · intro s h m hz; cases hz

example : parse "1990-12-31T23:59:60Z".toList = none := C113_violated_leap_second leap1990 leap1990_ok rfl rfl
example : parse { leap1990 with sec := 59, lower := true }.text = none :=
  C113_violated_small_letters _ ⟨leap1990_ok.year, leap1990_ok.day, by decide, by decide, by decide, leap1990_ok.frac, leap1990_ok.zone⟩ rfl

/-- A payload that survives, and one that does not. -/
example : Payload.Survives (goLib (J := Bytes) some some) ⟨.dateTime, false⟩ (⟨paris, paris_valid, by decide, by decide⟩ : {m // Good m}) :=
  (C113_payload_iff some some (fun _ _ h => h.symm) false paris _).mpr (by decide)
example : ¬ Payload.Survives (goLib (J := Bytes) some some) ⟨.dateTime, false⟩ (⟨half, half_valid, by decide, by decide⟩ : {m // Good m}) :=
  fun h => absurd ((C113_payload_iff some some (fun _ _ h => h.symm) false half _).mp h).1 (by decide)

end Verif.Times
