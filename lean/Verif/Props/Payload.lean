import Verif.Proofs.Payload

/-! # C37: payloads survive the wire -/

namespace Verif.Payload

/-- The payload `v` arrives: it can be encoded, and decoding gives `v` back. -/
def Survives {J T : Type} (lib : Lib J T) (c : Cfg) (v : Value J T c.ty) : Prop :=
  ∃ b, encode lib c v = some b ∧ decode lib c b = .ok v

theorem Dec.ok_inj {α : Type} {a b : α} (h : Dec.ok a = Dec.ok b) : a = b := by cases h; rfl

/-- **C37 (partial: strings).** Every string arrives. -/
theorem C37_strings_survive_partial {J T : Type} (lib : Lib J T) (isRef : Bool) (v : Bytes) :
    Survives lib ⟨.string, isRef⟩ v := ⟨v, by cases isRef <;> rfl, by cases isRef <;> rfl⟩

/-- **C37 (partial: objects and arrays).** Every value JSON can express arrives. -/
theorem C37_json_survives_partial {J T : Type} (lib : Lib J T) (h : lib.Lawful) (isRef : Bool) (v : J)
    (hm : lib.marshal v ≠ none) : Survives lib ⟨.json, isRef⟩ v := by
  cases hb : lib.marshal v with
  | none => exact absurd hb hm
  | some b =>
    refine ⟨b, by cases isRef <;> exact hb, ?_⟩
    have := h.json v b hb
    cases isRef <;> simp [decode, this]

/-- **C37 (partial: times).** A time arrives exactly when it has nothing finer than RFC 3339 with seconds
can express. -/
theorem C37_times_survive_iff_partial {J T : Type} (lib : Lib J T) (h : lib.Lawful) (isRef : Bool) (t : T) :
    Survives lib ⟨.dateTime, isRef⟩ t ↔ lib.trunc t = t := by
  have h1 := h.time t
  constructor
  · rintro ⟨b, h2, h3⟩
    have hb : b = lib.format t := by cases isRef <;> (simp only [encode, Option.some.injEq] at h2; exact h2.symm)
    subst hb
    cases isRef <;> (simp only [decode, h1] at h3; exact Dec.ok_inj h3)
  · intro ht
    refine ⟨lib.format t, by cases isRef <;> rfl, ?_⟩
    cases isRef <;> simp [decode, h1, ht]

/-- Writing big-endian and reading little-endian reverses the bytes. -/
theorem survives_int_iff (w n : Nat) (hn : n < 256 ^ w) :
    leGet ((bePut w n).take w) = n ↔ (lePut w n).reverse = lePut w n := by
  have hl : (bePut w n).length = w := by simp [bePut, length_lePut]
  rw [List.take_of_length_le (by omega)]
  constructor
  · intro h
    apply leGet_inj (by simp)
    rw [leGet_lePut, Nat.mod_eq_of_lt hn]
    exact h
  · intro h
    unfold bePut
    rw [h, leGet_lePut, Nat.mod_eq_of_lt hn]

/-- **C37 is violated for integers:** exactly the integers whose bytes read the same in both directions
arrive (64 bits). -/
theorem C37_violated_int64_survive_iff {J T : Type} (lib : Lib J T) (isRef : Bool) (v : BitVec 64) :
    Survives lib ⟨.int64, isRef⟩ v ↔ (lePut 8 v.toNat).reverse = lePut 8 v.toNat := by
  have hlt : v.toNat < 256 ^ 8 := v.isLt
  rw [← survives_int_iff 8 v.toNat hlt]
  have hl : (bePut 8 v.toNat).length = 8 := by simp [bePut, length_lePut]
  have hd : decode lib ⟨.int64, isRef⟩ (bePut 8 v.toNat) =
      .ok (BitVec.ofNat 64 (leGet ((bePut 8 v.toNat).take 8))) := by
    cases isRef <;> simp [decode, hl]
  have hbound : leGet ((bePut 8 v.toNat).take 8) < 2 ^ 64 := by
    have := leGet_lt ((bePut 8 v.toNat).take 8)
    rw [List.take_of_length_le (by omega), hl] at this
    rw [List.take_of_length_le (by omega)]
    exact this
  constructor
  · rintro ⟨b, h1, h2⟩
    have hb : b = bePut 8 v.toNat := by
      cases isRef <;> (simp only [encode, Option.some.injEq] at h1; exact h1.symm)
    subst hb
    rw [hd] at h2
    have h2 := Dec.ok_inj h2
    have := congrArg BitVec.toNat h2
    rw [BitVec.toNat_ofNat, Nat.mod_eq_of_lt hbound] at this
    exact this
  · intro h
    refine ⟨bePut 8 v.toNat, by cases isRef <;> rfl, ?_⟩
    rw [hd, h]
    simp

/-- **C37 is violated for integers** (32 bits, schema in place): same set. -/
theorem C37_violated_int32_survive_iff {J T : Type} (lib : Lib J T) (v : BitVec 32) :
    Survives lib ⟨.int32, false⟩ v ↔ (lePut 4 v.toNat).reverse = lePut 4 v.toNat := by
  have hlt : v.toNat < 256 ^ 4 := v.isLt
  rw [← survives_int_iff 4 v.toNat hlt]
  have hl : (bePut 4 v.toNat).length = 4 := by simp [bePut, length_lePut]
  have hd : decode lib ⟨.int32, false⟩ (bePut 4 v.toNat) =
      .ok (BitVec.ofNat 32 (leGet ((bePut 4 v.toNat).take 4))) := by
    simp [decode, hl]
  have hbound : leGet ((bePut 4 v.toNat).take 4) < 2 ^ 32 := by
    have := leGet_lt ((bePut 4 v.toNat).take 4)
    rw [List.take_of_length_le (by omega), hl] at this
    rw [List.take_of_length_le (by omega)]
    exact this
  constructor
  · rintro ⟨b, h1, h2⟩
    have hb : b = bePut 4 v.toNat := by
      simp only [encode, Option.some.injEq] at h1; exact h1.symm
    subst hb
    rw [hd] at h2
    have h2 := Dec.ok_inj h2
    have := congrArg BitVec.toNat h2
    rw [BitVec.toNat_ofNat, Nat.mod_eq_of_lt hbound] at this
    exact this
  · intro h
    refine ⟨bePut 4 v.toNat, rfl, ?_⟩
    rw [hd, h]
    simp

theorem lePut_zero : ∀ w, lePut w 0 = List.replicate w 0 := by
  intro w
  induction w with
  | zero => rfl
  | succ w ih => simp [lePut, ih, List.replicate_succ]

/-- **C37 is violated for 32-bit integers behind a reference:** 8 bytes are written and 4 are read; only 0
and -1 arrive. -/
theorem C37_violated_int32_by_reference {J T : Type} (lib : Lib J T) (v : BitVec 32) :
    Survives lib ⟨.int32, true⟩ v ↔ v = 0 ∨ v = -1 := by
  have hhigh : decode lib ⟨.int32, true⟩ (bePut 8 (v.signExtend 64).toNat) =
      .ok (if v.msb then (-1 : BitVec 32) else (0 : BitVec 32)) := by
    have hl : (bePut 8 (v.signExtend 64).toNat).length = 8 := by simp [bePut, length_lePut]
    simp only [decode, hl, show ¬ (8 < 4) by omega, if_false]
    cases hm : v.msb with
    | false =>
      have h1 : (v.signExtend 64).toNat = v.toNat := by
        rw [BitVec.signExtend_eq_setWidth_of_msb_false hm]
        simp only [BitVec.toNat_setWidth]
        exact Nat.mod_eq_of_lt (by have := v.isLt; omega)
      have hv := v.isLt
      rw [h1]
      simp only [bePut, lePut, List.reverse_cons, List.reverse_nil, List.nil_append, List.cons_append,
        List.take_succ_cons, List.take_zero]
      have e1 : v.toNat / 256 / 256 / 256 / 256 = 0 := by omega
      simp [e1, leGet]
    | true =>
      have h1 : (v.signExtend 64).toNat = 2 ^ 64 - 2 ^ 32 + v.toNat := by
        rw [BitVec.toNat_signExtend]
        simp only [hm, if_true, BitVec.toNat_setWidth]
        have := v.isLt
        omega
      have hv := v.isLt
      rw [h1]
      simp only [bePut, lePut, List.reverse_cons, List.reverse_nil, List.nil_append, List.cons_append,
        List.take_succ_cons, List.take_zero]
      have e1 : (2 ^ 64 - 2 ^ 32 + v.toNat) / 256 / 256 / 256 / 256 = 2 ^ 32 - 1 := by omega
      simp [e1, leGet]
  constructor
  · rintro ⟨b, h1, h2⟩
    simp only [encode, Option.some.injEq] at h1
    rw [← h1, hhigh] at h2
    have h2 : (if v.msb then (-1 : BitVec 32) else 0) = v := Dec.ok_inj h2
    split at h2
    · right; exact h2.symm
    · left; exact h2.symm
  · intro h
    refine ⟨_, rfl, ?_⟩
    rw [hhigh]
    rcases h with rfl | rfl <;> rfl

/-- **C37 is violated for numbers:** only the number whose bits are 0 arrives. -/
theorem C37_violated_numbers {J T : Type} (lib : Lib J T) (isRef : Bool) (v : BitVec 64) :
    Survives lib ⟨.number, isRef⟩ v ↔ v = 0 := by
  have hl : (bePut 8 v.toNat).length = 8 := by simp [bePut, length_lePut]
  constructor
  · rintro ⟨b, h1, h2⟩
    have hb : b = bePut 8 v.toNat := by
      cases isRef <;> (simp only [encode, Option.some.injEq] at h1; exact h1.symm)
    subst hb
    cases isRef <;> (simp [decode, hl] at h2; exact (Dec.ok_inj h2).symm)
  · rintro rfl
    refine ⟨bePut 8 0, by cases isRef <;> rfl, by cases isRef <;> rfl⟩

/-- Finding: the integer 1 is received as 72057594037927936. -/
theorem C37_violated_witness {J T : Type} (lib : Lib J T) :
    encode lib ⟨.int64, false⟩ (1 : BitVec 64) = some [0, 0, 0, 0, 0, 0, 0, 1] ∧
    decode lib ⟨.int64, false⟩ [0, 0, 0, 0, 0, 0, 0, 1] = .ok (72057594037927936 : BitVec 64) ∧
    ¬ Survives lib ⟨.int64, false⟩ (1 : BitVec 64) := by
  refine ⟨by rfl, by rfl, ?_⟩
  rw [C37_violated_int64_survive_iff]
  decide

/-- A concrete lawful library: JSON values are byte strings, times are seconds and nanoseconds. -/
def lib0 : Lib Bytes (Nat × Nat) where
  marshal v := some v
  unmarshal b := some b
  format t := List.replicate t.1 0
  parse b := some (b.length, 0)
  trunc t := (t.1, 0)

theorem lib0_lawful : lib0.Lawful :=
  ⟨by intro v b h; simpa [lib0] using h.symm, by intro t; simp [lib0]⟩

example : Survives lib0 ⟨.json, true⟩ ([1, 2] : Bytes) := C37_json_survives_partial lib0 lib0_lawful true _ (by simp [lib0])
example : Survives lib0 ⟨.dateTime, false⟩ ((5, 0) : Nat × Nat) := (C37_times_survive_iff_partial lib0 lib0_lawful false _).mpr rfl
example : ¬ Survives lib0 ⟨.dateTime, false⟩ ((5, 3) : Nat × Nat) := by
  rw [C37_times_survive_iff_partial lib0 lib0_lawful]; decide
example : Survives lib0 ⟨.int64, false⟩ (0x0102030404030201 : BitVec 64) := by
  rw [C37_violated_int64_survive_iff]; decide

/-- **C66.** Decoding never panics, except on an integer or number payload shorter than its width; every
such payload panics. -/
theorem C66_panics_iff_short_partial {J T : Type} (lib : Lib J T) (c : Cfg) (b : Bytes) :
    decode lib c b = .panicked ↔
      (c.ty = .int32 ∧ b.length < 4) ∨ ((c.ty = .int64 ∨ c.ty = .number) ∧ b.length < 8) := by
  obtain ⟨ty, isRef⟩ := c
  cases ty with
  | string => simp [decode]
  | dateTime =>
    simp only [decode]
    split <;> simp
  | json =>
    simp only [decode]
    split <;> simp
  | int32 =>
    simp only [decode]
    split <;> simp_all
  | int64 =>
    simp only [decode]
    split <;> simp_all
  | number =>
    simp only [decode]
    split <;> simp_all

/-- **C66 is violated:** an empty message on a channel with integer payload crashes the receiver. -/
theorem C66_violated {J T : Type} (lib : Lib J T) : decode lib ⟨.int64, false⟩ [] = .panicked := rfl

end Verif.Payload
