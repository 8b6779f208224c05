import Verif.Model.Payload

/-! # Facts about byte orders -/

namespace Verif.Payload

theorem length_lePut : ∀ w n, (lePut w n).length = w := by
  intro w
  induction w with
  | zero => intro n; rfl
  | succ w ih => intro n; simp [lePut, ih]

theorem leGet_lePut : ∀ w n, leGet (lePut w n) = n % 256 ^ w := by
  intro w
  induction w with
  | zero => intro n; simp [lePut, leGet, Nat.mod_one]
  | succ w ih =>
    intro n
    simp only [lePut, leGet, ih]
    rw [Nat.pow_succ, Nat.mul_comm (256 ^ w) 256, Nat.mod_mul]
    simp [UInt8.toNat_ofNat']

theorem leGet_lt : ∀ bs : Bytes, leGet bs < 256 ^ bs.length := by
  intro bs
  induction bs with
  | nil => simp [leGet]
  | cons b bs ih =>
    simp only [leGet, List.length_cons, Nat.pow_succ]
    have := b.toNat_lt
    omega

theorem lePut_leGet : ∀ bs : Bytes, lePut bs.length (leGet bs) = bs := by
  intro bs
  induction bs with
  | nil => rfl
  | cons b bs ih =>
    have hb := b.toNat_lt
    have h1 : (b.toNat + 256 * leGet bs) % 256 = b.toNat := by omega
    have h2 : (b.toNat + 256 * leGet bs) / 256 = leGet bs := by omega
    simp only [List.length_cons, lePut, leGet, h1, h2, ih]
    simp

theorem leGet_inj {a b : Bytes} (hl : a.length = b.length) (h : leGet a = leGet b) : a = b := by
  rw [← lePut_leGet a, ← lePut_leGet b, hl, h]

end Verif.Payload
