import Verif.Model.PayloadRef
import Verif.Proofs.Json

/-! # C37 for texts behind references -/

namespace Verif.PayloadRef

theorem prepend_some (c : Char) (r : Option (Str × Str)) (p : Str × Str) (h : Json.prepend c r = some p) :
    ∃ q, r = some q ∧ p = (c :: q.1, q.2) := by
  unfold Json.prepend at h
  cases r with
  | none => cases h
  | some q => cases h; exact ⟨q, rfl, rfl⟩

/-- What a string literal stands for is shorter than the literal. -/
theorem parseStr_length (n : Nat) : ∀ s p, s.length ≤ n → Json.parseStr s = some p → p.1.length < s.length := by
  induction n with
  | zero =>
    intro s p hs h
    cases s with
    | nil => simp [Json.parseStr] at h
    | cons c s => simp at hs
  | succ n ih =>
    intro s p hs h
    cases s with
    | nil => simp [Json.parseStr] at h
    | cons c s =>
      rw [List.length_cons] at hs
      rw [Json.parseStr.eq_def] at h
      simp only at h
      split at h
      · cases h; simp
      · split at h
        · split at h
          · cases h
          · rename_i e s1
            rw [List.length_cons] at hs
            split at h
            · split at h
              · rename_i a b c' d s2
                simp only [List.length_cons] at hs
                split at h
                · cases h
                · obtain ⟨q, hq, rfl⟩ := prepend_some _ _ _ h
                  have := ih s2 q (by omega) hq
                  simp only [List.length_cons]
                  omega
              · cases h
            · split at h
              · cases h
              · obtain ⟨q, hq, rfl⟩ := prepend_some _ _ _ h
                have := ih s1 q (by omega) hq
                simp only [List.length_cons]
                omega
        · split at h
          · cases h
          · obtain ⟨q, hq, rfl⟩ := prepend_some _ _ _ h
            have := ih s q (by omega) hq
            simp only [List.length_cons]
            omega

theorem skipWs_length (s : Str) : (Json.skipWs s).length ≤ s.length := by
  induction s with
  | nil => simp [Json.skipWs]
  | cons c s ih =>
    unfold Json.skipWs
    split
    · simp only [List.length_cons]; omega
    · simp

theorem parse_str_length (s v : Str) (h : Json.parse s = some (.str v)) : v.length < s.length := by
  unfold Json.parse at h
  split at h
  · cases h
  · rename_i j r hp
    split at h
    · cases h
      rw [Json.parseVal] at hp
      have hl := skipWs_length s
      split at hp
      · cases hp
      · rename_i c t ht
        rw [ht, List.length_cons] at hl
        split at hp
        · cases hq : Json.parseStr t with
          | none => rw [hq] at hp; cases hp
          | some q =>
            rw [hq] at hp
            cases hp
            have := parseStr_length t.length t q (Nat.le_refl _) hq
            omega
        · exfalso
          repeat' split at hp
          all_goals first
            | (cases hp; done)
            | (simp only [Option.map_eq_some_iff] at hp; obtain ⟨q, -, hq⟩ := hp; cases hq; done)
    · cases h

/-- C37 for texts: behind at most one reference every text arrives. -/
theorem C37_text_by_reference_partial (v : Via) (hv : v ≠ .more) (s : Str) : decode v (encode v s) = some s := by
  cases v
  · rfl
  · rfl
  · exact absurd rfl hv

example : decode .one (encode .one ['h', 'i']) = some ['h', 'i'] := C37_text_by_reference_partial .one (by decide) _

/-- C37 is violated for texts behind two references: no text arrives, whatever it is. -/
theorem C37_violated_text_by_two_references (s : Str) : decode .more (encode .more s) ≠ some s := by
  intro h
  simp only [decode, encode, unmarshalText] at h
  split at h
  · rename_i v hp
    cases h
    have := parse_str_length s s hp
    omega
  · rename_i hp
    cases h
    rw [show Json.parse [] = none from rfl] at hp
    cases hp
  · cases h

/-- Plain words are refused, a text in quotes arrives without them. -/
theorem C37_violated_text_witness : decode .more (encode .more ['h', 'i']) = none ∧
    decode .more (encode .more ['"', 'h', 'i', '"']) = some ['h', 'i'] := by
  decide

end Verif.PayloadRef
