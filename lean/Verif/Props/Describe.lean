import Verif.Model.Describe

/-! # C70: the comment of a schema without type -/

namespace Verif.Describe

/-- How long a text is as a comment. -/
def weight (s : Str) : Nat := (s.flatMap (fun c => if c = '\n' then ['\n', '/', '/', ' '] else [c])).length

theorem weight_nil : weight [] = 0 := rfl

theorem weight_append (a b : Str) : weight (a ++ b) = weight a + weight b := by
  simp [weight]

theorem weight_cons (c : Char) (s : Str) : weight (c :: s) = weight [c] + weight s := weight_append [c] s

theorem digit_weight (n : Nat) (h : n < 16) : weight [Nat.digitChar n] = 1 := by
  have : ∀ n : Fin 16, weight [Nat.digitChar n.1] = 1 := by decide
  exact this ⟨n, h⟩

theorem hex_small (n : Nat) (h : n < 16) : hex n = [Nat.digitChar n] := by rw [hex, if_pos h]

theorem hex_big (n : Nat) (h : ¬ n < 16) : hex n = hex (n / 16) ++ [Nat.digitChar (n % 16)] := by rw [hex, if_neg h]

theorem hex_pos (n : Nat) : 1 ≤ weight (hex n) := by
  by_cases h : n < 16
  · rw [hex_small n h, digit_weight n h]; exact Nat.le_refl 1
  · rw [hex_big n h, weight_append, digit_weight _ (Nat.mod_lt _ (by omega))]; omega

theorem hex_mono : ∀ (b a : Nat), a ≤ b → weight (hex a) ≤ weight (hex b) := by
  intro b
  induction b using Nat.strongRecOn with
  | _ b ih =>
    intro a hab
    by_cases ha : a < 16
    · rw [hex_small a ha, digit_weight a ha]; exact hex_pos b
    · have hb : ¬ b < 16 := by omega
      rw [hex_big a ha, hex_big b hb, weight_append, weight_append, digit_weight _ (Nat.mod_lt _ (by omega)),
        digit_weight _ (Nat.mod_lt _ (by omega))]
      have := ih (b / 16) (by omega) (a / 16) (Nat.div_le_div_right hab)
      omega

theorem hex_longer (a : Nat) : weight (hex a) < weight (hex (16 * a + 16)) := by
  rw [hex_big (16 * a + 16) (by omega), weight_append, digit_weight _ (Nat.mod_lt _ (by omega))]
  have : (16 * a + 16) / 16 = a + 1 := by omega
  rw [this]
  have := hex_mono (a + 1) a (by omega)
  omega

mutual
/-- No pointer is printed. -/
def free : GoV → Bool
  | .text _ => true
  | .nil => true
  | .ptr _ => false
  | .list vs => freeAll vs
  | .map es => freeEntries es
  | .struct fs => freeEntries fs
def freeAll : List GoV → Bool
  | [] => true
  | v :: vs => free v && freeAll vs
def freeEntries : List (Str × GoV) → Bool
  | [] => true
  | (_, v) :: es => free v && freeEntries es
end

theorem showAll_more (a : Nat → Nat) (v w : GoV) (vs : List GoV) :
    showAll a (v :: w :: vs) = show' a v ++ ' ' :: showAll a (w :: vs) := by rw [showAll]; simp

theorem showEntries_more (a : Nat → Nat) (k : Str) (v : GoV) (e : Str × GoV) (es : List (Str × GoV)) :
    showEntries a ((k, v) :: e :: es) = k ++ ':' :: (show' a v ++ ' ' :: showEntries a (e :: es)) := by rw [showEntries]; simp

mutual
theorem free_same (a b : Nat → Nat) : ∀ v, free v = true → show' a v = show' b v
  | .text s, _ => by rw [show', show']
  | .nil, _ => by rw [show', show']
  | .ptr o, h => by rw [free] at h; cases h
  | .list vs, h => by rw [free] at h; rw [show', show', freeAll_same a b vs h]
  | .map es, h => by rw [free] at h; rw [show', show', freeEntries_same a b es h]
  | .struct es, h => by rw [free] at h; rw [show', show', freeEntries_same a b es h]
theorem freeAll_same (a b : Nat → Nat) : ∀ vs, freeAll vs = true → showAll a vs = showAll b vs
  | [], _ => by rw [showAll, showAll]
  | [v], h => by
    rw [freeAll, Bool.and_eq_true] at h
    rw [showAll, showAll, free_same a b v h.1]
  | v :: w :: vs, h => by
    rw [freeAll, Bool.and_eq_true] at h
    rw [showAll_more, showAll_more, free_same a b v h.1, freeAll_same a b (w :: vs) h.2]
theorem freeEntries_same (a b : Nat → Nat) : ∀ es, freeEntries es = true → showEntries a es = showEntries b es
  | [], _ => by rw [showEntries, showEntries]
  | [(k, v)], h => by
    rw [freeEntries, Bool.and_eq_true] at h
    rw [showEntries, showEntries, free_same a b v h.1]
  | (k, v) :: e :: es, h => by
    rw [freeEntries, Bool.and_eq_true] at h
    rw [showEntries_more, showEntries_more, free_same a b v h.1, freeEntries_same a b (e :: es) h.2]
end

/-- Two places for the objects: the same, and further up. -/
def low (o : Nat) : Nat := o
def high (o : Nat) : Nat := 16 * o + 16

/-- `x` and `y` weigh the same, or `y` more if there is a pointer. -/
def Grows (fr : Bool) (x y : Str) : Prop := if fr then weight x = weight y else weight x < weight y

theorem Grows.le {fr : Bool} {x y : Str} (h : Grows fr x y) : weight x ≤ weight y := by
  unfold Grows at h; split at h <;> omega

theorem Grows.wrap {fr : Bool} {x y : Str} (p q : Str) (h : Grows fr x y) : Grows fr (p ++ x ++ q) (p ++ y ++ q) := by
  unfold Grows at h ⊢
  simp only [weight_append]
  cases fr <;> simp_all

theorem Grows.both {f g : Bool} {x y x' y' : Str} (m : Str) (h : Grows f x y) (h' : Grows g x' y') :
    Grows (f && g) (x ++ m ++ x') (y ++ m ++ y') := by
  unfold Grows at *
  simp only [weight_append]
  cases f <;> cases g <;> simp_all <;> omega

mutual
theorem grows : ∀ v, Grows (free v) (show' low v) (show' high v)
  | .text s => by rw [free, show', show']; exact rfl
  | .nil => by rw [free, show', show']; exact rfl
  | .ptr o => by
    rw [free, show', show']
    show weight _ < weight _
    rw [weight_cons '0', weight_cons 'x', weight_cons '0' ('x' :: hex (high o)), weight_cons 'x' (hex (high o))]
    have := hex_longer o
    unfold low high
    omega
  | .list vs => by rw [free, show', show']; exact (growsAll vs).wrap ['['] [']']
  | .map es => by rw [free, show', show']; exact (growsEntries es).wrap ['m', 'a', 'p', '['] [']']
  | .struct es => by rw [free, show', show']; exact (growsEntries es).wrap ['{'] ['}']
theorem growsAll : ∀ vs, Grows (freeAll vs) (showAll low vs) (showAll high vs)
  | [] => by rw [freeAll, showAll, showAll]; exact rfl
  | [v] => by
    rw [freeAll, freeAll, Bool.and_true, showAll, showAll]; exact grows v
  | v :: w :: vs => by
    rw [freeAll, showAll_more, showAll_more]
    have := (grows v).both [' '] (growsAll (w :: vs))
    simpa using this
theorem growsEntries : ∀ es, Grows (freeEntries es) (showEntries low es) (showEntries high es)
  | [] => by rw [freeEntries, showEntries, showEntries]; exact rfl
  | [(k, v)] => by
    rw [freeEntries, freeEntries, Bool.and_true, showEntries, showEntries]
    have := (grows v).wrap (k ++ [':']) []
    simpa using this
  | (k, v) :: e :: es => by
    rw [freeEntries, showEntries_more, showEntries_more]
    have := ((grows v).both [' '] (growsEntries (e :: es))).wrap (k ++ [':']) []
    simpa using this
end

theorem low_injective : Function.Injective low := fun _ _ h => h
theorem high_injective : Function.Injective high := fun a b h => by unfold high at h; omega

theorem trim_last (s : Str) (c : Char) (h : c ≠ '\n') : ChannelAddr.trimNewline (s ++ [c]) = s ++ [c] := by
  unfold ChannelAddr.trimNewline
  simp [h]

/-- The schema has nothing behind a pointer: no properties, items or alternatives, no reference, no extension but `x-go-type`. -/
def Schema.Simple (s : Schema) : Prop :=
  s.properties = [] ∧ s.patternProperties = [] ∧ s.additionalProperties = none ∧ s.additionalItems = [] ∧ s.items = none ∧
  s.contains = [] ∧ s.allOf = [] ∧ s.anyOf = [] ∧ s.oneOf = [] ∧ s.not = none ∧ s.referenceTo = none ∧
  s.inheritedAllOf = [] ∧ s.inheritedAnyOf = [] ∧ s.inheritedOneOf = [] ∧ s.shouldOmitEmpty = none ∧
  s.goTypeImport = none ∧ s.omitEmpty = none

theorem free_opt (o : Option Nat) : free (opt o) = true ↔ o = none := by
  cases o <;> simp [opt, free]

theorem free_seq (os : List Nat) : free (seq os) = true ↔ os = [] := by
  cases os <;> simp [seq, free, freeAll]

theorem free_ptrs (es : List (Str × Nat)) : free (ptrs es) = true ↔ es = [] := by
  cases es <;> simp [ptrs, free, freeEntries]

theorem free_value (s : Schema) : free s.value = true ↔ s.Simple := by
  unfold Schema.value Schema.Simple plain
  simp only [free, freeEntries, Bool.and_eq_true, Bool.true_and, Bool.and_true, free_opt, free_seq, free_ptrs, and_assoc]

theorem describe_eq (addr : Nat → Nat) (s : Schema) : describe addr s =
    ('&' :: show' addr s.value).flatMap (fun c => if c = '\n' then ['\n', '/', '/', ' '] else [c]) := by
  have : ∃ t, '&' :: show' addr s.value = t ++ ['}'] := by
    unfold Schema.value
    rw [show']
    exact ⟨'&' :: '{' :: _, rfl⟩
  obtain ⟨t, ht⟩ := this
  unfold describe ChannelAddr.multiLineComment
  rw [ht, trim_last t '}' (by decide)]

/-- **C70, comments of schemas without type.** The comment is the same wherever the objects are in memory exactly when the
schema has nothing behind a pointer. -/
theorem C70_described_partial (s : Schema) :
    (∀ a b : Nat → Nat, Function.Injective a → Function.Injective b → describe a s = describe b s) ↔ s.Simple := by
  constructor
  · intro h
    have he := h low high low_injective high_injective
    rw [describe_eq, describe_eq] at he
    have hw : weight ('&' :: show' low s.value) = weight ('&' :: show' high s.value) := congrArg List.length he
    rw [weight_cons, weight_cons '&' (show' high s.value)] at hw
    have hg := grows s.value
    rw [← free_value]
    cases hf : free s.value with
    | true => rfl
    | false =>
      rw [hf] at hg
      have : weight (show' low s.value) < weight (show' high s.value) := hg
      omega
  · intro hs a b _ _
    rw [describe_eq, describe_eq, free_same a b _ ((free_value s).2 hs)]

/-- A schema with properties and no type, as many are written. -/
def point : Schema := { texts := fun _ => [], properties := [(['x'], 0), (['y'], 1)] }

/-- **C70 is violated**: generating twice from a schema with properties and no type gives two different texts, as soon as the
objects are elsewhere in memory. -/
theorem C70_violated_addresses (s : Schema) (h : s.properties ≠ []) :
    ∃ a b : Nat → Nat, Function.Injective a ∧ Function.Injective b ∧ describe a s ≠ describe b s := by
  refine Classical.byContradiction fun hn => ?_
  refine h ((C70_described_partial s).1 ?_).1
  intro a b ha hb
  exact Classical.byContradiction fun hne => hn ⟨a, b, ha, hb, hne⟩

example : ∃ a b : Nat → Nat, Function.Injective a ∧ Function.Injective b ∧ describe a point ≠ describe b point :=
  C70_violated_addresses point (by simp [point])

example : show' (fun o => 255 + o) (ptrs point.properties) = "map[x:0xff y:0x100]".toList := by
  simp only [ptrs, point, List.map, show', showEntries]
  rw [hex_big, hex_small, hex_big, hex_big, hex_small] <;> decide

end Verif.Describe
