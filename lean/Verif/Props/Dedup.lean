import Verif.Model.Dedup

/-! # C64: duplicate removal -/

namespace Verif.Dedup

/-- The elements of a list that no earlier element has the key of, in order. -/
def firsts {β κ : Type} [DecidableEq κ] (key : β → κ) (l : List β) : List β :=
  (l.zipIdx.filter (fun e => !(l.take e.2).any (fun y => decide (key y = key e.1)))).map (·.1)

theorem firsts_snoc {β κ : Type} [DecidableEq κ] (key : β → κ) (l : List β) (x : β) :
    firsts key (l ++ [x]) = firsts key l ++ if l.any (fun y => decide (key y = key x)) then [] else [x] := by
  unfold firsts
  rw [List.zipIdx_append, List.filter_append, List.map_append]
  congr 1
  · congr 1
    apply List.filter_congr
    intro e he
    have : e.2 < l.length := by
      have := List.snd_lt_of_mem_zipIdx he
      simpa using this
    rw [List.take_append_of_le_length (by omega)]
  · have ht : List.take l.length (l ++ [x]) = l := by simp
    simp only [List.zipIdx_cons, List.zipIdx_nil, Nat.zero_add, List.filter_cons, List.filter_nil, ht]
    cases l.any (fun y => decide (key y = key x)) <;> simp

/-- Keeping, of a list, the first element of each key: in order (a sublist), one per key, each key kept, and
each kept element the first with its key. The first field determines the result; the others follow from it. -/
structure KeepsFirsts {β κ : Type} [DecidableEq κ] (key : β → κ) (l r : List β) : Prop where
  exactly : r = firsts key l
  inOrder : r.Sublist l
  once : (r.map key).Nodup
  all : ∀ x ∈ l, key x ∈ r.map key
  first : ∀ x ∈ r, l.find? (fun y => decide (key y = key x)) = some x

theorem isInSlice_iff (l : List Str) (x : Str) : isInSlice l x = true ↔ x ∈ l := by
  induction l with
  | nil => simp [isInSlice]
  | cons v l ih =>
    simp only [isInSlice, List.mem_cons]
    by_cases h : v = x
    · simp [h]
    · simp [h, ih, Ne.symm h]

/-- One step: an element whose key is already kept. -/
theorem KeepsFirsts.skip {β κ : Type} [DecidableEq κ] {key : β → κ} {l r : List β} (h : KeepsFirsts key l r) (x : β)
    (hx : key x ∈ r.map key) : KeepsFirsts key (l ++ [x]) r where
  exactly := by
    rw [firsts_snoc, if_pos, ← h.exactly, List.append_nil]
    obtain ⟨y, hy, hyx⟩ := List.mem_map.mp hx
    exact List.any_eq_true.mpr ⟨y, h.inOrder.subset hy, decide_eq_true hyx⟩
  inOrder := h.inOrder.trans (List.sublist_append_left l [x])
  once := h.once
  all := by
    intro y hy
    rcases List.mem_append.mp hy with hy | hy
    · exact h.all y hy
    · rw [List.mem_singleton.mp hy]; exact hx
  first := by
    intro y hy
    rw [List.find?_append, h.first y hy]
    rfl

/-- One step: an element with a new key. -/
theorem KeepsFirsts.keep {β κ : Type} [DecidableEq κ] {key : β → κ} {l r : List β} (h : KeepsFirsts key l r) (x : β)
    (hx : key x ∉ r.map key) : KeepsFirsts key (l ++ [x]) (r ++ [x]) where
  exactly := by
    rw [firsts_snoc, if_neg, ← h.exactly]
    intro hc
    obtain ⟨y, hy, hyx⟩ := List.any_eq_true.mp hc
    exact hx (of_decide_eq_true hyx ▸ h.all y hy)
  inOrder := List.Sublist.append h.inOrder (List.Sublist.refl _)
  once := by
    rw [List.map_append, List.nodup_append]
    refine ⟨h.once, by simp, ?_⟩
    intro a ha b hb hab
    simp only [List.map_cons, List.map_nil, List.mem_singleton] at hb
    subst hb
    exact hx (hab ▸ ha)
  all := by
    intro y hy
    rw [List.map_append, List.mem_append]
    rcases List.mem_append.mp hy with hy | hy
    · exact Or.inl (h.all y hy)
    · right; rw [List.mem_singleton.mp hy]; simp
  first := by
    intro y hy
    rw [List.find?_append]
    rcases List.mem_append.mp hy with hy | hy
    · rw [h.first y hy]; rfl
    · rw [List.mem_singleton.mp hy]
      have : l.find? (fun z => decide (key z = key x)) = none := by
        rw [List.find?_eq_none]
        intro z hz hzx
        exact hx (of_decide_eq_true hzx ▸ h.all z hz)
      rw [this]
      simp

theorem KeepsFirsts.nil {β κ : Type} [DecidableEq κ] (key : β → κ) : KeepsFirsts key ([] : List β) [] :=
  ⟨rfl, List.Sublist.refl _, by simp, by simp, by simp⟩

theorem loop_keeps {α : Type} [DecidableEq α] (rest : List α) : ∀ (seen : GoMap α Bool) (list done : List α),
    KeepsFirsts id done list → (∀ x, seen.get x = none ↔ x ∉ list) → KeepsFirsts id (done ++ rest) (loop seen list rest) := by
  induction rest with
  | nil => intro seen list done h _; simpa [loop] using h
  | cons x rest ih =>
    intro seen list done h hs
    have e : done ++ x :: rest = (done ++ [x]) ++ rest := by simp
    rw [e]
    unfold loop
    cases hx : seen.get x with
    | some b =>
      have hin : x ∈ list := by
        by_cases hc : x ∈ list
        · exact hc
        · rw [(hs x).mpr hc] at hx; cases hx
      exact ih seen list (done ++ [x]) (h.skip x (by simpa using hin)) hs
    | none =>
      have hnin := (hs x).mp hx
      refine ih _ _ _ (h.keep x (by simpa using hnin)) ?_
      intro y
      rw [GoMap.get_put]
      by_cases hxy : x = y
      · simp [hxy]
      · simp only [hxy, if_false, hs y, List.mem_append, List.mem_singleton, not_or]
        exact ⟨fun h => ⟨h, fun h' => hxy h'.symm⟩, fun h => h.1⟩

/-- **C64 (names).** For every list: `RemoveDuplicateFromSlice` keeps exactly the first occurrences, in order. -/
theorem C64_names {α : Type} [DecidableEq α] (l : List α) : KeepsFirsts id l (removeDuplicate l) := by
  have := loop_keeps l [] [] [] (KeepsFirsts.nil id) (by simp)
  simpa [removeDuplicate] using this

theorem loopNamed_keeps {β : Type} (name : β → Str) (rest : List β) : ∀ (list done : List β),
    KeepsFirsts name done list → KeepsFirsts name (done ++ rest) (loopNamed name list rest) := by
  induction rest with
  | nil => intro list done h; simpa [loopNamed] using h
  | cons x rest ih =>
    intro list done h
    have e : done ++ x :: rest = (done ++ [x]) ++ rest := by simp
    rw [e]
    unfold loopNamed
    simp only
    split
    · rename_i hp
      apply ih
      apply h.skip
      rw [List.any_eq_true] at hp
      obtain ⟨y, hy, hyx⟩ := hp
      exact List.mem_map.mpr ⟨y, hy, of_decide_eq_true hyx⟩
    · rename_i hp
      apply ih
      apply h.keep
      intro hc
      obtain ⟨y, hy, hyx⟩ := List.mem_map.mp hc
      exact hp (List.any_eq_true.mpr ⟨y, hy, decide_eq_true hyx⟩)

/-- **C64 (tags and security schemes).** For every list: duplicates are decided by name, the first occurrence
is kept, in order. -/
theorem C64_named {β : Type} (name : β → Str) (l : List β) : KeepsFirsts name l (removeDuplicateNamed name l) := by
  have := loopNamed_keeps name l [] [] (KeepsFirsts.nil name)
  simpa [removeDuplicateNamed] using this

/-- A list with distinct keys is its own list of firsts. -/
theorem firsts_nodup {β κ : Type} [DecidableEq κ] (key : β → κ) (l : List β) (h : (l.map key).Nodup) : firsts key l = l := by
  have rev : ∀ l : List β, (l.reverse.map key).Nodup → firsts key l.reverse = l.reverse := by
    intro l
    induction l with
    | nil => intro _; rfl
    | cons x l ih =>
      intro h
      rw [List.reverse_cons, List.map_append, List.nodup_append] at h
      rw [List.reverse_cons, firsts_snoc, ih h.1, if_neg]
      intro hc
      obtain ⟨y, hy, hyx⟩ := List.any_eq_true.mp hc
      exact h.2.2 _ (List.mem_map_of_mem hy) (key x) (by simp) (of_decide_eq_true hyx)
  have := rev l.reverse (by simpa using h)
  simpa using this

/-- **C64 (no duplicates).** Removing duplicates twice is removing them once, for every list. -/
theorem C64_idempotent {α : Type} [DecidableEq α] (l : List α) : removeDuplicate (removeDuplicate l) = removeDuplicate l := by
  rw [(C64_names (removeDuplicate l)).exactly]
  exact firsts_nodup id _ (C64_names l).once

example : removeDuplicate ["b".toList, "a".toList, "b".toList] = ["b".toList, "a".toList] := by decide
example : removeDuplicateNamed (β := Str × Nat) (·.1) [("b".toList, 1), ("a".toList, 2), ("b".toList, 3)] =
    [("b".toList, 1), ("a".toList, 2)] := by decide

end Verif.Dedup
