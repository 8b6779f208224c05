/-!
# Go strings as lists

`strings.Split` and `strings.Join` with a one-character separator, on lists of characters.
-/

namespace Verif

/-- A Go string, as the list of its characters. -/
abbrev Str := List Char

namespace Str

/-- `strings.Split(s, sep)` for a separator of one character: always at least one part. -/
def split (sep : Char) : Str → List Str
  | [] => [[]]
  | c :: s =>
    if c = sep then [] :: split sep s
    else match split sep s with
      | [] => [[c]]        -- not reached: see `split_ne_nil`
      | t :: ts => (c :: t) :: ts

/-- `strings.Join(parts, sep)`. -/
def join (sep : Char) : List Str → Str
  | [] => []
  | [t] => t
  | t :: ts => t ++ sep :: join sep ts

theorem split_ne_nil (sep : Char) (s : Str) : split sep s ≠ [] := by
  cases s with
  | nil => simp [split]
  | cons c s =>
    unfold split
    split
    · simp
    · split <;> simp

theorem split_append (sep : Char) (t s : Str) (h : sep ∉ t) :
    split sep (t ++ sep :: s) = t :: split sep s := by
  induction t with
  | nil => simp [split]
  | cons c t ih =>
    have hc : c ≠ sep := fun he => h (by simp [he])
    have ht : sep ∉ t := fun hm => h (by simp [hm])
    simp [split, hc, ih ht]

theorem split_single (sep : Char) (t : Str) (h : sep ∉ t) : split sep t = [t] := by
  induction t with
  | nil => rfl
  | cons c t ih =>
    have hc : c ≠ sep := fun he => h (by simp [he])
    have ht : sep ∉ t := fun hm => h (by simp [hm])
    simp [split, hc, ih ht]

/-- Splitting what was joined from separator-free parts gives the parts back. -/
theorem split_join (sep : Char) : ∀ ts : List Str, ts ≠ [] → (∀ t ∈ ts, sep ∉ t) →
    split sep (join sep ts) = ts := by
  intro ts
  induction ts with
  | nil => intro h; exact absurd rfl h
  | cons t ts ih =>
    intro _ hs
    cases ts with
    | nil => exact split_single sep t (hs t (by simp))
    | cons u us =>
      rw [join, split_append sep t _ (hs t (by simp)),
        ih (by simp) (fun x hx => hs x (List.mem_cons_of_mem _ hx))]
      · intro h; cases h

/-- Joining what was split gives the string back. -/
theorem join_split (sep : Char) (s : Str) : join sep (split sep s) = s := by
  induction s with
  | nil => rfl
  | cons c s ih =>
    unfold split
    have hne := split_ne_nil sep s
    split
    · rename_i h
      match hs : split sep s with
      | [] => exact absurd hs hne
      | t :: ts => rw [hs] at ih; simp [join, ih, h]
    · match hs : split sep s with
      | [] => exact absurd hs hne
      | [t] => rw [hs] at ih; simp only [join] at ih ⊢; rw [ih]
      | t :: u :: ts => rw [hs] at ih; simp only [join, List.cons_append] at ih ⊢; rw [ih]

/-- No part contains the separator. -/
theorem not_mem_split (sep : Char) (s : Str) : ∀ t ∈ split sep s, sep ∉ t := by
  induction s with
  | nil => simp [split]
  | cons c s ih =>
    unfold split
    split
    · intro t ht
      simp only [List.mem_cons] at ht
      rcases ht with rfl | ht
      · simp
      · exact ih t ht
    · rename_i hc
      match hs : split sep s with
      | [] => exact absurd hs (split_ne_nil sep s)
      | u :: us =>
        rw [hs] at ih
        intro t ht
        simp only [List.mem_cons] at ht
        rcases ht with rfl | ht
        · simp only [List.mem_cons, not_or]
          exact ⟨fun h => hc h.symm, ih u (by simp)⟩
        · exact ih t (List.mem_cons_of_mem _ ht)

end Str
end Verif
