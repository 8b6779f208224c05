import Verif.Model.TextLog
import Verif.Props.Logs

/-! # C81: human-readable logs can be read back -/

namespace Verif.TextLog

open Verif.Logs

/-! ## The specification: how a person reads such a text -/

/-- Number of spaces a line starts with. -/
def spaces : Str → Nat
  | ' ' :: s => spaces s + 1
  | _ => 0

/-- The text before the first colon, and what follows it. -/
def cut : Str → Option (Str × Str)
  | [] => none
  | c :: s => if c = ':' then some ([], s) else (cut s).map (fun p => (c :: p.1, p.2))

/-- A line: its depth, its key, and its value if there is one. -/
def readLine (l : Str) : Option (Nat × Str × Option Str) :=
  match cut (l.drop (spaces l)) with
  | none => none
  | some (k, rest) => some (spaces l / 2, k, match rest with
    | ' ' :: v => some v
    | _ => none)

/-- Lines below a header: each value with the keys that lead to it, given the keys of the lines above. -/
def readLines (above : List Str) : List Str → List (List Str × Str)
  | [] => []
  | l :: ls => match readLine l with
    | none => readLines above ls
    | some (d, k, none) => readLines (above.take (d - 1) ++ [k]) ls
    | some (d, k, some v) => (above.take (d - 1) ++ [k], v) :: readLines (above.take (d - 1) ++ [k]) ls

/-- The text before the first colon followed by a space, and what follows. -/
def cutHeader : Str → Option (Str × Str)
  | ':' :: ' ' :: s => some ([], s)
  | c :: s => (cutHeader s).map (fun p => (c :: p.1, p.2))
  | [] => none

/-- A log text: time and message in the first line, the other fields below. -/
def readText (t : Str) : Option (Str × Str × List (List Str × Str)) :=
  match Str.split '\n' t with
  | ('>' :: ' ' :: h) :: ls => (cutHeader h).map (fun p => (p.1, p.2, readLines [] ls))
  | _ => none

/-! ## Lines of the text -/

/-- Keys without line break and colon that do not start with a space. -/
def CleanKey (k : Str) : Prop := '\n' ∉ k ∧ ':' ∉ k ∧ k.head? ≠ some ' '

instance (k : Str) : Decidable (CleanKey k) := inferInstanceAs (Decidable (_ ∧ _ ∧ _))

/-- Texts without line breaks under clean keys, `@Timestamp` not among them. -/
inductive Clean : Json → Prop
  | str (s : Str) (h : '\n' ∉ s) : Clean (.str s)
  | obj (ms : List (Str × Json)) (hk : ∀ e ∈ ms, CleanKey e.1) (hv : ∀ e ∈ ms, Clean e.2)
      (hs : GoMap.get ms "@Timestamp".toList = none) : Clean (.obj ms)

mutual
/-- The lines of the members of a map. -/
def lines (d : Nat) : List (Str × Json) → List Str
  | [] => []
  | (k, v) :: ms => (linesOf d k v) ++ lines d ms
/-- The lines of one member. -/
def linesOf (d : Nat) (k : Str) : Json → List Str
  | .obj ms => (indent d ++ k ++ [':']) :: lines (d + 1) ms
  | .str s => [indent d ++ k ++ ':' :: ' ' :: s]
  | _ => [indent d ++ k ++ [':']]
end

mutual
/-- Values with the keys leading to them. -/
def leaves (pre : List Str) : List (Str × Json) → List (List Str × Str)
  | [] => []
  | (k, v) :: ms => leavesOf pre k v ++ leaves pre ms
/-- The same for one member. -/
def leavesOf (pre : List Str) (k : Str) : Json → List (List Str × Str)
  | .obj ms => leaves (pre ++ [k]) ms
  | .str s => [(pre ++ [k], s)]
  | _ => []
end

/-- Lines put one under the other. -/
def unlines (ls : List Str) : Str := ls.flatMap (· ++ ['\n'])

theorem unlines_append (a b : List Str) : unlines (a ++ b) = unlines a ++ unlines b := by simp [unlines]

theorem unlines_cons (l : Str) (ls : List Str) : unlines (l :: ls) = l ++ '\n' :: unlines ls := by simp [unlines]

theorem split_unlines (ls : List Str) (h : ∀ l ∈ ls, '\n' ∉ l) : Str.split '\n' (unlines ls) = ls ++ [[]] := by
  induction ls with
  | nil => rfl
  | cons l ls ih =>
    rw [unlines_cons, Str.split_append _ _ _ (h l List.mem_cons_self), ih (fun l' h' => h l' (List.mem_cons_of_mem _ h'))]
    rfl

theorem members_skip (d : Nat) : ∀ ms : List (Str × Json), members d true ms = members d false (ms.filter (fun e => !special e.1)) := by
  intro ms
  induction ms with
  | nil => rfl
  | cons e ms ih =>
    obtain ⟨k, v⟩ := e
    rw [List.filter_cons]
    cases h : special k with
    | true => simp only [members, h, Bool.not_true, ih]; rfl
    | false => simp only [members, h, ih]; rfl

mutual
theorem members_lines (d : Nat) : ∀ ms : List (Str × Json), (∀ e ∈ ms, CleanKey e.1 ∧ Clean e.2) →
    members d false ms = unlines (lines d ms)
  | [], _ => rfl
  | (k, v) :: ms, h => by
    rw [members, lines, unlines_append, members_lines d ms (fun e he => h e (List.mem_cons_of_mem _ he)),
      ← value_lines d k v (h _ List.mem_cons_self).2]
    rfl
theorem value_lines (d : Nat) (k : Str) : ∀ v : Json, Clean v → indent d ++ k ++ ':' :: value d v = unlines (linesOf d k v)
  | .obj ms, h => by
    cases h with
    | obj _ hk' hv hs =>
      have h : ∀ e ∈ ms, CleanKey e.1 ∧ Clean e.2 := fun e he => ⟨hk' e he, hv e he⟩
      rw [linesOf, unlines_cons, ← members_lines (d + 1) ms h, value]
      rw [hs]; simp
  | .str s, _ => by simp [value, linesOf, unlines]
  | .null, h => by cases h
  | .bool _, h => by cases h
  | .num _, h => by cases h
  | .arr _, h => by cases h
end

theorem indent_clean (d : Nat) : '\n' ∉ indent d := by
  unfold indent
  rw [List.mem_replicate]
  rintro ⟨_, h⟩
  exact absurd h (by decide)

mutual
theorem lines_clean (d : Nat) : ∀ ms : List (Str × Json), (∀ e ∈ ms, CleanKey e.1 ∧ Clean e.2) → ∀ l ∈ lines d ms, '\n' ∉ l
  | [], _ => by intro l h; cases h
  | (k, v) :: ms, h => by
    intro l hl
    rw [lines, List.mem_append] at hl
    rcases hl with hl | hl
    · exact linesOf_clean d k (h _ List.mem_cons_self).1 v (h _ List.mem_cons_self).2 l hl
    · exact lines_clean d ms (fun e he => h e (List.mem_cons_of_mem _ he)) l hl
theorem linesOf_clean (d : Nat) (k : Str) (hk : CleanKey k) : ∀ v : Json, Clean v → ∀ l ∈ linesOf d k v, '\n' ∉ l
  | .obj ms, h => by
    cases h with
    | obj _ hk' hv hs =>
      have h : ∀ e ∈ ms, CleanKey e.1 ∧ Clean e.2 := fun e he => ⟨hk' e he, hv e he⟩
      intro l hl
      rw [linesOf, List.mem_cons] at hl
      rcases hl with rfl | hl
      · simp [indent_clean, hk.1]
      · exact lines_clean (d + 1) ms h l hl
  | .str s, h => by
    cases h with
    | str _ h =>
      intro l hl
      rw [linesOf, List.mem_singleton] at hl
      subst hl
      simp [indent_clean, hk.1, h]
  | .null, h => by cases h
  | .bool _, h => by cases h
  | .num _, h => by cases h
  | .arr _, h => by cases h
end

/-! ## Reading a line -/

theorem spaces_replicate (n : Nat) (s : Str) (h : s.head? ≠ some ' ') : spaces (List.replicate n ' ' ++ s) = n := by
  induction n with
  | zero =>
    cases s with
    | nil => rfl
    | cons c s =>
      have hc : c ≠ ' ' := fun e => h (by rw [e]; rfl)
      simp only [List.replicate_zero, List.nil_append]
      rw [spaces]
      intro s' e
      exact hc (List.cons.inj e).1
  | succ n ih => rw [List.replicate_succ, List.cons_append, spaces, ih]

theorem cut_key (k rest : Str) (h : ':' ∉ k) : cut (k ++ ':' :: rest) = some (k, rest) := by
  induction k with
  | nil => simp [cut]
  | cons c k ih =>
    have hc : c ≠ ':' := fun e => h (by rw [e]; exact List.mem_cons_self)
    rw [List.cons_append, cut, if_neg hc, ih (fun h' => h (List.mem_cons_of_mem _ h'))]
    rfl

theorem readLine_eq (d : Nat) (k rest : Str) (hk : CleanKey k) : readLine (indent d ++ k ++ ':' :: rest) =
    some (d, k, match rest with | ' ' :: v => some v | _ => none) := by
  have hh : (k ++ ':' :: rest).head? ≠ some ' ' := by
    cases k with
    | nil => simp
    | cons c k => have := hk.2.2; simpa using this
  have hs : spaces (indent d ++ k ++ ':' :: rest) = 2 * d := by
    rw [List.append_assoc]; exact spaces_replicate _ _ hh
  unfold readLine
  rw [hs, List.append_assoc, List.drop_left' (by simp [indent]), cut_key k rest hk.2.1]
  simp

/-! ## Reading the lines -/

mutual
theorem read_lines (d : Nat) (pre : List Str) (hp : pre.length = d) : ∀ ms : List (Str × Json),
    (∀ e ∈ ms, CleanKey e.1 ∧ Clean e.2) → ∀ (above : List Str) (rest : List Str), above.take d = pre →
    ∃ above', above'.take d = pre ∧ readLines above (lines (d + 1) ms ++ rest) = leaves pre ms ++ readLines above' rest
  | [], _, above, rest, ha => ⟨above, ha, rfl⟩
  | (k, v) :: ms, h, above, rest, ha => by
    obtain ⟨a1, h1, e1⟩ := read_linesOf d pre hp k (h _ List.mem_cons_self).1 v (h _ List.mem_cons_self).2 above
      (lines (d + 1) ms ++ rest) ha
    obtain ⟨a2, h2, e2⟩ := read_lines d pre hp ms (fun e he => h e (List.mem_cons_of_mem _ he)) a1 rest h1
    exact ⟨a2, h2, by rw [lines, List.append_assoc, e1, e2, leaves, List.append_assoc]⟩
theorem read_linesOf (d : Nat) (pre : List Str) (hp : pre.length = d) (k : Str) (hk : CleanKey k) : ∀ v : Json, Clean v →
    ∀ (above : List Str) (rest : List Str), above.take d = pre →
    ∃ above', above'.take d = pre ∧ readLines above (linesOf (d + 1) k v ++ rest) = leavesOf pre k v ++ readLines above' rest
  | .obj ms, h, above, rest, ha => by
    cases h with
    | obj _ hk' hv hs =>
      have h : ∀ e ∈ ms, CleanKey e.1 ∧ Clean e.2 := fun e he => ⟨hk' e he, hv e he⟩
      have hl : (pre ++ [k]).length = d + 1 := by simp [hp]
      obtain ⟨a1, h1, e1⟩ := read_lines (d + 1) (pre ++ [k]) hl ms h (pre ++ [k]) rest (by rw [← hl, List.take_length])
      refine ⟨a1, ?_, ?_⟩
      · have := congrArg (List.take d) h1
        rw [List.take_take, Nat.min_eq_left (by omega), List.take_left' hp] at this
        exact this
      · rw [linesOf, List.cons_append, readLines, readLine_eq _ _ _ hk]
        simp only [Nat.add_sub_cancel, ha]
        rw [e1, leavesOf]
  | .str s, h, above, rest, ha => by
    refine ⟨pre ++ [k], List.take_left' hp, ?_⟩
    rw [linesOf, List.singleton_append, readLines, readLine_eq _ _ _ hk]
    simp only [Nat.add_sub_cancel, ha]
    rw [leavesOf]; rfl
  | .null, h, _, _, _ => by cases h
  | .bool _, h, _, _, _ => by cases h
  | .num _, h, _, _, _ => by cases h
  | .arr _, h, _, _, _ => by cases h
end

/-! ## The values of a map -/

mutual
theorem mem_leaves : ∀ (ms : List (Str × Json)) (pre p : List Str) (v : Str), Good (.obj ms) →
    ((p, v) ∈ leaves pre ms ↔ ∃ q, p = pre ++ q ∧ leafAt q ms = some v)
  | [], pre, p, v, _ => by
    have hn : ∀ q, leafAt q [] = none := by
      intro q
      match q with
      | [] => rfl
      | [_] => rfl
      | _ :: _ :: _ => rfl
    simp [leaves, hn]
  | (k, j) :: ms, pre, p, v, h => by
    cases h with
    | obj _ hw h =>
      obtain ⟨hk, hw'⟩ := GoMap.wf_cons.1 hw
      have hms : Good (.obj ms) := .obj ms hw' (fun e he => h e (List.mem_cons_of_mem _ he))
      rw [leaves, List.mem_append, mem_leavesOf j k pre p v (h _ List.mem_cons_self), mem_leaves ms pre p v hms]
      have hkn : GoMap.get ms k = none := (GoMap.get_eq_none_iff ms k).2 hk
      have hne : ∀ q, leafAt (k :: q) ms = none := by
        intro q
        cases q with
        | nil => rw [leafAt, hkn]
        | cons => rw [leafAt, hkn]
      have heq : ∀ q, leafAt (k :: q) ((k, j) :: ms) = leafAt (k :: q) [(k, j)] := by
        intro q
        cases q with
        | nil => simp only [leafAt, GoMap.get_cons, if_pos]
        | cons => simp only [leafAt, GoMap.get_cons, if_pos]
      have hother : ∀ a q, a ≠ k → leafAt (a :: q) ((k, j) :: ms) = leafAt (a :: q) ms := by
        intro a q ha
        cases q with
        | nil => simp only [leafAt, GoMap.get_cons, if_neg (fun e => ha (Eq.symm e) : ¬ k = a)]
        | cons => simp only [leafAt, GoMap.get_cons, if_neg (fun e => ha (Eq.symm e) : ¬ k = a)]
      constructor
      · rintro (⟨q, hp, hl⟩ | ⟨q, hp, hl⟩)
        · exact ⟨k :: q, hp, by rw [heq]; exact hl⟩
        · cases q with
          | nil => cases hl
          | cons a q =>
            by_cases ha : a = k
            · subst ha; rw [hne] at hl; cases hl
            · exact ⟨a :: q, hp, by rw [hother a q ha]; exact hl⟩
      · rintro ⟨q, hp, hl⟩
        cases q with
        | nil => cases hl
        | cons a q =>
          by_cases ha : a = k
          · subst ha; exact Or.inl ⟨q, hp, by rw [← heq]; exact hl⟩
          · exact Or.inr ⟨a :: q, hp, by rw [← hother a q ha]; exact hl⟩
theorem mem_leavesOf : ∀ (j : Json) (k : Str) (pre p : List Str) (v : Str), Good j →
    ((p, v) ∈ leavesOf pre k j ↔ ∃ q, p = pre ++ k :: q ∧ leafAt (k :: q) [(k, j)] = some v)
  | .obj ms, k, pre, p, v, h => by
    rw [leavesOf, mem_leaves ms (pre ++ [k]) p v h]
    constructor
    · rintro ⟨q, hp, hl⟩
      refine ⟨q, by simpa using hp, ?_⟩
      cases q with
      | nil => cases hl
      | cons a q => simpa [leafAt] using hl
    · rintro ⟨q, hp, hl⟩
      refine ⟨q, by simpa using hp, ?_⟩
      cases q with
      | nil => simp [leafAt] at hl
      | cons a q => simpa [leafAt] using hl
  | .str s, k, pre, p, v, _ => by
    simp only [leavesOf, List.mem_singleton, Prod.mk.injEq]
    constructor
    · rintro ⟨rfl, rfl⟩
      exact ⟨[], by simp, by simp [leafAt]⟩
    · rintro ⟨q, hp, hl⟩
      cases q with
      | nil => simp [leafAt] at hl; exact ⟨by simpa using hp, hl.symm⟩
      | cons a q => simp [leafAt] at hl
  | .null, _, _, _, _, h => by cases h
  | .bool _, _, _, _, _, h => by cases h
  | .num _, _, _, _, _, h => by cases h
  | .arr _, _, _, _, _, h => by cases h
end

/-! ## Orders of members -/

/-- The same map, its members iterated over in some order. -/
inductive Listing : Json → Json → Prop
  | str (s : Str) : Listing (.str s) (.str s)
  | obj (a b : List (Str × Json)) (hw : GoMap.WF b) (hk : ∀ k, GoMap.get a k = none ↔ GoMap.get b k = none)
      (h : ∀ k x y, GoMap.get a k = some x → GoMap.get b k = some y → Listing x y) : Listing (.obj a) (.obj b)

theorem Listing.get {a b : List (Str × Json)} (h : Listing (.obj a) (.obj b)) (k : Str) :
    (GoMap.get a k = none ∧ GoMap.get b k = none) ∨ ∃ x y, GoMap.get a k = some x ∧ GoMap.get b k = some y ∧ Listing x y := by
  cases h with
  | obj _ _ hw hk h =>
    cases ha : GoMap.get a k with
    | none => exact Or.inl ⟨rfl, (hk k).1 ha⟩
    | some x =>
      cases hb : GoMap.get b k with
      | none => rw [(hk k).2 hb] at ha; cases ha
      | some y => exact Or.inr ⟨x, y, rfl, rfl, h k x y ha hb⟩

theorem Listing.leafAt : ∀ (p : List Str) (a b : List (Str × Json)), Listing (.obj a) (.obj b) →
    leafAt p b = leafAt p a
  | [], _, _, _ => rfl
  | [k], a, b, h => by
    rcases h.get k with ⟨ha, hb⟩ | ⟨x, y, ha, hb, hl⟩
    · simp only [Logs.leafAt, ha, hb]
    · simp only [Logs.leafAt, ha, hb]; cases hl <;> rfl
  | k :: k2 :: ks, a, b, h => by
    rcases h.get k with ⟨ha, hb⟩ | ⟨x, y, ha, hb, hl⟩
    · simp only [Logs.leafAt, ha, hb]
    · simp only [Logs.leafAt, ha, hb]
      cases hl with
      | str => rfl
      | obj a' b' hw hk h => exact Listing.leafAt (k2 :: ks) a' b' (.obj a' b' hw hk h)

theorem listing_good {a b : Json} (h : Listing a b) (ha : Good a) : Good b := by
  induction h with
  | str s => exact .str s
  | obj a b hw hk _ ih =>
    cases ha with
    | obj _ hwa hga =>
      refine .obj b hw fun e he => ?_
      have hb := GoMap.get_of_mem hw (k := e.1) (v := e.2) he
      cases hx : GoMap.get a e.1 with
      | none => rw [(hk e.1).1 hx] at hb; cases hb
      | some x => exact ih e.1 x e.2 hx hb (hga _ (GoMap.mem_of_get hx))

theorem listing_clean {a b : Json} (h : Listing a b) (ha : Clean a) : Clean b := by
  induction h with
  | str s => exact ha
  | obj a b hw hk _ ih =>
    cases ha with
    | obj _ hka hva hs =>
      have key : ∀ e ∈ b, ∃ x, GoMap.get a e.1 = some x ∧ GoMap.get b e.1 = some e.2 := by
        intro e he
        have hb := GoMap.get_of_mem hw (k := e.1) (v := e.2) he
        cases hx : GoMap.get a e.1 with
        | none => rw [(hk e.1).1 hx] at hb; cases hb
        | some x => exact ⟨x, rfl, hb⟩
      refine .obj b (fun e he => ?_) (fun e he => ?_) ((hk _).1 hs)
      · obtain ⟨x, hx, _⟩ := key e he
        exact hka (e.1, x) (GoMap.mem_of_get hx)
      · obtain ⟨x, hx, hb⟩ := key e he
        exact ih e.1 x e.2 hx hb (hva _ (GoMap.mem_of_get hx))

/-- Listing a map as it is. -/
theorem listing_refl {j : Json} (h : Good j) : Listing j j := by
  induction h with
  | str s => exact .str s
  | obj ms hw _ ih =>
    refine .obj ms ms hw (fun _ => Iff.rfl) fun k x y hx hy => ?_
    rw [hx] at hy
    cases hy
    exact ih _ (GoMap.mem_of_get hx)

/-- Listing the members of a map in another order. -/
theorem listing_perm {a b : List (Str × Json)} (h : Good (.obj a)) (hp : a.Perm b) : Listing (.obj a) (.obj b) := by
  cases h with
  | obj _ hw hg =>
    refine .obj a b (GoMap.wf_perm hp hw) (fun k => by rw [GoMap.get_perm hp hw]) fun k x y hx hy => ?_
    rw [GoMap.get_perm hp hw, hy] at hx
    cases hx
    exact listing_refl (hg _ (hp.mem_iff.2 (GoMap.mem_of_get hy)))

/-! ## The record -/

/-- Fields that are readable: see `CleanKey`; `@Timestamp` does not occur below the top. -/
def CleanInfo (i : Info) : Prop := '\n' ∉ i.value ∧ (∀ k ∈ path i.key, CleanKey k) ∧ "@Timestamp".toList ∉ (path i.key).tail

instance (i : Info) : Decidable (CleanInfo i) := inferInstanceAs (Decidable (_ ∧ _ ∧ _))

/-- Clean members. -/
def CleanAll (ms : List (Str × Json)) : Prop := ∀ e ∈ ms, CleanKey e.1 ∧ Clean e.2

theorem cleanAll_put {m : Tree} {k : Str} {j : Json} (h : CleanAll m) (hk : CleanKey k) (hj : Clean j) : CleanAll (m.put k j) := by
  intro e he
  unfold GoMap.put GoMap.del at he
  rcases List.mem_cons.1 he with rfl | he
  · exact ⟨hk, hj⟩
  · exact h e (List.mem_filter.1 he).1

theorem clean_submap {m : Tree} (h : CleanAll m) (k : Str) : Clean (.obj (submap m k)) := by
  unfold submap
  split
  · rename_i sm hg
    exact (h _ (GoMap.mem_of_get hg)).2
  · exact .obj [] (by intro e he; cases he) (by intro e he; cases he) rfl

theorem clean_insertPath : ∀ (q : List Str) (v : Str) (m : Tree), '\n' ∉ v → (∀ k ∈ q, CleanKey k) →
    "@Timestamp".toList ∉ q.tail → CleanAll m →
    CleanAll (insertPath q v m) ∧ ("@Timestamp".toList ∉ q → GoMap.get m "@Timestamp".toList = none →
      GoMap.get (insertPath q v m) "@Timestamp".toList = none) := by
  intro q
  induction q with
  | nil => intro v m _ _ _ h; exact ⟨h, fun _ g => g⟩
  | cons k q ih =>
    intro v m hv hk ht h
    cases q with
    | nil =>
      rw [insertPath]
      refine ⟨cleanAll_put h (hk k (by simp)) (.str v hv), fun hn g => ?_⟩
      rw [GoMap.get_put, if_neg (fun e => hn (by rw [e]; simp)), g]
    | cons b q =>
      rw [insertPath]
      have hc := clean_submap h k
      cases hc with
      | obj _ ck cv cs =>
        obtain ⟨h1, h2⟩ := ih v (submap m k) hv (fun x hx => hk x (List.mem_cons_of_mem _ hx))
          (fun hx => ht (List.mem_of_mem_tail hx)) (fun e he => ⟨ck e he, cv e he⟩)
        refine ⟨cleanAll_put h (hk k (by simp)) (.obj _ (fun e he => (h1 e he).1) (fun e he => (h1 e he).2)
          (h2 ht cs)), fun hn g => ?_⟩
        rw [GoMap.get_put, if_neg (fun e => hn (by rw [e]; simp)), g]

theorem clean_structure (infos : List Info) (h : ∀ i ∈ infos, CleanInfo i) : CleanAll (structureLogs infos) := by
  induction infos using snoc_induction with
  | nil => intro e he; cases he
  | snoc infos i ih =>
    rw [structure_snoc]
    obtain ⟨h1, h2, h3⟩ := h i (by simp)
    exact (clean_insertPath _ _ _ h1 h2 h3 (ih (fun j hj => h j (by simp [hj])))).1

/-! ## C81 -/

theorem cutHeader_eq (ts msg : Str) (h : ' ' ∉ ts) : cutHeader (ts ++ ':' :: ' ' :: msg) = some (ts, msg) := by
  induction ts with
  | nil => rfl
  | cons c ts ih =>
    have ih := ih (fun h' => h (List.mem_cons_of_mem _ h'))
    rw [List.cons_append, cutHeader]
    · rw [ih]; rfl
    · intro s hc hs
      cases ts with
      | nil => rw [List.nil_append] at hs; exact absurd (List.cons.inj hs).1 (by decide)
      | cons d ts =>
        rw [List.cons_append] at hs
        exact h (by rw [(List.cons.inj hs).1]; simp)

/-- A listed record with time and message reads back: those two first, and below exactly the other values of the map
under their paths. -/
theorem read_humanize (ms : List (Str × Json)) (ts msg : Str) (hg : Good (.obj ms)) (hc : CleanAll ms)
    (h1 : GoMap.get ms "@Timestamp".toList = some (.str ts)) (h2 : GoMap.get ms "Message".toList = some (.str msg))
    (hts : ' ' ∉ ts) :
    ∃ fields, readText (humanize ms) = some (ts, msg, fields) ∧
      ∀ p v, (p, v) ∈ fields ↔ leafAt p ms = some v ∧ p ≠ ["@Timestamp".toList] ∧ p ≠ ["Message".toList] := by
  have nts : '\n' ∉ ts := by
    have := (hc _ (GoMap.mem_of_get h1)).2; cases this with | str _ h => exact h
  have nmsg : '\n' ∉ msg := by
    have := (hc _ (GoMap.mem_of_get h2)).2; cases this with | str _ h => exact h
  let ms' := ms.filter (fun e => !special e.1)
  have hsub : ∀ e ∈ ms', e ∈ ms := fun e he => (List.mem_filter.1 he).1
  have hc' : CleanAll ms' := fun e he => hc e (hsub e he)
  have hg' : Good (.obj ms') := by
    cases hg with
    | obj _ hw hv =>
      refine .obj ms' ?_ (fun e he => hv e (hsub e he))
      unfold GoMap.WF GoMap.keys at *
      exact hw.sublist (List.filter_sublist.map _)
  have hw : GoMap.WF ms := by cases hg with | obj _ hw _ => exact hw
  have hw' : GoMap.WF ms' := by cases hg' with | obj _ hw _ => exact hw
  have hget : ∀ k, GoMap.get ms' k = if special k then none else GoMap.get ms k := by
    intro k
    cases hs : special k with
    | true =>
      cases h : GoMap.get ms' k with
      | none => rfl
      | some x =>
        have := (List.mem_filter.1 (GoMap.mem_of_get h)).2
        rw [hs] at this; cases this
    | false =>
      cases h : GoMap.get ms k with
      | none =>
        cases h' : GoMap.get ms' k with
        | none => rfl
        | some x => rw [GoMap.get_of_mem hw (hsub _ (GoMap.mem_of_get h'))] at h; cases h
      | some x =>
        exact GoMap.get_of_mem hw' (List.mem_filter.2 ⟨GoMap.mem_of_get h, by rw [hs]; rfl⟩)
  have htext : humanize ms = unlines (('>' :: ' ' :: (ts ++ ':' :: ' ' :: msg)) :: lines 1 ms') := by
    rw [humanize, h1, h2, unlines_cons]
    simp only
    rw [members_skip, members_lines 1 ms' hc']
    simp [header, indent, plain]
  obtain ⟨a, _, e⟩ := read_lines 0 [] rfl ms' hc' [] [[]] rfl
  refine ⟨readLines [] (lines 1 ms' ++ [[]]), ?_, ?_⟩
  · unfold readText
    rw [htext, split_unlines]
    · simp only [List.cons_append, cutHeader_eq ts msg hts, Option.map_some]
    · intro l hl
      rcases List.mem_cons.1 hl with rfl | hl
      · simp [nts, nmsg]
      · exact lines_clean 1 ms' hc' l hl
  · intro p v
    have hend : readLines a [[]] = [] := by simp [readLines, readLine, cut, spaces]
    rw [e, hend, List.append_nil, mem_leaves ms' [] p v hg']
    simp only [List.nil_append]
    have key : leafAt p ms' = some v ↔ leafAt p ms = some v ∧ p ≠ ["@Timestamp".toList] ∧ p ≠ ["Message".toList] := by
      have hspecial : ∀ k, special k = true ↔ k = "@Timestamp".toList ∨ k = "Message".toList := by
        intro k; simp [special]
      match p with
      | [] => simp [leafAt]
      | [k] =>
        simp only [leafAt, hget]
        by_cases hs : special k = true
        · rw [if_pos hs]
          rcases (hspecial k).1 hs with rfl | rfl <;> simp
        · rw [if_neg hs]
          have h3 : k ≠ "@Timestamp".toList := fun e => hs ((hspecial k).2 (Or.inl e))
          have h4 : k ≠ "Message".toList := fun e => hs ((hspecial k).2 (Or.inr e))
          simp only [ne_eq, List.cons.injEq, and_true, h3, h4, not_false_eq_true]
      | k :: k2 :: ks =>
        simp only [leafAt, hget]
        by_cases hs : special k = true
        · rw [if_pos hs]
          rcases (hspecial k).1 hs with rfl | rfl
          · simp only [h1]; simp
          · simp only [h2]; simp
        · rw [if_neg hs]
          simp
    constructor
    · rintro ⟨q, rfl, hq⟩; exact key.1 hq
    · intro h; exact ⟨p, rfl, key.2 h⟩

theorem leafAt_top {ms : List (Str × Json)} {k v : Str} (h : leafAt [k] ms = some v) : GoMap.get ms k = some (.str v) := by
  rw [leafAt] at h
  split at h
  · rename_i s hs; rw [hs, Option.some.inj h]
  · cases h

/-- Time and message of a record. -/
theorem record_top (ctx : Ctx) (msg now : Str) (info : List Info) :
    leafAt ["@Timestamp".toList] (record ctx msg now info) = some now ∧
    leafAt ["Message".toList] (record ctx msg now info) = some msg := by
  constructor
  · refine (C58_exactly _ _ _).2 ⟨info ++ (ifSet "Channel" ctx.channel ++ ifSet "CorrelationID" ctx.correlationID ++
      ifSet "Content" ctx.brokerMessage ++ [⟨"Message".toList, msg⟩]), ⟨"@Timestamp".toList, now⟩, [], ?_, rfl, rfl, by simp⟩
    simp only [textInfo, List.append_assoc, List.cons_append, List.nil_append]
  · refine (C58_exactly _ _ _).2 ⟨info ++ (ifSet "Channel" ctx.channel ++ ifSet "CorrelationID" ctx.correlationID ++
      ifSet "Content" ctx.brokerMessage), ⟨"Message".toList, msg⟩, [⟨"@Timestamp".toList, now⟩], ?_, rfl, rfl, ?_⟩
    · simp only [textInfo, List.append_assoc]
    · intro j hj
      rw [List.mem_singleton] at hj
      subst hj
      show ¬ Clash _ (path "@Timestamp".toList)
      decide

/-- **C81**, for fields without line breaks and colons in keys: whatever the order in which the maps are iterated over,
the text gives back the time, the message and, under its path, each field that no later field of the same call clashes
with — and nothing else. -/
theorem C81_partial (ctx : Ctx) (msg now : Str) (info : List Info) (ms : List (Str × Json))
    (hms : Listing (.obj (record ctx msg now info)) (.obj ms))
    (hc : ∀ i ∈ textInfo ctx msg now info, CleanInfo i) (hnow : ' ' ∉ now) :
    ∃ fields, readText (humanize ms) = some (now, msg, fields) ∧
      ∀ p v, (p, v) ∈ fields ↔ p ≠ ["@Timestamp".toList] ∧ p ≠ ["Message".toList] ∧
        ∃ pre i post, textInfo ctx msg now info = pre ++ i :: post ∧ path i.key = p ∧ i.value = v ∧
          ∀ j ∈ post, ¬ Clash p (path j.key) := by
  have hg := listing_good hms (good_structure _)
  have hcl := clean_structure _ hc
  have hcl' : CleanAll ms := by
    intro e he
    cases hms with
    | obj _ _ hw hk h =>
      have hb := GoMap.get_of_mem hw (k := e.1) (v := e.2) he
      cases hx : GoMap.get (record ctx msg now info) e.1 with
      | none => rw [(hk e.1).1 hx] at hb; cases hb
      | some x =>
        have := hcl _ (GoMap.mem_of_get hx)
        exact ⟨this.1, listing_clean (h e.1 x e.2 hx hb) this.2⟩
  obtain ⟨t1, t2⟩ := record_top ctx msg now info
  obtain ⟨fields, hr, hf⟩ := read_humanize ms now msg hg hcl' (leafAt_top (by rw [Listing.leafAt _ _ _ hms]; exact t1))
    (leafAt_top (by rw [Listing.leafAt _ _ _ hms]; exact t2)) hnow
  refine ⟨fields, hr, fun p v => ?_⟩
  rw [hf, Listing.leafAt _ _ _ hms, record, C58_exactly]
  constructor
  · rintro ⟨a, b, c⟩; exact ⟨b, c, a⟩
  · rintro ⟨b, c, a⟩; exact ⟨a, b, c⟩

/-- What the text should tell about the context. -/
def tells (ctx : Ctx) : List (String × Option Str) :=
  [("Channel", ctx.channel), ("CorrelationID", ctx.correlationID), ("Content", ctx.brokerMessage)]

/-- The keys the logger adds itself. -/
def ownKeys : List String := ["Channel", "CorrelationID", "Content", "Message", "@Timestamp"]

theorem ifSet_some (k : String) (v : Str) : ifSet k (some v) = [⟨k.toList, v⟩] := rfl

/-- What the context holds is read back, whatever fields the caller gives. -/
theorem C81_context_partial (ctx : Ctx) (msg now : Str) (info : List Info) (ms : List (Str × Json))
    (hms : Listing (.obj (record ctx msg now info)) (.obj ms))
    (hc : ∀ i ∈ textInfo ctx msg now info, CleanInfo i) (hnow : ' ' ∉ now) (e : String × Option Str) (he : e ∈ tells ctx)
    (v : Str) (hv : e.2 = some v) :
    ∃ fields, readText (humanize ms) = some (now, msg, fields) ∧ ([e.1.toList], v) ∈ fields := by
  obtain ⟨fields, hr, hf⟩ := C81_partial ctx msg now info ms hms hc hnow
  refine ⟨fields, hr, (hf _ _).2 ?_⟩
  simp only [tells, List.mem_cons, List.not_mem_nil, or_false] at he
  rcases he with rfl | rfl | rfl <;> simp only at hv <;> dsimp only
  · refine ⟨by decide, by decide, info, ⟨"Channel".toList, v⟩, ifSet "CorrelationID" ctx.correlationID ++ (ifSet "Content" ctx.brokerMessage ++
      [⟨"Message".toList, msg⟩, ⟨"@Timestamp".toList, now⟩]), ?_, rfl, rfl, ?_⟩
    · simp only [textInfo, hv, ifSet_some, List.append_assoc, List.cons_append, List.nil_append]
    · intro j hj
      simp only [List.mem_append, List.mem_cons, List.not_mem_nil, or_false] at hj
      rcases hj with hj | hj | rfl | rfl
      · rw [ifSet_key hj]; decide
      · rw [ifSet_key hj]; decide
      · (show ¬ Clash _ (path "Message".toList)); decide
      · show ¬ Clash _ (path "@Timestamp".toList); decide
  · refine ⟨by decide, by decide, info ++ ifSet "Channel" ctx.channel, ⟨"CorrelationID".toList, v⟩, ifSet "Content" ctx.brokerMessage ++
      [⟨"Message".toList, msg⟩, ⟨"@Timestamp".toList, now⟩], ?_, rfl, rfl, ?_⟩
    · simp only [textInfo, hv, ifSet_some, List.append_assoc, List.cons_append, List.nil_append]
    · intro j hj
      simp only [List.mem_append, List.mem_cons, List.not_mem_nil, or_false] at hj
      rcases hj with hj | rfl | rfl
      · rw [ifSet_key hj]; decide
      · (show ¬ Clash _ (path "Message".toList)); decide
      · show ¬ Clash _ (path "@Timestamp".toList); decide
  · refine ⟨by decide, by decide, info ++ ifSet "Channel" ctx.channel ++ ifSet "CorrelationID" ctx.correlationID, ⟨"Content".toList, v⟩,
      [⟨"Message".toList, msg⟩, ⟨"@Timestamp".toList, now⟩], ?_, rfl, rfl, ?_⟩
    · simp only [textInfo, hv, ifSet_some, List.append_assoc, List.cons_append, List.nil_append]
    · intro j hj
      simp only [List.mem_cons, List.not_mem_nil, or_false] at hj
      rcases hj with rfl | rfl
      · (show ¬ Clash _ (path "Message".toList)); decide
      · show ¬ Clash _ (path "@Timestamp".toList); decide

theorem textInfo_key {ctx : Ctx} {msg now : Str} {info : List Info} {j : Info} (hj : j ∈ textInfo ctx msg now info) :
    j ∈ info ∨ ∃ k ∈ ownKeys, j.key = k.toList := by
  simp only [textInfo, List.mem_append, List.mem_cons, List.not_mem_nil, or_false] at hj
  rcases hj with hj | ((hj | hj) | hj) | rfl | rfl
  · exact Or.inl hj
  · exact Or.inr ⟨"Channel", by simp [ownKeys], ifSet_key hj⟩
  · exact Or.inr ⟨"CorrelationID", by simp [ownKeys], ifSet_key hj⟩
  · exact Or.inr ⟨"Content", by simp [ownKeys], ifSet_key hj⟩
  · exact Or.inr ⟨"Message", by simp [ownKeys], rfl⟩
  · exact Or.inr ⟨"@Timestamp", by simp [ownKeys], rfl⟩

/-- So is each field of the caller that clashes neither with a later one nor with the keys of the logger. -/
theorem C81_field_partial (ctx : Ctx) (msg now : Str) (pre : List Info) (i : Info) (post : List Info) (ms : List (Str × Json))
    (hms : Listing (.obj (record ctx msg now (pre ++ i :: post))) (.obj ms))
    (hc : ∀ j ∈ textInfo ctx msg now (pre ++ i :: post), CleanInfo j) (hnow : ' ' ∉ now)
    (h : ∀ j ∈ post, ¬ Clash (path i.key) (path j.key)) (hk : ∀ k ∈ ownKeys, ¬ Clash (path i.key) (path k.toList)) :
    ∃ fields, readText (humanize ms) = some (now, msg, fields) ∧ (path i.key, i.value) ∈ fields := by
  obtain ⟨fields, hr, hf⟩ := C81_partial ctx msg now _ ms hms hc hnow
  have hne : ∀ k ∈ ownKeys, path i.key ≠ path k.toList := fun k hk' e => hk k hk' (e ▸ Or.inl (List.prefix_refl _))
  refine ⟨fields, hr, (hf _ _).2 ⟨hne "@Timestamp" (by simp [ownKeys]), hne "Message" (by simp [ownKeys]), pre, i,
    textInfo ctx msg now post, by simp only [textInfo, List.append_assoc, List.cons_append], rfl, rfl, fun j hj => ?_⟩⟩
  rcases textInfo_key hj with hj | ⟨k, hk', e⟩
  · exact h j hj
  · rw [e]; exact hk k hk'

/-- Non-vacuity: nested fields, a context, and a text with colons. -/
example : (∀ i ∈ textInfo ⟨none, some "c".toList, none, some "x: y".toList, none⟩ "hello: you".toList "12:00Z".toList
      [⟨"http.url".toList, "a:b".toList⟩, ⟨"http.code".toList, "7".toList⟩], CleanInfo i) ∧
    ' ' ∉ "12:00Z".toList ∧
    readText (humanize [("http".toList, .obj [("url".toList, .str "a:b".toList), ("code".toList, .str "7".toList)]),
      ("Message".toList, .str "hello: you".toList), ("@Timestamp".toList, .str "12:00Z".toList)]) =
      some ("12:00Z".toList, "hello: you".toList,
        [(["http".toList, "url".toList], "a:b".toList), (["http".toList, "code".toList], "7".toList)]) := by
  refine ⟨by decide, by decide, ?_⟩
  decide +kernel

/-- Any order of the members of the record is such a listing. -/
example (ctx : Ctx) (msg now : Str) (info : List Info) :
    Listing (.obj (record ctx msg now info)) (.obj (record ctx msg now info).reverse) :=
  listing_perm (good_structure _) (List.reverse_perm _).symm

/-- A payload with a line break writes fields of its own: receiving it gives the very text of a call that logs the field
`user`, though no such field was logged. -/
theorem C81_violated (now : Str) :
    ∃ (c c' : Ctx) (info info' : List Info) (ms ms' : List (Str × Json)),
      Listing (.obj (record c "m".toList now info)) (.obj ms) ∧ Listing (.obj (record c' "m".toList now info')) (.obj ms') ∧
      humanize ms = humanize ms' ∧
      leafAt ["user".toList] (record c "m".toList now info) = none ∧
      leafAt ["user".toList] (record c' "m".toList now info') = some "admin".toList := by
  refine ⟨⟨none, none, none, some "x\n  user: admin".toList, none⟩, ⟨none, none, none, some "x".toList, none⟩, [],
    [⟨"user".toList, "admin".toList⟩], _, _, listing_refl (good_structure _), listing_refl (good_structure _), ?_, ?_, ?_⟩
  · simp [record, textInfo, structureLogs, ifSet, insertLog_path, path, Str.split, insertPath, GoMap.put, GoMap.del, humanize, members, value, special, header, indent, plain]
  · simp [record, textInfo, structureLogs, ifSet, insertLog_path, path, Str.split, insertPath, GoMap.put, GoMap.del, leafAt]
  · simp [record, textInfo, structureLogs, ifSet, insertLog_path, path, Str.split, insertPath, GoMap.put, GoMap.del, leafAt]

/-- A record within a record has a header of its own, and its time and message are not repeated below. -/
example : value 0 (.obj [("Message".toList, .str "m".toList), ("@Timestamp".toList, .str "t".toList), ("a".toList, .str "b".toList)]) =
    '\n' :: (header 1 (.str "t".toList) (.str "m".toList) ++ (indent 2 ++ "a: b\n".toList)) := rfl

end Verif.TextLog
