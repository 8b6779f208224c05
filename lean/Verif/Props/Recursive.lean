import Mathlib.Data.Fintype.Card
import Mathlib.Data.Set.Finite.Basic
import Verif.Spec.Recursive
import Verif.Model.Recursive
import Verif.Props.Required
import Verif.Props.Variants

/-! # C106: recursive schemas have Go types -/

namespace Verif.Values

variable {env : Str → T}

theorem pointer_required {f : F} (h : f.req = true) : pointer false f = false := by
  simp [pointer, F.ptr, Validations.isFieldPointer, h]

theorem plain_cases {force : Bool} {f : F} (h : pointer force f = false) : f.req = true ∨ f.type.isSlice = true := by
  cases force with
  | true => exact .inr (by simpa [pointer] using h)
  | false =>
    simp only [pointer, Bool.false_eq_true, if_false, F.ptr, Validations.isFieldPointer, Bool.or_self] at h
    cases hr : f.req with
    | true => exact .inl rfl
    | false => rw [hr] at h; exact .inr (by simpa using h)

theorem inside_slice {ptr : F → Bool} {t : T} (hs : t.isSlice = true) {n : Str} : ¬ Inside ptr t n := by
  intro h
  cases h <;> cases hs

/-- A named type whose values need only finitely many others inside. -/
def Small (ptr : F → Bool) (env : Str → T) : Str → Prop := Acc (fun b a => Inside ptr (env a) b)

theorem small_of_fits (force : Bool) {t : T} {j : Json} (h : Fits env t j) :
    ∀ n, Inside (pointer force) t n → Small (pointer force) env n := by
  induction h with
  | bool b => intro n hn; cases hn
  | str s => intro n hn; cases hn
  | date s => intro n hn; cases hn
  | time s => intro n hn; cases hn
  | int bits x => intro n hn; cases hn
  | float x => intro n hn; cases hn
  | slice t js h ih => intro n hn; cases hn
  | struct fs adds ms hr hd ha ih _ =>
    intro n hn
    cases hn with
    | field hf hp h =>
      rcases plain_cases hp with hq | hs
      · obtain ⟨j, hj⟩ := hr _ hf hq
        exact ih _ j hj _ hf rfl n h
      · exact absurd h (inside_slice hs)
  | name m j h ih =>
    intro n hn
    cases hn
    exact Acc.intro _ (fun b hb => ih b hb)

theorem not_invalid_of_small {ptr : F → Bool} {n : Str} (h : Small ptr env n) : ¬ Invalid ptr env n := by
  have key : ∀ a, Acc (fun b a => Inside ptr (env a) b) a → ¬ Relation.TransGen (fun a b => Inside ptr (env a) b) a a := by
    intro a ha
    induction ha with
    | intro a _ ih =>
      intro hl
      have step : ∃ b, Inside ptr (env a) b ∧ Relation.TransGen (fun a b => Inside ptr (env a) b) b b := by
        rcases Relation.TransGen.head'_iff.1 hl with ⟨b, hb, hba⟩
        exact ⟨b, hb, Relation.TransGen.tail' hba hb⟩
      obtain ⟨b, hb, hbb⟩ := step
      exact ih b hb hbb
  exact key n h

/-- **C106, without compositions.** A named schema that has a valid JSON value gets a Go type that does not hold itself, with and without forced
pointers. -/
theorem C106_valid_partial (force : Bool) (n : Str) (j : Json) (h : Fits env (.name n) j) : ¬ Invalid (pointer force) env n :=
  not_invalid_of_small (small_of_fits force h n (.name n))

/-! ## The converse -/

theorem members : ∀ (fs : List F), (∀ f ∈ fs, f.req = true → ∃ j, Fits env f.type j) →
    ∃ ms : List (Str × Json), (∀ f ∈ fs, f.req = true → ∃ j, (f.key, j) ∈ ms) ∧
      ∀ k j, (k, j) ∈ ms → ∃ f ∈ fs, f.key = k ∧ Fits env f.type j
  | [], _ => ⟨[], by simp, by simp⟩
  | f :: fs, h => by
    obtain ⟨ms, h1, h2⟩ := members fs (fun f' hf' => h f' (.tail _ hf'))
    by_cases hr : f.req = true
    · obtain ⟨j, hj⟩ := h f (.head _) hr
      refine ⟨(f.key, j) :: ms, ?_, ?_⟩
      · intro f' hf' hr'
        rcases List.mem_cons.1 hf' with rfl | hf'
        · exact ⟨j, .head _⟩
        · obtain ⟨j', hj'⟩ := h1 f' hf' hr'
          exact ⟨j', .tail _ hj'⟩
      · intro k j' hm
        rcases List.mem_cons.1 hm with e | hm
        · cases e; exact ⟨f, .head _, rfl, hj⟩
        · obtain ⟨f', hf', e⟩ := h2 k j' hm
          exact ⟨f', .tail _ hf', e⟩
    · refine ⟨ms, ?_, ?_⟩
      · intro f' hf' hr'
        rcases List.mem_cons.1 hf' with rfl | hf'
        · exact absurd hr' hr
        · exact h1 f' hf' hr'
      · intro k j' hm
        obtain ⟨f', hf', e⟩ := h2 k j' hm
        exact ⟨f', .tail _ hf', e⟩

theorem fits_of_inside {t : T} (hd : Distinct t) : (∀ n, Inside (pointer false) t n → ∃ j, Fits env (.name n) j) →
    ∃ j, Fits env t j := by
  induction hd with
  | bool => exact fun _ => ⟨_, .bool true⟩
  | str => exact fun _ => ⟨_, .str []⟩
  | date => exact fun _ => ⟨_, .date []⟩
  | time => exact fun _ => ⟨_, .time []⟩
  | int b => exact fun _ => ⟨_, .int b ['0']⟩
  | float => exact fun _ => ⟨_, .float ['0']⟩
  | slice t => exact fun _ => ⟨_, .slice t [] (by simp)⟩
  | name n => exact fun h => h n (.name n)
  | struct fs adds hk h ih =>
    intro hn
    obtain ⟨ms, h1, h2⟩ := members fs (fun f hf hr => ih f hf (fun n hi => hn n (.field hf (pointer_required hr) hi)))
    refine ⟨.obj ms, .struct fs adds ms h1 ?_ ?_⟩
    · intro k j hm f hf hfk
      obtain ⟨f', hf', hk', hfit⟩ := h2 k j hm
      have := key_unique hk hf hf' (hfk.trans hk'.symm)
      rw [this]; exact hfit
    · intro u _ k j hm hno
      obtain ⟨f', hf', hk', _⟩ := h2 k j hm
      exact absurd hk' (hno f' hf')

theorem fits_of_small (hd : ∀ n, Distinct (env n)) {n : Str} (h : Small (pointer false) env n) : ∃ j, Fits env (.name n) j := by
  induction h with
  | intro n _ ih =>
    obtain ⟨j, hj⟩ := fits_of_inside (hd n) (fun m hm => ih m hm)
    exact ⟨j, .name n j hj⟩

/-- All names that declared types hold are declared. -/
def Closed (ptr : F → Bool) (env : Str → T) (names : List Str) : Prop :=
  ∀ a ∈ names, ∀ b, Inside ptr (env a) b → b ∈ names

theorem small_of_valid {ptr : F → Bool} {names : List Str} (hc : Closed ptr env names)
    (hv : ∀ n ∈ names, ¬ Invalid ptr env n) : ∀ n ∈ names, Small ptr env n := by
  let r : {n // n ∈ names} → {n // n ∈ names} → Prop :=
    fun b a => Relation.TransGen (fun a b => Inside ptr (env a) b) a.1 b.1
  have ht : IsTrans _ r := ⟨fun a b c hab hbc => Relation.TransGen.trans hbc hab⟩
  have hi : Std.Irrefl r := ⟨fun a ha => hv a.1 a.2 ha⟩
  have hf : Finite {n // n ∈ names} := (List.finite_toSet names).to_subtype
  have hw : WellFounded r := Finite.wellFounded_of_trans_of_irrefl r
  have key : ∀ a : {n // n ∈ names}, Small ptr env a.1 := by
    intro a
    induction a using hw.induction with
    | _ a ih => exact Acc.intro _ (fun b hb => ih ⟨b, hc a.1 a.2 b hb⟩ (Relation.TransGen.single hb))
  exact fun n hn => key ⟨n, hn⟩

/-- **C106, exactly**: among finitely many declarations, all types are valid exactly when every named schema has a valid
JSON value. -/
theorem C106_exact_partial (names : List Str) (hd : ∀ n, Distinct (env n)) (hc : Closed (pointer false) env names) :
    (∀ n ∈ names, ¬ Invalid (pointer false) env n) ↔ ∀ n ∈ names, ∃ j, Fits env (.name n) j :=
  ⟨fun hv n hn => fits_of_small hd (small_of_valid hc hv n hn), fun h n hn => by
    obtain ⟨j, hj⟩ := h n hn
    exact C106_valid_partial false n j hj⟩

/-! ## Forced pointers -/

/-- With forced pointers only a declaration by a name holds another type: `type A B`. -/
theorem inside_forced {t : T} {n : Str} : Inside (pointer true) t n ↔ t = .name n := by
  constructor
  · intro h
    cases h with
    | name => rfl
    | field hf hp h => exact absurd h (inside_slice (by simpa [pointer] using hp))
  · rintro rfl; exact .name n

/-- **C106, forced pointers.** All object types are valid, whether the schemas have values or not. -/
theorem C106_forced_partial (n : Str) (fs : List F) (adds : Option T) (h : env n = .struct fs adds) : ¬ Invalid (pointer true) env n := by
  intro hi
  have key : ∀ b, ¬ Relation.TransGen (fun a b => Inside (pointer true) (env a) b) n b := by
    intro b hb
    induction hb with
    | single hb => rw [inside_forced, h] at hb; cases hb
    | tail _ _ ih => exact ih
  exact key n hi

/-! ## Compositions -/

theorem addFields_new (fs gs : List F) (g : F) (hg : g ∈ gs) (hk : ∀ f ∈ fs, f.key ≠ g.key) : g ∈ addFields fs gs := by
  refine List.mem_append_right _ (List.mem_filter.2 ⟨hg, ?_⟩)
  simp only [Bool.not_eq_true', List.contains_eq_mem, decide_eq_false_iff_not, List.mem_map, not_exists, not_and]
  exact hk

theorem foldl_kept (gss : List (List F)) : ∀ (fs : List F) (f : F), f ∈ fs → f ∈ gss.foldl addFields fs := by
  induction gss with
  | nil => exact fun _ _ h => h
  | cons gs rest ih => exact fun fs f h => ih _ f (List.mem_append_left _ h)

theorem addFields_sub (fs gs : List F) (f : F) (h : f ∈ addFields fs gs) : f ∈ fs ∨ f ∈ gs := by
  rcases List.mem_append.1 h with h | h
  · exact .inl h
  · exact .inr (List.mem_filter.1 h).1

theorem foldl_new (gss : List (List F)) : ∀ (fs : List F) (pre : List (List F)) (gs : List F) (post : List (List F)) (g : F),
    gss = pre ++ gs :: post → g ∈ gs → (∀ f ∈ fs, f.key ≠ g.key) → (∀ hs ∈ pre, ∀ f ∈ hs, f.key ≠ g.key) →
    g ∈ gss.foldl addFields fs := by
  intro fs pre
  induction pre generalizing gss fs with
  | nil =>
    intro gs post g e hg hf _
    rw [e, List.nil_append, List.foldl_cons]
    exact foldl_kept _ _ _ (addFields_new _ _ _ hg hf)
  | cons hs pre ih =>
    intro gs post g e hg hf hp
    rw [e, List.cons_append, List.foldl_cons]
    refine ih _ _ gs post g rfl hg ?_ (fun hs' h' => hp hs' (.tail _ h'))
    intro f hf'
    rcases addFields_sub _ _ _ hf' with h | h
    · exact hf f h
    · exact hp hs (.head _) f h

/-- **C106 is violated** by alternatives that lead back to the composition: when one of them requires such a property (and no
earlier one declares it), the composition has an invalid type, whatever the other alternatives allow. -/
theorem C106_violated_alternatives (n : Str) (own : Part) (pre : List Part) (a : Part) (post : List Part)
    (he : typeOf env own (pre ++ a :: post) = some (env n)) (f : F) (hf : f ∈ a.fields env) (hr : f.req = true)
    (ht : f.type = .name n) (hown : ∀ g ∈ own.fields env, g.key ≠ f.key)
    (hpre : ∀ p ∈ pre, ∀ g ∈ p.fields env, g.key ≠ f.key) : Invalid (pointer false) env n := by
  unfold typeOf at he
  rw [if_neg (by simp)] at he
  have he := (Option.some.inj he).symm
  apply Relation.TransGen.single
  show Inside (pointer false) (env n) n
  rw [he]
  have hm : f ∈ ((pre ++ a :: post).map (Part.fields env)).foldl addFields (own.fields env) :=
    foldl_new _ _ (pre.map (Part.fields env)) (a.fields env) (post.map (Part.fields env)) f (by simp) hf hown (by
      intro hs h' g hg
      obtain ⟨p, hp, rfl⟩ := List.mem_map.1 h'
      exact hpre p hp g hg)
  have hpr : ∀ ns, promote ns f = f := by
    intro ns
    obtain ⟨k, req, ext, t⟩ := f
    cases hr
    rfl
  refine .field (f := f) (List.mem_map.2 ⟨f, hm, hpr _⟩) (pointer_required hr) ?_
  rw [ht]; exact .name n

/-! ## Examples -/

def nTree : Str := ['T', 'r', 'e', 'e']
def nLeaf : Str := ['L', 'e', 'a', 'f']
def nBranch : Str := ['B', 'r', 'a', 'n', 'c', 'h']
def kValue : Str := ['v']
def kLeft : Str := ['l']

/-- A leaf has a value; a branch requires a tree. -/
def leafT : T := .struct [.mk kValue true none .str] none
def branchT : T := .struct [.mk kLeft true none (.name nTree)] none
def leafP : Part := ⟨some leafT, [kValue]⟩
def branchP : Part := ⟨some branchT, [kLeft]⟩
/-- A tree is a leaf or a branch (`oneOf`). -/
def treeT : T := .struct [.mk kValue true none .str, .mk kLeft true none (.name nTree)] none
def treeEnv (n : Str) : T := if n = nTree then treeT else if n = nBranch then branchT else leafT

/-- The usual tree type does not compile. A leaf is a tree. -/
example : Invalid (pointer false) treeEnv nTree ∧ Fits treeEnv leafT (.obj [(kValue, .str [])]) := by
  refine ⟨C106_violated_alternatives nTree ⟨none, []⟩ [leafP] branchP [] (by rfl) (.mk kLeft true none (.name nTree)) (.head _)
    rfl rfl (by intro g hg; cases hg) ?_, .struct _ none _ ?_ ?_ (fun u hu => by cases hu)⟩
  · intro p hp g hg
    rw [List.mem_singleton.1 hp] at hg
    have : g ∈ [F.mk kValue true none .str] := hg
    rw [List.mem_singleton.1 this]
    decide
  · intro f hf _
    rw [List.mem_singleton.1 hf]; exact ⟨_, .head _⟩
  · intro k j hm f hf _
    rw [List.mem_singleton.1 hf]
    cases List.mem_singleton.1 hm
    exact .str []

/-- The same document on the heap: a leaf (0) requires a value, a branch (2) requires a tree (3, a reference to 4), a tree (4)
is one of them. -/
def treeHeap : SchemaMerge.Heap := fun p =>
  if p = 0 then { type := SchemaMerge.object, props := [(kValue, .ptr 1)], required := [kValue] }
  else if p = 2 then { type := SchemaMerge.object, props := [(kLeft, .ptr 3)], required := [kLeft] }
  else if p = 4 then { oneOf := [.ptr 5, .ptr 6] } else {}

def treeNodes : List Required.Node := [.mk 0 [(some kValue, .mk 1 [])], .mk 2 [(some kLeft, .mk 3 [])],
  .mk 4 [(none, .mk 5 []), (none, .mk 6 [])]]

def treeDoc (copies : Bool) : Process.Doc :=
  ⟨copies, fun p => if p = 3 then some 4 else if p = 5 then some 0 else if p = 6 then some 2 else none, fun _ => [], fun _ => []⟩

/-- **C106 is violated**, version 3, by the usual tree type, in whatever order its schemas are processed: the tree has a plain
field that is a tree (3 is a reference to 4). -/
theorem C106_violated_tree : ∀ roots ∈ [[0, 2, 4], [0, 4, 2], [2, 0, 4], [2, 4, 0], [4, 0, 2], [4, 2, 0]],
    (Process.processAll (treeDoc false) Required.inOrder 6 (Required.markRoots treeHeap treeNodes) roots).map
      (fun h => ((h 4).type, (h 4).props.get kLeft, (h 3).type, (h 3).refTo, (Required.field h 4 kLeft).map (·.pointer))) =
    some (SchemaMerge.object, some (.ptr 3), [], some (.ptr 4), some false) := by decide

/-- **C106 is violated**, version 2, by the same document: the property of the branch becomes an object of its own that has a
plain field of its own type. -/
theorem C106_violated_tree2 : ∀ roots ∈ [[0, 2, 4], [0, 4, 2], [2, 0, 4], [2, 4, 0], [4, 0, 2], [4, 2, 0]],
    (Process.processAll (treeDoc true) Required.inOrder 6 (Required.markRoots treeHeap treeNodes) roots).map
      (fun h => ((h 3).type, (h 3).props.get kLeft, (Required.field h 3 kLeft).map (·.pointer))) =
    some (SchemaMerge.object, some (.wrap (.ptr 3) true), some false) := by decide

/-- A list: a node has a value and possibly a next node. -/
def listEnv (_ : Str) : T := .struct [.mk kValue true none .str, .mk kLeft false none (.name nTree)] none

example : ¬ Invalid (pointer false) listEnv nTree := by
  refine C106_valid_partial false nTree (.obj [(kValue, .str [])]) (.name _ _ (.struct _ none _ ?_ ?_ (fun u hu => by cases hu)))
  · intro f hf hr
    simp only [List.mem_cons, List.not_mem_nil, or_false] at hf
    rcases hf with rfl | rfl
    · exact ⟨_, .head _⟩
    · cases hr
  · intro k j hm f hf hk
    cases List.mem_singleton.1 hm
    simp only [List.mem_cons, List.not_mem_nil, or_false] at hf
    rcases hf with rfl | rfl
    · exact .str []
    · cases hk

example : (∀ n ∈ [nTree], ¬ Invalid (pointer false) listEnv n) ↔ ∀ n ∈ [nTree], ∃ j, Fits listEnv (.name n) j := by
  refine C106_exact_partial [nTree] (fun n => .struct _ _ (by decide) ?_) ?_
  · intro f hf
    simp only [List.mem_cons, List.not_mem_nil, or_false] at hf
    rcases hf with rfl | rfl
    · exact .str
    · exact .name _
  · intro a _ b hb
    cases hb with
    | field hf hp h =>
      simp only [List.mem_cons, List.not_mem_nil, or_false] at hf
      rcases hf with rfl | rfl
      · cases h
      · cases h; exact .head _

/-- A node that requires a next node has no value, and no type. -/
example : Invalid (pointer false) (fun _ => branchT) nTree ∧ ¬ Invalid (pointer true) (fun _ => branchT) nTree :=
  ⟨.single (.field (.head _) rfl (.name _)), C106_forced_partial nTree _ _ rfl⟩

end Verif.Values
