import Verif.Model.Cli

/-!
# C56: the generate option
-/

namespace Verif.Cli

/-- The three names, read from the command's documentation. -/
def Known (n : Str) : Prop := n = "application".toList ∨ n = "user".toList ∨ n = "types".toList

theorem known_iff (n : Str) : Known n ↔ n = application ∨ n = user ∨ n = types := Iff.rfl

theorem setAll_ok : ∀ (ns : List Str) (o : Opts), (∀ n ∈ ns, Known n) →
    setAll o ns = .ok { application := o.application || decide (application ∈ ns)
                        user := o.user || decide (user ∈ ns)
                        types := o.types || decide (types ∈ ns) } := by
  intro ns
  induction ns with
  | nil => intro o _; simp [setAll]
  | cons n ns ih =>
    intro o h
    have hn := (known_iff n).1 (h n (by simp))
    have hs : ∀ m ∈ ns, Known m := fun m hm => h m (List.mem_cons_of_mem _ hm)
    have h1 : ¬ user = application := by decide
    have h2 : ¬ types = application := by decide
    have h3 : ¬ types = user := by decide
    have h1' : ¬ application = user := by decide
    have h2' : ¬ application = types := by decide
    have h3' : ¬ user = types := by decide
    rcases hn with rfl | rfl | rfl
    · rw [setAll, if_pos rfl, ih _ hs]; simp [List.mem_cons, h1, h2]
    · rw [setAll, if_neg h1, if_pos rfl, ih _ hs]; simp [List.mem_cons, h1', h3]
    · rw [setAll, if_neg h2, if_neg h3, if_pos rfl, ih _ hs]; simp [List.mem_cons, h2', h3']

theorem setAll_err : ∀ (pre : List Str) (n : Str) (post : List Str) (o : Opts), (∀ m ∈ pre, Known m) →
    ¬ Known n → setAll o (pre ++ n :: post) = .error n := by
  intro pre
  induction pre with
  | nil =>
    intro n post o _ hn
    have hn := mt (known_iff n).2 hn
    simp only [not_or] at hn
    rw [List.nil_append, setAll, if_neg hn.1, if_neg hn.2.1, if_neg hn.2.2]
  | cons m pre ih =>
    intro n post o h hn
    have hm := (known_iff m).1 (h m (by simp))
    have hs : ∀ k ∈ pre, Known k := fun k hk => h k (List.mem_cons_of_mem _ hk)
    rw [List.cons_append, setAll]
    by_cases h1 : m = application
    · rw [if_pos h1]; exact ih n post _ hs hn
    by_cases h2 : m = user
    · rw [if_neg h1, if_pos h2]; exact ih n post _ hs hn
    by_cases h3 : m = types
    · rw [if_neg h1, if_neg h2, if_pos h3]; exact ih n post _ hs hn
    · rcases hm with h | h | h <;> contradiction

/-- Whatever names are written, separated by commas, in any order and multiplicity: if all are known, exactly
the named parts are enabled. -/
theorem C56_enabled (ns : List Str) (hne : ns ≠ []) (hs : ∀ n ∈ ns, Known n) :
    toOptions (Str.join ',' ns) = .ok ⟨decide ("application".toList ∈ ns), decide ("user".toList ∈ ns),
      decide ("types".toList ∈ ns)⟩ := by
  have hc : ∀ n ∈ ns, ',' ∉ n := by
    intro n hn
    rcases (known_iff n).1 (hs n hn) with rfl | rfl | rfl <;> decide
  have hj : Str.join ',' ns ≠ [] := by
    cases ns with
    | nil => exact absurd rfl hne
    | cons n ns =>
      have hn : n ≠ [] := by rcases (known_iff n).1 (hs n (by simp)) with rfl | rfl | rfl <;> decide
      cases ns with
      | nil => exact hn
      | cons m ms =>
        intro h
        rw [Str.join] at h
        · exact hn (List.append_eq_nil_iff.1 h).1
        · intro h; cases h
  rw [toOptions, if_pos hj, Str.split_join ',' ns hne hc, setAll_ok ns {} hs]
  simp only [Bool.false_or]
  rfl

example : toOptions "types,user,types".toList = .ok ⟨false, true, true⟩ := by
  show toOptions (Str.join ',' ["types".toList, "user".toList, "types".toList]) = _
  rw [C56_enabled _ (by decide) (by intro n hn; simp at hn; rcases hn with rfl | rfl | rfl <;> simp [Known])]
  rfl

/-- If anything else is named, even nothing between two commas or a known name with a space, the option is
refused, and the error names the first culprit. -/
theorem C56_refused (ns : List Str) (hs : ∀ n ∈ ns, ',' ∉ n) (hne : ns ≠ [[]])
    (hbad : ∃ n ∈ ns, ¬ Known n) :
    ∃ n ∈ ns, ¬ Known n ∧ toOptions (Str.join ',' ns) = .error n := by
  obtain ⟨b, hb, hbk⟩ := hbad
  have hcut : ∀ l : List Str, b ∈ l → ∃ pre n post, l = pre ++ n :: post ∧ (∀ m ∈ pre, Known m) ∧ ¬ Known n := by
    intro l
    induction l with
    | nil => intro h; cases h
    | cons x l ih =>
      intro h
      by_cases hx : Known x
      · have hbl : b ∈ l := by
          rcases List.mem_cons.1 h with rfl | h
          · exact absurd hx hbk
          · exact h
        obtain ⟨pre, n, post, e, hp, hn⟩ := ih hbl
        refine ⟨x :: pre, n, post, by rw [e]; rfl, ?_, hn⟩
        intro m hm
        rcases List.mem_cons.1 hm with rfl | hm
        · exact hx
        · exact hp m hm
      · exact ⟨[], x, l, rfl, (fun m hm => absurd hm List.not_mem_nil), hx⟩
  obtain ⟨pre, n, post, e, hp, hn⟩ := hcut ns hb
  have hj : Str.join ',' ns ≠ [] := by
    cases ns with
    | nil => cases hb
    | cons x xs =>
      cases xs with
      | nil => intro h; exact hne (by rw [show x = [] from h])
      | cons y ys =>
        intro h
        rw [Str.join] at h
        · exact absurd (List.append_eq_nil_iff.1 h).2 (by simp)
        · intro h; cases h
  refine ⟨n, by rw [e]; simp, hn, ?_⟩
  have hnn : ns ≠ [] := by rw [e]; simp
  rw [toOptions, if_pos hj, Str.split_join ',' ns hnn hs, e]
  exact setAll_err pre n post {} hp hn

example : ∃ n, toOptions "user, types".toList = .error n :=
  ⟨" types".toList, rfl⟩

/-- An empty option enables nothing and is no error. -/
theorem C56_empty : toOptions [] = .ok ⟨false, false, false⟩ := rfl

/-- Every string is one of these cases: the two theorems above speak of all options. -/
theorem C56_total (s : Str) : s = [] ∨ ∃ ns : List Str, ns ≠ [] ∧ ns ≠ [[]] ∧ (∀ n ∈ ns, ',' ∉ n) ∧
    s = Str.join ',' ns := by
  by_cases h : s = []
  · exact Or.inl h
  · refine Or.inr ⟨Str.split ',' s, Str.split_ne_nil _ _, ?_, ?_, (Str.join_split ',' s).symm⟩
    · intro he
      have := Str.join_split ',' s
      rw [he] at this
      exact h this.symm
    · clear h
      induction s with
      | nil => intro n hn; simp [Str.split] at hn; subst hn; simp
      | cons c s ih =>
        intro n hn
        rw [Str.split] at hn
        by_cases hc : c = ','
        · rw [if_pos hc] at hn
          rcases List.mem_cons.1 hn with rfl | hn
          · simp
          · exact ih n hn
        · rw [if_neg hc] at hn
          cases hs : Str.split ',' s with
          | nil => exact absurd hs (Str.split_ne_nil _ _)
          | cons t ts =>
            rw [hs] at hn ih
            rcases List.mem_cons.1 hn with rfl | hn
            · intro hm
              rcases List.mem_cons.1 hm with h | h
              · exact hc h.symm
              · exact ih t (by simp) h
            · exact ih n (List.mem_cons_of_mem _ hn)

/-- The text of the parts that are enabled, in the order application, user, types. -/
def wanted (o : Opts) (text : Part → Str) : Str :=
  (if o.application then text .app else []) ++ (if o.user then text .user else []) ++
    (if o.types then text .types else [])

/-- When no part fails, the generated content is the imports followed by exactly the enabled parts, each
once. -/
theorem C56_parts {ε : Type} (o : Opts) (imp : Str) (text : Part → Str) :
    generate (ε := ε) (.ok imp) (fun p => .ok (text p)) o = .ok (imp ++ wanted o text) := by
  rcases o with ⟨_ | _, _ | _, _ | _⟩ <;> simp [generate, loop, wanted, List.append_assoc]

/-- The generation fails exactly when the imports or an enabled part fails: parts that are not enabled are
not even attempted. -/
theorem C56_fails {ε : Type} (o : Opts) (imp : Str) (gen : Part → Except ε Str) :
    (∃ e, generate (.ok imp) gen o = .error e) ↔
      ((o.application = true ∧ ∃ e, gen .app = .error e) ∨ (o.user = true ∧ ∃ e, gen .user = .error e) ∨
        (o.types = true ∧ ∃ e, gen .types = .error e)) := by
  rcases o with ⟨_ | _, _ | _, _ | _⟩ <;> cases h1 : gen .app <;> cases h2 : gen .user <;>
    cases h3 : gen .types <;> simp [generate, loop, h1, h2, h3]

example : generate (ε := Unit) (.ok ['i']) (fun p => match p with | .app => .ok ['a'] | .user => .error () | .types => .ok ['t'])
    ⟨true, false, true⟩ = .ok ['i', 'a', 't'] := rfl

end Verif.Cli
