import Verif.Model.Codegen

/-!
# C59 and C60: generations do not disturb each other, and failures leave the output alone
-/

namespace Verif.Codegen

variable {Spec Text : Type}

/-! ## C60 -/

/-- A generation touches no other file than its output. -/
theorem C60_other_files (env : Env Spec Text) (w : World Spec Text) (id : Nat) (opt : Opts) (p : Str)
    (hp : p ≠ opt.outputPath) : (generate env w id opt).1.files p = w.files p := by
  unfold generate
  split
  · rfl
  · simp only
    split
    · rfl
    · split
      · rfl
      · split
        · rfl
        · unfold writeFile
          split <;> simp [upd, hp]

/-- If any step before the final write fails, no file at all is modified. -/
theorem C60_untouched (env : Env Spec Text) (w : World Spec Text) (id : Nat) (opt : Opts) (e : Err)
    (h : (generate env w id opt).2 = some e) (he : e ≠ .write) :
    (generate env w id opt).1.files = w.files := by
  unfold generate at h ⊢
  split
  · rfl
  · rename_i g hg
    rw [hg] at h
    simp only at h ⊢
    split
    · rfl
    · rename_i s hs
      rw [hs] at h
      simp only at h
      split
      · rfl
      · rename_i t ht
        rw [ht] at h
        simp only at h
        split
        · rfl
        · rename_i f hf
          rw [hf] at h
          simp only [writeFile] at h
          exfalso
          cases hw : env.write opt.outputPath f with
          | none => rw [hw] at h; cases h
          | some l => rw [hw] at h; simp at h; exact he h.symm

/-- On success, the output holds what the templates produced, formatted unless formatting is disabled. -/
theorem C60_written (env : Env Spec Text) (w : World Spec Text) (id : Nat) (opt : Opts)
    (h : (generate env w id opt).2 = none) :
    ∃ s t f, env.process (generate env w id opt).1.globals (w.specs id) = (s, true) ∧
      env.content (generate env w id opt).1.globals s opt = some t ∧
      ((opt.disableFormatting = true ∧ f = t) ∨ (opt.disableFormatting = false ∧ env.format t = some f)) ∧
      (generate env w id opt).1.files opt.outputPath = some f := by
  unfold generate at h ⊢
  cases hg : setOptions w.globals opt with
  | mk g e =>
    rw [hg] at h
    cases e with
    | some e => cases h
    | none =>
      simp only at h ⊢
      cases hs : env.process g (w.specs id) with
      | mk s ok =>
        rw [hs] at h
        cases ok with
        | false => cases h
        | true =>
          simp only at h ⊢
          cases ht : env.content g s opt with
          | none => rw [ht] at h; cases h
          | some t =>
            rw [ht] at h
            simp only at h ⊢
            cases hf : finish env opt t with
            | none => rw [hf] at h; cases h
            | some f =>
              rw [hf] at h
              simp only [writeFile] at h ⊢
              cases hw : env.write opt.outputPath f with
              | some l => rw [hw] at h; cases h
              | none =>
                simp only
                refine ⟨s, t, f, hs, ht, ?_, by simp [upd]⟩
                unfold finish at hf
                cases hd : opt.disableFormatting with
                | true => rw [hd] at hf; simp at hf; exact Or.inl ⟨rfl, hf.symm⟩
                | false => rw [hd] at hf; simp at hf; exact Or.inr ⟨rfl, hf⟩

/-- The key conversions and naming schemes of the documentation (README.md). -/
def keys : List (Str × KeyFn) :=
  [("snake".toList, .snake), ("kebab".toList, .kebab), ("camel".toList, .camel), ("none".toList, .none)]
def schemes : List (Str × NameFn) := [("camel".toList, .camel), ("none".toList, .none)]

theorem keyFn_iff (name : Str) (k : KeyFn) : keyFn name = some k ↔ (name, k) ∈ keys := by
  unfold keyFn keys
  constructor
  · intro h
    repeat' split at h
    all_goals cases h
    all_goals (rename_i h; subst h; decide)
  · intro h
    simp only [List.mem_cons, Prod.mk.injEq, List.not_mem_nil, or_false] at h
    rcases h with ⟨rfl, rfl⟩ | ⟨rfl, rfl⟩ | ⟨rfl, rfl⟩ | ⟨rfl, rfl⟩ <;> decide

theorem nameFn_iff (name : Str) (n : NameFn) : nameFn name = some n ↔ (name, n) ∈ schemes := by
  unfold nameFn schemes
  constructor
  · intro h
    repeat' split at h
    all_goals cases h
    all_goals (rename_i h; subst h; decide)
  · intro h
    simp only [List.mem_cons, Prod.mk.injEq, List.not_mem_nil, or_false] at h
    rcases h with ⟨rfl, rfl⟩ | ⟨rfl, rfl⟩ <;> decide

/-- A generation can only end with one of these errors, in this order of precedence: unknown key conversion,
unknown naming scheme, processing, templates, formatting, writing. In particular, nothing is processed when an
option is unknown. -/
theorem C60_options_first (env : Env Spec Text) (w : World Spec Text) (id : Nat) (opt : Opts)
    (h : (∀ k, (opt.convertKeys, k) ∉ keys) ∨ ∀ n, (opt.namingScheme, n) ∉ schemes) :
    (∃ e, (generate env w id opt).2 = some e) ∧ (generate env w id opt).1.files = w.files ∧
      (generate env w id opt).1.specs = w.specs := by
  have h : keyFn opt.convertKeys = none ∨ nameFn opt.namingScheme = none := by
    rcases h with h | h
    · left
      cases hk : keyFn opt.convertKeys with
      | none => rfl
      | some k => exact absurd ((keyFn_iff _ _).mp hk) (h k)
    · right
      cases hn : nameFn opt.namingScheme with
      | none => rfl
      | some n => exact absurd ((nameFn_iff _ _).mp hn) (h n)
  unfold generate setOptions
  cases hk : keyFn opt.convertKeys with
  | none => exact ⟨⟨_, rfl⟩, rfl, rfl⟩
  | some k =>
    rcases h with h | h
    · rw [hk] at h; cases h
    · rw [h]; exact ⟨⟨_, rfl⟩, rfl, rfl⟩

/-- Non-vacuity: a name that is none of them. -/
example : ∀ k, ("pascal".toList, k) ∉ keys := by
  intro k; cases k <;> decide

/-! ## C59 -/

/-- What a generation gives: its error and, for its own output path, the content. -/
def result (env : Env Spec Text) (w : World Spec Text) (id : Nat) (opt : Opts) : Option Err × Option Text :=
  ((generate env w id opt).2, (generate env w id opt).1.files opt.outputPath)

/-- The options as the documentation describes them: the settings they ask for. -/
def Opts.asked (opt : Opts) : Option Globals :=
  match keyFn opt.convertKeys, nameFn opt.namingScheme with
  | some k, some n => some ⟨k, n, !opt.ignoreStringFormat, opt.forcePointers⟩
  | _, _ => none

/-- The same, independently of the functions of the code. -/
structure Opts.Asks (opt : Opts) (a : Globals) : Prop where
  key : (opt.convertKeys, a.key) ∈ keys
  name : (opt.namingScheme, a.name) ∈ schemes
  dates : a.dates = !opt.ignoreStringFormat
  pointers : a.pointers = opt.forcePointers

theorem asked_iff (opt : Opts) (a : Globals) : opt.asked = some a ↔ opt.Asks a := by
  unfold Opts.asked
  constructor
  · intro h
    cases hk : keyFn opt.convertKeys with
    | none => rw [hk] at h; cases h
    | some k =>
      cases hn : nameFn opt.namingScheme with
      | none => rw [hk, hn] at h; cases h
      | some n =>
        rw [hk, hn] at h
        cases h
        exact ⟨(keyFn_iff _ _).mp hk, (nameFn_iff _ _).mp hn, rfl, rfl⟩
  · rintro ⟨h1, h2, h3, h4⟩
    rw [(keyFn_iff _ _).mpr h1, (nameFn_iff _ _).mpr h2]
    cases a
    simp only at h3 h4 ⊢
    rw [h3, h4]

theorem setOptions_of (g : Globals) (opt : Opts) :
    (∀ k n, keyFn opt.convertKeys = some k → nameFn opt.namingScheme = some n →
      setOptions g opt = (⟨k, n, !opt.ignoreStringFormat && g.dates, opt.forcePointers || g.pointers⟩, none)) := by
  intro k n hk hn
  unfold setOptions
  rw [hk, hn]
  cases g
  cases opt.ignoreStringFormat <;> cases opt.forcePointers <;> simp

theorem setOptions_keeps (g : Globals) (opt : Opts) (hd : opt.ignoreStringFormat = false)
    (hp : opt.forcePointers = false) :
    (setOptions g opt).1.dates = g.dates ∧ (setOptions g opt).1.pointers = g.pointers := by
  unfold setOptions
  split
  · exact ⟨rfl, rfl⟩
  · split
    · exact ⟨rfl, rfl⟩
    · simp [hd, hp]

theorem generate_globals (env : Env Spec Text) (w : World Spec Text) (id : Nat) (opt : Opts) :
    (generate env w id opt).1.globals = (setOptions w.globals opt).1 := by
  unfold generate
  split
  · rename_i g e h; rw [h]
  · rename_i g h
    rw [h]
    simp only
    split
    · rfl
    · split
      · rfl
      · split
        · rfl
        · unfold writeFile; split <;> rfl

theorem generate_specs (env : Env Spec Text) (w : World Spec Text) (id id' : Nat) (opt : Opts)
    (hne : id' ≠ id) : (generate env w id opt).1.specs id' = w.specs id' := by
  unfold generate
  split
  · rfl
  · simp only
    split
    · simp [upd, hne]
    · split
      · simp [upd, hne]
      · split
        · simp [upd, hne]
        · unfold writeFile; split <;> simp [upd, hne]

theorem setOptions_congr (g g' : Globals) (opt : Opts) (hd : g.dates = g'.dates)
    (hp : g.pointers = g'.pointers) :
    (setOptions g opt).2 = (setOptions g' opt).2 ∧
      ((setOptions g opt).2 = none → (setOptions g opt).1 = (setOptions g' opt).1) := by
  cases hk : keyFn opt.convertKeys with
  | none => simp [setOptions, hk]
  | some k =>
    cases hn : nameFn opt.namingScheme with
    | none => simp [setOptions, hk, hn]
    | some n => rw [setOptions_of g opt k n hk hn, setOptions_of g' opt k n hk hn, hd, hp]; simp

/-- The result of a generation depends on the state of the process only through its specification, the two
sticky settings and, when it fails, the file that was there. -/
theorem result_congr (env : Env Spec Text) (w w' : World Spec Text) (id : Nat) (opt : Opts)
    (hd : w.globals.dates = w'.globals.dates) (hp : w.globals.pointers = w'.globals.pointers)
    (hs : w.specs id = w'.specs id) :
    (generate env w id opt).2 = (generate env w' id opt).2 ∧
      ((generate env w id opt).2 = none → result env w id opt = result env w' id opt) := by
  obtain ⟨he, hg⟩ := setOptions_congr w.globals w'.globals opt hd hp
  unfold result generate
  cases h1 : setOptions w.globals opt with
  | mk g e =>
    cases h2 : setOptions w'.globals opt with
    | mk g' e' =>
      rw [h1, h2] at he hg
      simp only at he hg
      subst he
      cases e with
      | some e => simp
      | none =>
        have := hg rfl
        subst this
        simp only [hs]
        cases env.process g (w'.specs id) with
        | mk s ok =>
          cases ok with
          | false => simp
          | true =>
            simp only
            cases env.content g s opt with
            | none => simp
            | some t =>
              simp only
              cases finish env opt t with
              | none => simp
              | some f =>
                simp only [writeFile]
                cases env.write opt.outputPath f <;> simp [upd]

/-- A generation whose earlier generations of the process concern other specifications and do not use the two
sticky options gives the same as in a fresh process: the same error, and if it succeeds the same content. -/
theorem C59_isolated_partial (env : Env Spec Text) (hist : List (Nat × Opts)) (w : World Spec Text)
    (id : Nat) (opt : Opts)
    (hid : ∀ e ∈ hist, e.1 ≠ id)
    (hopt : ∀ e ∈ hist, e.2.ignoreStringFormat = false ∧ e.2.forcePointers = false) :
    (generate env (runAll env w hist) id opt).2 = (generate env w id opt).2 ∧
      ((generate env w id opt).2 = none → result env (runAll env w hist) id opt = result env w id opt) := by
  have key : ∀ (hist : List (Nat × Opts)) (w : World Spec Text), (∀ e ∈ hist, e.1 ≠ id) →
      (∀ e ∈ hist, e.2.ignoreStringFormat = false ∧ e.2.forcePointers = false) →
      (runAll env w hist).globals.dates = w.globals.dates ∧
        (runAll env w hist).globals.pointers = w.globals.pointers ∧
        (runAll env w hist).specs id = w.specs id := by
    intro hist
    induction hist with
    | nil => intro w _ _; exact ⟨rfl, rfl, rfl⟩
    | cons e hist ih =>
      intro w h1 h2
      obtain ⟨i, o⟩ := e
      have ho := h2 (i, o) (by simp)
      obtain ⟨a, b, c⟩ := ih (generate env w i o).1 (fun e he => h1 e (List.mem_cons_of_mem _ he))
        (fun e he => h2 e (List.mem_cons_of_mem _ he))
      rw [generate_globals] at a b
      have hk := setOptions_keeps w.globals o ho.1 ho.2
      refine ⟨a.trans hk.1, b.trans hk.2, c.trans ?_⟩
      exact generate_specs env w i id o (fun h => h1 (i, o) (by simp) h.symm)
  obtain ⟨a, b, c⟩ := key hist w hid hopt
  obtain ⟨h1, h2⟩ := result_congr env (runAll env w hist) w id opt a b c
  exact ⟨h1, fun h => h2 (h1.trans h)⟩

/-- Key conversion and naming are never inherited: after any history, the settings used are those the options
ask for, up to the two sticky ones, which are exactly the disjunction over the history. -/
theorem C59_settings (env : Env Spec Text) (hist : List (Nat × Opts)) (w : World Spec Text) (id : Nat) (opt : Opts)
    (a : Globals) (ha : opt.Asks a) :
    let g := (generate env (runAll env w hist) id opt).1.globals
    let bad := fun e : Nat × Opts => (e.2.asked.isSome)
    g.key = a.key ∧ g.name = a.name ∧
      (g.dates = (a.dates && w.globals.dates &&
        hist.all (fun e => !(bad e && e.2.ignoreStringFormat)))) ∧
      (g.pointers = (a.pointers || w.globals.pointers ||
        hist.any (fun e => bad e && e.2.forcePointers))) := by
  replace ha := (asked_iff opt a).2 ha
  have one : ∀ (g : Globals) (o : Opts),
      (setOptions g o).1.dates = (g.dates && !(o.asked.isSome && o.ignoreStringFormat)) ∧
      (setOptions g o).1.pointers = (g.pointers || (o.asked.isSome && o.forcePointers)) := by
    intro g o
    unfold Opts.asked
    cases hk : keyFn o.convertKeys with
    | none => simp [setOptions, hk]
    | some k =>
      cases hn : nameFn o.namingScheme with
      | none => simp [setOptions, hk, hn]
      | some n =>
        rw [setOptions_of g o k n hk hn]
        cases o.ignoreStringFormat <;> cases o.forcePointers <;> cases g.dates <;> cases g.pointers <;> simp
  have key : ∀ (hist : List (Nat × Opts)) (w : World Spec Text),
      (runAll env w hist).globals.dates = (w.globals.dates &&
        hist.all (fun e => !(e.2.asked.isSome && e.2.ignoreStringFormat))) ∧
      (runAll env w hist).globals.pointers = (w.globals.pointers ||
        hist.any (fun e => e.2.asked.isSome && e.2.forcePointers)) := by
    intro hist
    induction hist with
    | nil => intro w; simp [runAll]
    | cons e hist ih =>
      intro w
      obtain ⟨i, o⟩ := e
      rw [runAll, (ih _).1, (ih _).2, generate_globals, (one w.globals o).1, (one w.globals o).2]
      simp only [List.all_cons, List.any_cons, Bool.and_assoc, Bool.or_assoc]
      exact ⟨trivial, trivial⟩
  have hd := (key hist w).1
  have hp := (key hist w).2
  simp only
  rw [generate_globals]
  unfold Opts.asked at ha
  cases hk : keyFn opt.convertKeys with
  | none => rw [hk] at ha; cases ha
  | some k =>
    cases hn : nameFn opt.namingScheme with
    | none => rw [hk, hn] at ha; cases ha
    | some n =>
      rw [hk, hn] at ha
      cases ha
      rw [setOptions_of _ opt k n hk hn]
      simp only [hd, hp, Bool.and_assoc, Bool.or_assoc]
      exact ⟨trivial, trivial, trivial, trivial⟩

/-- Default options, but for the two flags. -/
def flags (dates pointers : Bool) : Opts :=
  ⟨['o'], ['p'], 0, false, ['n', 'o', 'n', 'e'], ['n', 'o', 'n', 'e'], dates, pointers⟩

/-- An environment where everything succeeds and the content tells the type of a `date` string and whether an
optional and a required field are pointers, as the templates see them. -/
def telling : Env Unit (Bool × Bool × Bool) where
  process := fun _ s => (s, true)
  content := fun g _ _ => some (g.dateGenerated ['d', 'a', 't', 'e'], g.fieldPointer false false, g.fieldPointer true false)
  format := some
  write := fun _ _ => none

def fresh : World Unit (Bool × Bool × Bool) := ⟨Globals.init, fun _ => (), fun _ => none⟩

/-- The same options give another content after a generation, of another specification, that ignored string
formats or forced pointers: these settings are never reset. -/
theorem C59_violated :
    result telling fresh 0 (flags false false) = (none, some (true, true, false)) ∧
    result telling (runAll telling fresh [(1, flags true false)]) 0 (flags false false) =
      (none, some (false, true, false)) ∧
    result telling (runAll telling fresh [(1, flags false true)]) 0 (flags false false) =
      (none, some (true, true, true)) := by
  refine ⟨?_, ?_, ?_⟩ <;> rfl

/-- The hypotheses of `C59_isolated_partial` are met by any history of ordinary generations. -/
example : result telling (runAll telling fresh [(1, flags false false), (2, flags false false)]) 0 (flags true true) =
    result telling fresh 0 (flags true true) := rfl

example : (generate { telling with process := fun _ s => (s, false) } fresh 0 (flags false false)).2 = some .process := rfl

end Verif.Codegen
