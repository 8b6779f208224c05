import Verif.Spec.Command
import Verif.Props.Parse
import Verif.Props.CmdLine

/-!
# C96: the command ends with status 0 exactly when its output file holds the generated code, and otherwise leaves
the files alone; running it again changes nothing
-/

namespace Verif.Command

open Codegen (upd)

variable {Text : Type}

/-- The text that a loaded specification and options give. -/
def made (env : Codegen.Env Loaded Text) (spec : Loaded) (opt : Codegen.Opts) : Option Text :=
  match opt.asked with
  | none => none
  | some g =>
    match env.process g spec with
    | (_, false) => none
    | (s, true) => (env.content g s opt).bind (Codegen.finish env opt)

/-- Writing what was made. -/
def put (env : Codegen.Env Loaded Text) (files : Str → Option Text) (path : Str) (t : Option Text) :
    (Str → Option Text) × Exit :=
  match t with
  | none => (files, .error)
  | some t =>
    match env.write path t with
    | none => (upd files path (some t), .ok)
    | some left => (upd files path left, .error)

theorem generate_eq (sys : Sys Text) (files : Str → Option Text) (spec : Loaded) (opt : Codegen.Opts) :
    generate sys files spec opt = put sys.env files opt.outputPath (made sys.env spec opt) := by
  unfold generate Codegen.generate made
  cases hk : Codegen.keyFn opt.convertKeys with
  | none => simp [Codegen.setOptions, Codegen.Opts.asked, hk, put]
  | some k =>
    cases hn : Codegen.nameFn opt.namingScheme with
    | none => simp [Codegen.setOptions, Codegen.Opts.asked, hk, hn, put]
    | some n =>
      rw [Codegen.setOptions_of _ _ k n hk hn]
      have ha : opt.asked = some ⟨k, n, !opt.ignoreStringFormat, opt.forcePointers⟩ := by
        simp [Codegen.Opts.asked, hk, hn]
      rw [ha]
      simp only [Codegen.Globals.init, Bool.and_true, Bool.or_false]
      cases hp : sys.env.process ⟨k, n, !opt.ignoreStringFormat, opt.forcePointers⟩ spec with
      | mk s b =>
        cases b with
        | false => rfl
        | true =>
          simp only
          cases hc : sys.env.content ⟨k, n, !opt.ignoreStringFormat, opt.forcePointers⟩ s opt with
          | none => rfl
          | some t =>
            simp only [Option.bind_some]
            cases hf : Codegen.finish sys.env opt t with
            | none => rfl
            | some x =>
              simp only [put, Codegen.writeFile]
              cases sys.env.write opt.outputPath x <;> rfl

/-- The text that a command produces. -/
def product (sys : Sys Text) (files : Str → Option Text) (f : CmdLine.Flags) : Option Text :=
  match f.inputs with
  | [] => none
  | path :: deps =>
    match Parse.load sys.decodes (fileAt sys files) path deps with
    | .ok (some spec) =>
      match Cli.toOptions f.generate with
      | .error _ => none
      | .ok o => made sys.env spec (toOpts f o)
    | _ => none

theorem runE_eq (sys : Sys Text) (files : Str → Option Text) (f : CmdLine.Flags) :
    runE sys files f = if f.inputs = [] then (files, .panic) else put sys.env files f.output (product sys files f) := by
  unfold runE product
  cases hi : f.inputs with
  | nil => rfl
  | cons path deps =>
    simp only [reduceCtorEq, if_false]
    cases hl : Parse.load sys.decodes (fileAt sys files) path deps with
    | error e => rfl
    | ok o =>
      cases o with
      | none => exact absurd hl (Parse.C55_main_not_nil _ _ _ _)
      | some spec =>
        simp only
        cases ho : Cli.toOptions f.generate with
        | error e => rfl
        | ok o => exact generate_eq sys files spec (toOpts f o)

theorem made_iff (sys : Sys Text) (spec : Loaded) (f : CmdLine.Flags) (o : Cli.Opts) (text : Text) :
    made sys.env spec (toOpts f o) = some text ↔
      ∃ g s t, (toOpts f o).Asks g ∧ sys.env.process g spec = (s, true) ∧ sys.env.content g s (toOpts f o) = some t ∧
        ((f.noFormat = true ∧ text = t) ∨ (f.noFormat = false ∧ sys.env.format t = some text)) := by
  have hfin : ∀ t, Codegen.finish sys.env (toOpts f o) t = some text ↔
      ((f.noFormat = true ∧ text = t) ∨ (f.noFormat = false ∧ sys.env.format t = some text)) := by
    intro t
    unfold Codegen.finish
    show (if f.noFormat = true then some t else sys.env.format t) = some text ↔ _
    by_cases h : f.noFormat = true
    · simp [h, eq_comm]
    · simp [h]
  unfold made
  constructor
  · intro h
    cases ha : (toOpts f o).asked with
    | none => rw [ha] at h; cases h
    | some g =>
      rw [ha] at h
      simp only at h
      match hp : sys.env.process g spec with
      | (s, false) => rw [hp] at h; cases h
      | (s, true) =>
        rw [hp] at h
        simp only at h
        cases hc : sys.env.content g s (toOpts f o) with
        | none => rw [hc] at h; cases h
        | some t =>
          rw [hc] at h
          exact ⟨g, s, t, (Codegen.asked_iff _ _).mp ha, hp, hc, (hfin t).mp h⟩
  · rintro ⟨g, s, t, ha, hp, hc, hf⟩
    rw [(Codegen.asked_iff _ _).mpr ha]
    simp only [hp, hc, Option.bind_some]
    exact (hfin t).mpr hf

theorem parts_bits (o : Cli.Opts) : (parts o).testBit 0 = o.application ∧ (parts o).testBit 1 = o.user ∧
    (parts o).testBit 2 = o.types ∧ parts o < 8 := by
  obtain ⟨a, u, t⟩ := o
  cases a <;> cases u <;> cases t <;> decide

theorem wanted_iff (f : CmdLine.Flags) (o : Cli.Opts) (opt : Codegen.Opts) : Wanted f o opt ↔ opt = toOpts f o := by
  constructor
  · rintro ⟨h1, h2, h3, h4, h5, h6, h7, h8, h9, h10, h11⟩
    have hp : opt.parts = parts o := by
      obtain ⟨b1, b2, b3, b4⟩ := parts_bits o
      apply Nat.eq_of_testBit_eq
      intro i
      match i with
      | 0 => rw [h3, b1]
      | 1 => rw [h4, b2]
      | 2 => rw [h5, b3]
      | i + 3 =>
        have hi : 8 ≤ 2 ^ (i + 3) := by
          rw [Nat.pow_add]; exact Nat.le_mul_of_pos_left 8 (Nat.two_pow_pos i)
        rw [Nat.testBit_lt_two_pow (by omega), Nat.testBit_lt_two_pow (by omega)]
    cases opt
    simp only at h1 h2 h7 h8 h9 h10 h11 hp
    subst h1 h2 h7 h8 h9 h10 h11 hp
    rfl
  · rintro rfl
    obtain ⟨b1, b2, b3, b4⟩ := parts_bits o
    exact ⟨rfl, rfl, b1, b2, b3, b4, rfl, rfl, rfl, rfl, rfl⟩

theorem product_iff (sys : Sys Text) (files : Str → Option Text) (f : CmdLine.Flags) (text : Text) :
    product sys files f = some text ↔ Produces sys files f text := by
  unfold product
  constructor
  · intro h
    cases hi : f.inputs with
    | nil => rw [hi] at h; cases h
    | cons path deps =>
      rw [hi] at h
      simp only at h
      split at h
      · rename_i spec hl
        cases ho : Cli.toOptions f.generate with
        | error e => rw [ho] at h; cases h
        | ok o =>
          rw [ho] at h
          obtain ⟨g, s, t, h1, h2, h3, h4⟩ := (made_iff sys spec f o text).mp h
          exact ⟨path, deps, spec, o, _, g, s, t, hi, hl, ho, (wanted_iff f o _).2 rfl, h1, h2, h3, h4⟩
      · cases h
  · rintro ⟨path, deps, spec, o, opt, g, s, t, hi, hl, ho, hw, h⟩
    obtain rfl := (wanted_iff f o opt).1 hw
    rw [hi]
    simp only [hl, ho]
    exact (made_iff sys spec f o text).mpr ⟨g, s, t, h⟩

/-- **C96.** Without `--help`, the command ends with status 0 exactly when the documents produce a text and it can be
written; the output file then holds this text, and no other file has changed. -/
theorem C96_success (sys : Sys Text) (files : Str → Option Text) (argv : List Str) (f : CmdLine.Flags)
    (hf : CmdLine.parse sys.csv argv = some f) (hh : f.help = false) (files' : Str → Option Text) :
    main sys files argv = (files', .ok) ↔
      ∃ text, Produces sys files f text ∧ sys.env.write f.output text = none ∧ files' f.output = some text ∧
        ∀ p, p ≠ f.output → files' p = files p := by
  have hm : main sys files argv = runE sys files f := by simp [main, hf, hh]
  rw [hm, runE_eq]
  by_cases hi : f.inputs = []
  · rw [if_pos hi]
    constructor
    · intro h; cases h
    · rintro ⟨text, ⟨⟨path, deps, _, _, _, _, _, _, h, _⟩⟩, _⟩
      rw [hi] at h; cases h
  · rw [if_neg hi]
    constructor
    · intro h
      unfold put at h
      split at h
      · cases h
      · rename_i t ht
        split at h
        · rename_i hw
          cases h
          refine ⟨t, (product_iff sys files f t).mp ht, hw, by simp [upd], fun p hp => by simp [upd, hp]⟩
        · cases h
    · rintro ⟨text, hp, hw, ho, hr⟩
      rw [(product_iff sys files f text).mpr hp]
      simp only [put, hw, Prod.mk.injEq, and_true]
      funext p
      by_cases e : p = f.output
      · subst e; simp [upd, ho]
      · simp [upd, e, hr p e]

/-- **C96.** The status: 0 exactly for `--help` and for a text produced and written, 1 for command lines that are refused,
with all files as they were. -/
theorem C96_status (sys : Sys Text) (files : Str → Option Text) (argv : List Str) :
    ((main sys files argv).2 = .ok ↔ ∃ f, CmdLine.parse sys.csv argv = some f ∧
      (f.help = true ∨ ∃ text, Produces sys files f text ∧ sys.env.write f.output text = none)) ∧
    (CmdLine.parse sys.csv argv = none → main sys files argv = (files, .error)) := by
  refine ⟨?_, fun h => by simp only [main, h]⟩
  cases hf : CmdLine.parse sys.csv argv with
  | none => simp [main, hf]
  | some f =>
    simp only [Option.some.injEq, exists_eq_left']
    by_cases hh : f.help = true
    · simp [main, hf, hh]
    · have hs := C96_success sys files argv f hf (by simpa using hh)
      constructor
      · intro h
        obtain ⟨text, h1, h2, -⟩ := (hs (main sys files argv).1).1 (Prod.ext rfl h)
        exact .inr ⟨text, h1, h2⟩
      · rintro (h | ⟨text, h1, h2⟩)
        · exact (hh h).elim
        · have := (hs (upd files f.output (some text))).2 ⟨text, h1, h2, by simp [upd], fun p hp => by simp [upd, hp]⟩
          rw [this]

/-- **C96.** When the command ends otherwise, no file has changed, unless writing the produced text failed, and then
no file but the output. The same holds of `--help` and of command lines that are refused. -/
theorem C96_untouched (sys : Sys Text) (files : Str → Option Text) (argv : List Str) :
    ((main sys files argv).2 ≠ .ok ∨ ∃ f, CmdLine.parse sys.csv argv = some f ∧ f.help = true) →
      (main sys files argv).1 = files ∨
        ∃ f text, CmdLine.parse sys.csv argv = some f ∧ Produces sys files f text ∧
          sys.env.write f.output text ≠ none ∧ ∀ p, p ≠ f.output → (main sys files argv).1 p = files p := by
  intro h
  unfold main at h ⊢
  cases hf : CmdLine.parse sys.csv argv with
  | none => left; rfl
  | some f =>
    simp only
    by_cases hh : f.help = true
    · left; rw [if_pos hh]
    · rw [if_neg hh, runE_eq]
      by_cases hi : f.inputs = []
      · left; rw [if_pos hi]
      · rw [if_neg hi]
        cases hp : product sys files f with
        | none => left; rfl
        | some t =>
          right
          refine ⟨f, t, rfl, (product_iff sys files f t).mp hp, ?_, ?_⟩
          · intro hw
            rcases h with h | ⟨f', e, h⟩
            · apply h
              simp only [hf, hh, runE_eq, if_neg hi, hp, put, hw]
              rfl
            · rw [hf] at e; cases e; exact hh h
          · intro p hne
            unfold put
            simp only
            split <;> simp [upd, hne]

/-- **C96.** The command panics exactly when the options leave no document, and only then. -/
theorem C96_panic (sys : Sys Text) (files : Str → Option Text) (argv : List Str) :
    (main sys files argv).2 = .panic ↔
      ∃ f, CmdLine.parse sys.csv argv = some f ∧ f.help = false ∧ f.inputs = [] := by
  unfold main
  cases hf : CmdLine.parse sys.csv argv with
  | none => simp
  | some f =>
    simp only [Option.some.injEq, exists_eq_left']
    by_cases hh : f.help = true
    · simp [hh]
    · rw [if_neg hh, runE_eq]
      by_cases hi : f.inputs = []
      · simp [hh, hi]
      · rw [if_neg hi]
        unfold put
        split
        · simp [hi]
        · split <;> simp [hi]

/-- **C96 (violated).** An empty `-i` makes the command panic, whatever the files. -/
theorem C96_violated_panic (sys : Sys Text) (files : Str → Option Text) :
    main sys files ["-i".toList, []] = (files, .panic) := rfl

theorem load_congr (decodes : Parse.Impl → Json → Bool) (fs fs' : Str → Parse.File) (path : Str) (deps : List Str)
    (h : ∀ p ∈ path :: deps, fs p = fs' p) : Parse.load decodes fs path deps = Parse.load decodes fs' path deps := by
  have h1 : Parse.fromFile decodes fs path 0 = Parse.fromFile decodes fs' path 0 := by
    unfold Parse.fromFile; rw [h path (by simp)]
  have h2 : ∀ (spec : Parse.Spec) (ps : List Str), (∀ p ∈ ps, fs p = fs' p) →
      Parse.addAll decodes fs spec ps = Parse.addAll decodes fs' spec ps := by
    intro spec ps
    induction ps with
    | nil => intro _; rfl
    | cons p ps ih =>
      intro hp
      have e : Parse.fromFile decodes fs p spec.impl.major = Parse.fromFile decodes fs' p spec.impl.major := by
        unfold Parse.fromFile; rw [hp p (by simp)]
      rw [Parse.addAll, Parse.addAll, e, ih (fun q hq => hp q (by simp [hq]))]
  unfold Parse.load
  rw [h1]
  split <;> try rfl
  rw [h2 _ deps (fun p hp => h p (by simp [hp]))]

/-- **C96.** Running the command again, when its output is none of its documents, ends in the same way and changes
no file. -/
theorem C96_again (sys : Sys Text) (files : Str → Option Text) (argv : List Str)
    (h : ∀ f, CmdLine.parse sys.csv argv = some f → f.output ∉ f.inputs) :
    main sys (main sys files argv).1 argv = main sys files argv := by
  unfold main
  cases hf : CmdLine.parse sys.csv argv with
  | none => rfl
  | some f =>
    simp only
    by_cases hh : f.help = true
    · simp [hh]
    · simp only [if_neg hh, runE_eq]
      by_cases hi : f.inputs = []
      · simp [hi]
      · simp only [if_neg hi]
        have hsame : ∀ files' : Str → Option Text, (∀ p, p ≠ f.output → files' p = files p) →
            product sys files' f = product sys files f := by
          intro files' hs
          unfold product
          cases hin : f.inputs with
          | nil => rfl
          | cons path deps =>
            simp only
            rw [load_congr sys.decodes (fileAt sys files') (fileAt sys files) path deps]
            intro p hp
            have : p ≠ f.output := fun e => h f hf (by rw [hin, ← e]; exact hp)
            unfold fileAt
            rw [hs p this]
        have hupd : ∀ (a b : Option Text), upd (upd files f.output a) f.output b = upd files f.output b := by
          intro a b; funext p; by_cases e : p = f.output <;> simp [upd, e]
        cases hp : product sys files f with
        | none => simp [put, hp]
        | some t =>
          cases hw : sys.env.write f.output t with
          | none =>
            simp only [put, hw]
            rw [hsame _ (fun p hne => by simp [upd, hne]), hp]
            simp only [hw, hupd]
          | some left =>
            simp only [put, hw]
            rw [hsame _ (fun p hne => by simp [upd, hne]), hp]
            simp only [hw, hupd]

/-- A system whose generation gives the number of bytes of the document and the asked package. -/
def sysEx : Sys Str where
  csv := fun _ => none
  json := fun _ t => some (.obj [(Parse.asyncapiKey, .str t)])
  decodes := fun _ _ => true
  env := { process := fun _ s => (s, true), content := fun _ _ o => some o.packageName, format := some, write := fun _ _ => none }

/-- One document. -/
def filesEx : Str → Option Str := fun p => if p = "a.yaml".toList then some "3.0.0".toList else none

example : ∃ files', main sysEx filesEx ["-i".toList, "a.yaml".toList, "-p".toList, "mine".toList] = (files', .ok) ∧
    files' "asyncapi.gen.go".toList = some "mine".toList := ⟨_, rfl, rfl⟩

example : (main sysEx filesEx ["-p".toList, "mine".toList]).2 = .error := rfl

/-- When the output is one of the documents, the command replaces the document, and running it again fails. -/
example : (main sysEx filesEx ["-i".toList, "a.yaml".toList, "-o".toList, "a.yaml".toList]).2 = .ok ∧
    (main sysEx (main sysEx filesEx ["-i".toList, "a.yaml".toList, "-o".toList, "a.yaml".toList]).1
      ["-i".toList, "a.yaml".toList, "-o".toList, "a.yaml".toList]).2 = .error := ⟨rfl, rfl⟩

end Verif.Command
