import Verif.Model.FileHead

/-!
# C130: a generated file says that it is generated, and is of the package asked for

Go tools take a file as generated if a line `// Code generated … DO NOT EDIT.` comes before anything that is no comment
(https://go.dev/s/generatedcode).
-/

namespace Verif.FileHead

/-! ## Specification -/

/-- A line that says that the file is generated. -/
def Marker (l : Str) : Prop := ∃ mid, l = "// Code generated ".toList ++ mid ++ " DO NOT EDIT.".toList

/-- An empty line or a comment. Comments over several lines are not looked at. -/
def Quiet (l : Str) : Prop := l = [] ∨ ∃ r, l = '/' :: '/' :: r

/-- Go tools take the file as generated. -/
def Generated (text : Str) : Prop := ∃ pre m post, Str.split '\n' text = pre ++ m :: post ∧ Marker m ∧ ∀ l ∈ pre, Quiet l

/-- The first line that says something is the package clause with that name. -/
def OfPackage (text p : Str) : Prop :=
  ∃ pre post, Str.split '\n' text = pre ++ ("package ".toList ++ p) :: post ∧ ∀ l ∈ pre, Quiet l

/-- Texts of one line. -/
def OneLine (s : Str) : Prop := '\n' ∉ s

/-- The name and the version in the build information are texts of one line. -/
def BuildOk (b : Option Build) : Prop := ∀ x, b = some x → OneLine x.path ∧ OneLine x.version

/-! ## Lines -/

theorem split_lines (sep : Char) (s : Str) : ∀ l ∈ Str.split sep s, sep ∉ l := by
  induction s with
  | nil => intro l hl; simp [Str.split] at hl; subst hl; exact List.not_mem_nil
  | cons c s ih =>
    intro l hl
    rw [Str.split] at hl
    split at hl
    · rcases List.mem_cons.1 hl with rfl | hl
      · exact List.not_mem_nil
      · exact ih l hl
    · rename_i hc
      split at hl
      · rename_i h; exact absurd h (Str.split_ne_nil sep s)
      · rename_i t ts h
        rcases List.mem_cons.1 hl with rfl | hl
        · intro hm
          rcases List.mem_cons.1 hm with e | hm
          · exact hc e.symm
          · exact ih t (by rw [h]; exact .head _) hm
        · exact ih l (by rw [h]; exact .tail _ hl)

theorem module_lines (b : Option Build) (h : BuildOk b) : OneLine (modulePathVersion b).1 ∧ OneLine (modulePathVersion b).2 := by
  have u1 : OneLine "unknown module path".toList := by unfold OneLine; decide
  have u2 : OneLine "unknown version".toList := by unfold OneLine; decide
  cases b with
  | none => exact ⟨u1, u2⟩
  | some b =>
    obtain ⟨h1, h2⟩ := h b rfl
    unfold modulePathVersion
    constructor
    · show OneLine (if b.path ≠ [] then b.path else _)
      split <;> assumption
    · show OneLine (if b.version ≠ [] then b.version else _)
      split <;> assumption

theorem content_lines (pkg : Str) (b : Option Build) (rest : Str) (hp : OneLine pkg) (hb : BuildOk b) :
    Str.split '\n' (content pkg b rest) = (tPackage ++ pkg ++ tProvides) :: tSlashes ::
      (tBy ++ (modulePathVersion b).1 ++ tVersion ++ (modulePathVersion b).2 ++ tEdit) :: (tClause ++ pkg) ::
      Str.split '\n' rest := by
  obtain ⟨h1, h2⟩ := module_lines b hb
  have c1 : '\n' ∉ tPackage := by decide
  have c2 : '\n' ∉ tProvides := by decide
  have c3 : '\n' ∉ tSlashes := by decide
  have c4 : '\n' ∉ tBy := by decide
  have c5 : '\n' ∉ tVersion := by decide
  have c6 : '\n' ∉ tEdit := by decide
  have c7 : '\n' ∉ tClause := by decide
  unfold OneLine at h1 h2 hp
  unfold content
  rw [Str.split_append, Str.split_append, Str.split_append, Str.split_append]
  · simp only [List.mem_append, not_or]; exact ⟨c7, hp⟩
  · simp only [List.mem_append, not_or]; exact ⟨⟨⟨⟨c4, h1⟩, c5⟩, h2⟩, c6⟩
  · exact c3
  · simp only [List.mem_append, not_or]; exact ⟨⟨c1, hp⟩, c2⟩

/-! ## Theorems -/

/-- For every package name of one line, whatever the build information and the rest of the file: Go tools take the file as
generated, and it is of that package. -/
theorem C130_head_partial (pkg : Str) (b : Option Build) (rest : Str) (hp : OneLine pkg) (hb : BuildOk b) :
    Generated (content pkg b rest) ∧ OfPackage (content pkg b rest) pkg := by
  have hl := content_lines pkg b rest hp hb
  have q1 : Quiet (tPackage ++ pkg ++ tProvides) :=
    .inr ⟨" Package \"".toList ++ pkg ++ tProvides, rfl⟩
  have q2 : Quiet tSlashes := .inr ⟨[], rfl⟩
  have em : tBy ++ (modulePathVersion b).1 ++ tVersion ++ (modulePathVersion b).2 ++ tEdit =
      "// Code generated ".toList ++ ("by ".toList ++ (modulePathVersion b).1 ++ tVersion ++ (modulePathVersion b).2) ++
        " DO NOT EDIT.".toList := by
    have : tBy = "// Code generated ".toList ++ "by ".toList := by decide
    rw [this]
    simp only [List.append_assoc]
    rfl
  have q3 : Quiet (tBy ++ (modulePathVersion b).1 ++ tVersion ++ (modulePathVersion b).2 ++ tEdit) :=
    .inr ⟨" Code generated by ".toList ++ (modulePathVersion b).1 ++ tVersion ++ (modulePathVersion b).2 ++ tEdit, rfl⟩
  refine ⟨⟨[_, _], _, _, hl, ⟨_, em⟩, ?_⟩, ⟨[_, _, _], _, hl, ?_⟩⟩
  · intro l h
    simp only [List.mem_cons, List.not_mem_nil, or_false] at h
    rcases h with rfl | rfl
    · exact q1
    · exact q2
  · intro l h
    simp only [List.mem_cons, List.not_mem_nil, or_false] at h
    rcases h with rfl | rfl | rfl
    · exact q1
    · exact q2
    · exact q3

example : OneLine "asyncapi".toList ∧ BuildOk (some ⟨"github.com/lerenn/asyncapi-codegen".toList, []⟩) := by
  refine ⟨by unfold OneLine; decide, fun x h => ?_⟩
  cases h
  exact ⟨by unfold OneLine; decide, by unfold OneLine; decide⟩

/-- Where the build information says nothing, the texts for unknown ones are there. -/
theorem C130_build (b : Option Build) :
    ((∃ x, b = some x ∧ x.path ≠ [] ∧ (modulePathVersion b).1 = x.path) ∨
      ((∀ x, b = some x → x.path = []) ∧ (modulePathVersion b).1 = "unknown module path".toList)) ∧
    ((∃ x, b = some x ∧ x.version ≠ [] ∧ (modulePathVersion b).2 = x.version) ∨
      ((∀ x, b = some x → x.version = []) ∧ (modulePathVersion b).2 = "unknown version".toList)) := by
  cases b with
  | none => exact ⟨.inr ⟨nofun, rfl⟩, .inr ⟨nofun, rfl⟩⟩
  | some b =>
    constructor
    · by_cases h : b.path = []
      · exact .inr ⟨fun x e => by cases e; exact h, if_neg (not_not_intro h)⟩
      · exact .inl ⟨b, rfl, h, if_pos h⟩
    · by_cases h : b.version = []
      · exact .inr ⟨fun x e => by cases e; exact h, if_neg (not_not_intro h)⟩
      · exact .inl ⟨b, rfl, h, if_pos h⟩

example : modulePathVersion (some ⟨"m".toList, []⟩) = ("m".toList, "unknown version".toList) := by decide

/-- With formatting, what is written is what the formatter made of the text: whatever holds of all results of the formatter
holds of the file, and nothing is written when it refuses. -/
theorem C130_formatted (format : Str → Option Str) (ok : Str → Prop) (hf : ∀ s t, format s = some t → ok t) (text : Str) :
    (∀ out, written false format text = some out → ok out ∧ format text = some out) ∧
      (format text = none → written false format text = none) :=
  ⟨fun out h => ⟨hf text out h, h⟩, fun h => h⟩

/-- A formatter that takes texts without tabs. -/
example : written false (fun s => if '\t' ∈ s then none else some s) "a\tb".toList = none ∧
    written false (fun s => if '\t' ∈ s then none else some s) "ab".toList = some "ab".toList := by decide

/-- **Violated** by every package name of several lines, which the option takes: the file is not of that package. -/
theorem C130_violated_lines (pkg : Str) (h : ¬ OneLine pkg) (b : Option Build) (rest : Str) :
    ¬ OfPackage (content pkg b rest) pkg := by
  rintro ⟨pre, post, he, _⟩
  refine split_lines '\n' (content pkg b rest) ("package ".toList ++ pkg) ?_ (List.mem_append.2 (.inr (Classical.not_not.1 h)))
  rw [he]
  exact List.mem_append.2 (.inr (.head _))

/-- **Violated** without formatting: names that are no Go identifiers are written all the same. -/
theorem C130_violated_unchecked (format : Str → Option Str) (pkg : Str) (hp : OneLine pkg) (b : Option Build) (hb : BuildOk b)
    (rest : Str) : ∃ t, written true format (content pkg b rest) = some t ∧ OfPackage t pkg :=
  ⟨_, rfl, (C130_head_partial pkg b rest hp hb).2⟩

/-- A name with a hyphen, or with a space. -/
example : ∃ t, written true (fun _ => none) (content "my-api v2".toList none []) = some t ∧ OfPackage t "my-api v2".toList :=
  C130_violated_unchecked _ _ (by unfold OneLine; decide) none (fun _ h => by cases h) []

end Verif.FileHead
