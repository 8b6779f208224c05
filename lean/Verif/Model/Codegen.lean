import Verif.Base.Str

/-!
# A generation

Models `CodeGen.Generate` of pkg/codegen/codegen.go:84-130, the option setters of
pkg/utils/template/helpers.go:16-29,87-108,147-155 and the `ForcePointerOnFields` functions of
pkg/codegen/generators/v2/templates/helpers.go:144-155 and pkg/codegen/generators/v3/templates/helpers.go:130-141.
The settings are package variables: they are a state shared by all generations of a process. Processing,
the templates, formatting and the file system are parameters.
-/

namespace Verif.Codegen

/-- The functions of `convertKeyFuncs`. (pkg/utils/template/helpers.go:16-21) -/
inductive KeyFn
  | snake | kebab | camel | none
  deriving DecidableEq, Repr

/-- The functions of `namifyPerScheme`. (pkg/utils/template/helpers.go:23-26) -/
inductive NameFn
  | camel | none
  deriving DecidableEq, Repr

/-- `convertKeyFuncs[name]` (pkg/utils/template/helpers.go:16-21) -/
def keyFn (name : Str) : Option KeyFn :=
  if name = ['s', 'n', 'a', 'k', 'e'] then some .snake
  else if name = ['k', 'e', 'b', 'a', 'b'] then some .kebab
  else if name = ['c', 'a', 'm', 'e', 'l'] then some .camel
  else if name = ['n', 'o', 'n', 'e'] then some .none
  else Option.none

/-- `namifyPerScheme[name]` (pkg/utils/template/helpers.go:23-26) -/
def nameFn (name : Str) : Option NameFn :=
  if name = ['c', 'a', 'm', 'e', 'l'] then some .camel
  else if name = ['n', 'o', 'n', 'e'] then some .none
  else Option.none

/-- The package variables. `dates = false` is the function installed by `DisableDateOrTimeGeneration`,
`pointers = true` the function installed by `ForcePointerOnFields` (in v2 and v3 together, as `Generate` always
installs both). -/
structure Globals where
  key : KeyFn
  name : NameFn
  dates : Bool
  pointers : Bool
  deriving DecidableEq, Repr

/-- The variables when the process starts. (pkg/utils/template/helpers.go:28-29,147-149) -/
def Globals.init : Globals := ⟨.none, .none, true, false⟩

/-- `isDateOrDateTimeGenerated` (pkg/utils/template/helpers.go:147-155) -/
def Globals.dateGenerated (g : Globals) (format : Str) : Bool :=
  g.dates && (format = ['d', 'a', 't', 'e'] || format = ['d', 'a', 't', 'e', '-', 't', 'i', 'm', 'e'])

/-- `isFieldPointer` (pkg/codegen/generators/v3/templates/helpers.go:130-139) -/
def Globals.fieldPointer (g : Globals) (required isArray : Bool) : Bool :=
  if g.pointers then !isArray else !required && !isArray

/-- The options that matter here. (pkg/codegen/options/options.go:14-41) -/
structure Opts where
  outputPath : Str
  packageName : Str
  parts : Nat                      -- the enabled parts, see `Verif.Cli`
  disableFormatting : Bool
  convertKeys : Str
  namingScheme : Str
  ignoreStringFormat : Bool
  forcePointers : Bool
  deriving DecidableEq, Repr

/-- What the model takes as given. `process` changes the specification in place, also when it fails. `write`
is the outcome of `os.WriteFile`: `none` on success, otherwise what the file holds afterwards. -/
structure Env (Spec Text : Type) where
  process : Globals → Spec → Spec × Bool
  content : Globals → Spec → Opts → Option Text
  format : Text → Option Text
  write : Str → Text → Option (Option Text)

/-- The process and the disk: package variables, specifications by identity (a `CodeGen` holds a pointer to
its specification), files. -/
structure World (Spec Text : Type) where
  globals : Globals
  specs : Nat → Spec
  files : Str → Option Text

inductive Err
  | convertKeys | namingScheme | process | content | format | write
  deriving DecidableEq, Repr

variable {Spec Text : Type}

/-- Changing what one identity or path maps to. -/
def upd {α β : Type} [DecidableEq α] (f : α → β) (a : α) (b : β) : α → β := fun x => if x = a then b else f x

/-- `os.WriteFile(opt.OutputPath, fileContent, 0644)` (pkg/codegen/codegen.go:129) -/
def writeFile (env : Env Spec Text) (w : World Spec Text) (path : Str) (t : Text) : World Spec Text × Option Err :=
  match env.write path t with
  | none => ({ w with files := upd w.files path (some t) }, none)
  | some left => ({ w with files := upd w.files path left }, some .write)

/-- Setting the options: `SetConvertKeyFn`, `SetNamifyFn`, `DisableDateOrTimeGeneration` and
`ForcePointerOnFields` as called by `Generate`. (pkg/codegen/codegen.go:85-100) -/
def setOptions (g : Globals) (opt : Opts) : Globals × Option Err :=
  match keyFn opt.convertKeys with
  | none => (g, some .convertKeys)
  | some k =>
    let g := { g with key := k }
    match nameFn opt.namingScheme with
    | none => (g, some .namingScheme)
    | some n =>
      let g := { g with name := n }
      let g := if opt.ignoreStringFormat then { g with dates := false } else g
      let g := if opt.forcePointers then { g with pointers := true } else g
      (g, none)

/-- What is written: formatted unless disabled. (pkg/codegen/codegen.go:112-127) -/
def finish (env : Env Spec Text) (opt : Opts) (t : Text) : Option Text :=
  if opt.disableFormatting then some t else env.format t

/-- `CodeGen.Generate` (pkg/codegen/codegen.go:84-130), on the specification `id`. -/
def generate (env : Env Spec Text) (w : World Spec Text) (id : Nat) (opt : Opts) : World Spec Text × Option Err :=
  match setOptions w.globals opt with
  | (g, some e) => ({ w with globals := g }, some e)
  | (g, none) =>
    let w := { w with globals := g }
    match env.process g (w.specs id) with
    | (s, false) => ({ w with specs := upd w.specs id s }, some .process)
    | (s, true) =>
      let w := { w with specs := upd w.specs id s }
      match env.content g s opt with
      | none => (w, some .content)
      | some t =>
        match finish env opt t with
        | none => (w, some .format)
        | some f => writeFile env w opt.outputPath f

/-- Earlier generations. -/
def runAll (env : Env Spec Text) (w : World Spec Text) : List (Nat × Opts) → World Spec Text
  | [] => w
  | (id, opt) :: h => runAll env (generate env w id opt).1 h

end Verif.Codegen
