import Verif.Model.CmdLine
import Verif.Model.Parse
import Verif.Model.Cli
import Verif.Model.Codegen

/-!
# The command

Models cmd/asyncapi-codegen/main.go:12-50: reading the command line, the documents and the options, and the
generation, in one process. Composes `Verif.CmdLine`, `Verif.Parse`, `Verif.Cli` and `Verif.Codegen`. Panics
inside of the processing and of the templates are not modelled.
-/

namespace Verif.Command

/-- How the process ends: status 0, status 1 with a message on the standard error, or a panic (status 2). -/
inductive Exit
  | ok | error | panic
  deriving DecidableEq, Repr

/-- A loaded specification: the main document and its dependencies, by path. -/
abbrev Loaded := Parse.Spec × List (Str × Parse.Spec)

/-- What the model takes as given: CSV values with quotation marks, the JSON value of a text (as YAML or JSON
according to the extension of its path; `none` if it has none), whether a JSON value decodes, and the generation. -/
structure Sys (Text : Type) where
  csv : Str → Option (List Str)
  json : Str → Text → Option Json
  decodes : Parse.Impl → Json → Bool
  env : Codegen.Env Loaded Text

variable {Text : Type}

/-- What the parser finds at a path. (pkg/asyncapi/parser/parse.go:43-63) -/
def fileAt (sys : Sys Text) (files : Str → Option Text) (path : Str) : Parse.File :=
  match files path with
  | none => .unreadable
  | some t =>
    match sys.json path t with
    | none => .garbage
    | some j => .doc j

/-- The enabled parts as one number. -/
def parts (o : Cli.Opts) : Nat :=
  (if o.application then 1 else 0) + (if o.user then 2 else 0) + (if o.types then 4 else 0)

/-- `ToCodegenOptions` without its `generate` part. (cmd/asyncapi-codegen/config.go:73-82) -/
def toOpts (f : CmdLine.Flags) (o : Cli.Opts) : Codegen.Opts :=
  { outputPath := f.output, packageName := f.package, parts := parts o, disableFormatting := f.noFormat,
    convertKeys := f.convertKeys, namingScheme := f.naming, ignoreStringFormat := f.ignoreFormat,
    forcePointers := f.forcePointers }

/-- `cg.Generate(opt)` in a fresh process, and the exit status. (cmd/asyncapi-codegen/main.go:33-37,46-49) -/
def generate (sys : Sys Text) (files : Str → Option Text) (spec : Loaded) (opt : Codegen.Opts) :
    (Str → Option Text) × Exit :=
  match Codegen.generate sys.env ⟨Codegen.Globals.init, fun _ => spec, files⟩ 0 opt with
  | (w, none) => (w.files, .ok)
  | (w, some _) => (w.files, .error)

/-- `RunE` (cmd/asyncapi-codegen/main.go:22-40): `flags.InputPaths[0]` panics when there is no path. A nil
specification would panic too. -/
def runE (sys : Sys Text) (files : Str → Option Text) (f : CmdLine.Flags) : (Str → Option Text) × Exit :=
  match f.inputs with
  | [] => (files, .panic)
  | path :: deps =>
    match Parse.load sys.decodes (fileAt sys files) path deps with
    | .error _ => (files, .error)
    | .ok none => (files, .panic)
    | .ok (some spec) =>
      match Cli.toOptions f.generate with
      | .error _ => (files, .error)
      | .ok o => generate sys files spec (toOpts f o)

/-- `main` (cmd/asyncapi-codegen/main.go:43-50) with `cmd.Execute` of cobra: `--help` prints the help and ends
with status 0. The first argument is not one of the hidden completion commands of cobra. -/
def main (sys : Sys Text) (files : Str → Option Text) (argv : List Str) : (Str → Option Text) × Exit :=
  match CmdLine.parse sys.csv argv with
  | none => (files, .error)
  | some f => if f.help then (files, .ok) else runE sys files f

end Verif.Command
