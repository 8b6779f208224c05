import Verif.Base.Str

/-!
# The command line

Models `SetToCommand` of cmd/asyncapi-codegen/config.go:54-71, the package variable `flags` and the flags of
cobra, with the parser of github.com/spf13/pflag v1.0.5 (`parseArgs`, `parseLongArg`, `parseShortArg`, the values
of kinds `StringSlice`, `String` and `Bool`) from its published code. cobra v1.8.0 adds the flag `help`.

The parser takes the value of a flag from the next argument when it has none of its own; here the flag is
remembered and set by the next argument (`pending`), which is the same.
-/

namespace Verif.CmdLine

/-- The flags (cmd/asyncapi-codegen/config.go:55-70), and `help` of cobra. -/
inductive Flag
  | input | output | package | generate | noFormat | convertKeys | naming | ignoreFormat | forcePointers | help
  deriving DecidableEq, Repr

def nInput : Str := "input".toList
def nOutput : Str := "output".toList
def nPackage : Str := "package".toList
def nGenerate : Str := "generate".toList
def nNoFormat : Str := "disable-formatting".toList
def nConvertKeys : Str := "convert-keys".toList
def nNaming : Str := "naming-scheme".toList
def nIgnoreFormat : Str := "ignore-string-format".toList
def nForcePointers : Str := "force-pointers".toList
def nHelp : Str := "help".toList

/-- `f.formal[name]` (cmd/asyncapi-codegen/config.go:55-70) -/
def byName (n : Str) : Option Flag :=
  if n = nInput then some .input
  else if n = nOutput then some .output
  else if n = nPackage then some .package
  else if n = nGenerate then some .generate
  else if n = nNoFormat then some .noFormat
  else if n = nConvertKeys then some .convertKeys
  else if n = nNaming then some .naming
  else if n = nIgnoreFormat then some .ignoreFormat
  else if n = nForcePointers then some .forcePointers
  else if n = nHelp then some .help
  else none

/-- `f.shorthands[c]` (cmd/asyncapi-codegen/config.go:55-70): the last two flags have no shorthand. -/
def byShort (c : Char) : Option Flag :=
  if c = 'i' then some .input
  else if c = 'o' then some .output
  else if c = 'p' then some .package
  else if c = 'g' then some .generate
  else if c = 'f' then some .noFormat
  else if c = 'c' then some .convertKeys
  else if c = 'n' then some .naming
  else if c = 'h' then some .help
  else none

/-- `flag.NoOptDefVal != ""`: flags of kind `Bool`, which are `true` without a value. -/
def Flag.isBool : Flag → Bool
  | .noFormat | .ignoreFormat | .forcePointers | .help => true
  | _ => false

/-! The defaults (cmd/asyncapi-codegen/config.go:55-67). -/

def dInputs : Str := "asyncapi.yaml".toList
def dOutput : Str := "asyncapi.gen.go".toList
def dPackage : Str := "asyncapi".toList
def dGenerate : Str := "user,application,types".toList
def dConvertKeys : Str := "none".toList
def dNaming : Str := "none".toList

/-- `Flags` (cmd/asyncapi-codegen/config.go:18-51; `Broker` is not used), whether `input` was given, and the flag
`help`. -/
structure Flags where
  inputs : List Str := [dInputs]
  changed : Bool := false
  output : Str := dOutput
  package : Str := dPackage
  generate : Str := dGenerate
  noFormat : Bool := false
  convertKeys : Str := dConvertKeys
  naming : Str := dNaming
  ignoreFormat : Bool := false
  forcePointers : Bool := false
  help : Bool := false
  deriving DecidableEq, Repr

/-- `strconv.ParseBool` (Go standard library). -/
def parseBool (s : Str) : Option Bool :=
  if s ∈ [['1'], ['t'], ['T'], ['T', 'R', 'U', 'E'], ['t', 'r', 'u', 'e'], ['T', 'r', 'u', 'e']] then some true
  else if s ∈ [['0'], ['f'], ['F'], ['F', 'A', 'L', 'S', 'E'], ['f', 'a', 'l', 's', 'e'], ['F', 'a', 'l', 's', 'e']] then
    some false
  else none

/-- A value without quotation marks and line breaks. -/
def simple (s : Str) : Bool := s.all (fun c => c ≠ '"' && c ≠ '\n' && c ≠ '\r')

/-- `readAsCSV` of pflag. `encoding/csv` splits simple values at commas; what it does with others is the
parameter `csv` (`none` is its error). -/
def readAsCSV (csv : Str → Option (List Str)) (s : Str) : Option (List Str) :=
  if s = [] then some []
  else if simple s then some (Str.split ',' s)
  else csv s

/-- `fn(flag, value)`: `Set` of the values of pflag. `none` is an invalid value. The first value of `input`
replaces the default, later ones are appended. -/
def set (csv : Str → Option (List Str)) (f : Flags) : Flag → Str → Option Flags
  | .input, v =>
    match readAsCSV csv v with
    | none => none
    | some l => some { f with inputs := if f.changed then f.inputs ++ l else l, changed := true }
  | .output, v => some { f with output := v }
  | .package, v => some { f with package := v }
  | .generate, v => some { f with generate := v }
  | .convertKeys, v => some { f with convertKeys := v }
  | .naming, v => some { f with naming := v }
  | .noFormat, v => (parseBool v).map (fun b => { f with noFormat := b })
  | .ignoreFormat, v => (parseBool v).map (fun b => { f with ignoreFormat := b })
  | .forcePointers, v => (parseBool v).map (fun b => { f with forcePointers := b })
  | .help, v => (parseBool v).map (fun b => { f with help := b })

/-- The parser between two arguments: the flags so far, a flag that takes the next argument as its value, and
whether `--` was seen. Arguments that are no flags are not kept: `RunE` does not look at them
(cmd/asyncapi-codegen/main.go:22), and cobra accepts any for a command without subcommands. -/
structure St where
  flags : Flags
  pending : Option Flag := none
  rest : Bool := false
  deriving DecidableEq, Repr

def kwTrue : Str := "true".toList
def kwTest : Str := "test.".toList

/-- `strings.SplitN(name, "=", 2)`: the name, and the value if there is one. -/
def cutEq : Str → Str × Option Str
  | [] => ([], none)
  | c :: s => if c = '=' then ([], some s) else (c :: (cutEq s).1, (cutEq s).2)

/-- `parseLongArg` of pflag, on the argument without `--`. -/
def long (csv : Str → Option (List Str)) (f : Flags) (name : Str) : Option St :=
  if name.head? = some '-' ∨ name.head? = some '=' then none
  else
    match byName (cutEq name).1, (cutEq name).2 with
    | none, _ => none
    | some n, some v => (set csv f n v).map (fun f => { flags := f })
    | some n, none =>
      if n.isBool then (set csv f n kwTrue).map (fun f => { flags := f }) else some { flags := f, pending := some n }

/-- `parseShortArg` of pflag, on the argument without `-`: one or more shorthands. -/
def shorts (csv : Str → Option (List Str)) (f : Flags) : Str → Option St
  | [] => some { flags := f }
  | c :: s =>
    if kwTest.isPrefixOf (c :: s) then some { flags := f }
    else
      match byShort c with
      | none => none
      | some n =>
        if s.head? = some '=' ∧ 1 < s.length then (set csv f n s.tail).map (fun f => { flags := f })
        else if n.isBool then
          match set csv f n kwTrue with
          | none => none
          | some f => shorts csv f s
        else if s ≠ [] then (set csv f n s).map (fun f => { flags := f })
        else some { flags := f, pending := some n }

/-- One argument: the body of the loop of `parseArgs` of pflag. -/
def arg (csv : Str → Option (List Str)) (st : St) (a : Str) : Option St :=
  if st.rest then some st
  else
    match st.pending with
    | some n => (set csv st.flags n a).map (fun f => { flags := f })
    | none =>
      match a with
      | '-' :: '-' :: [] => some { st with rest := true }
      | '-' :: '-' :: name => long csv st.flags name
      | '-' :: c :: s => shorts csv st.flags (c :: s)
      | _ => some st

/-- The loop of `parseArgs`. -/
def args (csv : Str → Option (List Str)) (st : St) : List Str → Option St
  | [] => some st
  | a :: l =>
    match arg csv st a with
    | none => none
    | some st => args csv st l

/-- The flags of a command line; `none` is an error: a flag that does not exist, a value that is not valid, or
a flag without value at the end. -/
def parse (csv : Str → Option (List Str)) (l : List Str) : Option Flags :=
  match args csv { flags := {} } l with
  | none => none
  | some st => if st.pending.isSome then none else some st.flags

end Verif.CmdLine
