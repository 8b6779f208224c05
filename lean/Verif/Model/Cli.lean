import Verif.Base.Str

/-!
# Command line options and the parts that are generated

Models `ToCodegenOptions` of cmd/asyncapi-codegen/config.go:73-101 (the `generate` option) and
`Generator.Generate` of pkg/codegen/generators/v3/generator.go:22-50 (identical in v2).
-/

namespace Verif.Cli

def application : Str := ['a', 'p', 'p', 'l', 'i', 'c', 'a', 't', 'i', 'o', 'n']
def user : Str := ['u', 's', 'e', 'r']
def types : Str := ['t', 'y', 'p', 'e', 's']

/-- `GeneratorOptions` (pkg/codegen/options/options.go:4-11) -/
structure Opts where
  application : Bool := false
  user : Bool := false
  types : Bool := false
  deriving DecidableEq, Repr

/-- The loop over the names (cmd/asyncapi-codegen/config.go:86-97); the error carries the refused name. -/
def setAll (o : Opts) : List Str → Except Str Opts
  | [] => .ok o
  | v :: vs =>
    if v = application then setAll { o with application := true } vs
    else if v = user then setAll { o with user := true } vs
    else if v = types then setAll { o with types := true } vs
    else .error v

/-- `ToCodegenOptions`, its `generate` part. (cmd/asyncapi-codegen/config.go:84-98) -/
def toOptions (generate : Str) : Except Str Opts :=
  if generate ≠ [] then setAll {} (Str.split ',' generate) else .ok {}

/-- The parts of a generated file. -/
inductive Part
  | app
  | user
  | types
  deriving DecidableEq, Repr

/-- The loop of `Generator.Generate` (pkg/codegen/generators/v3/generator.go:28-47): `gen` is the text of a
part or its error. `fuel` bounds the iterations, four are enough (`C56_parts`). -/
def loop {ε : Type} (gen : Part → Except ε Str) : Nat → Opts → Str → Except ε Str
  | 0, _, content => .ok content
  | fuel + 1, o, content =>
    if o.application then
      match gen .app with
      | .error e => .error e
      | .ok part => loop gen fuel { o with application := false } (content ++ part)
    else if o.user then
      match gen .user with
      | .error e => .error e
      | .ok part => loop gen fuel { o with user := false } (content ++ part)
    else if o.types then
      match gen .types with
      | .error e => .error e
      | .ok part => loop gen fuel { o with types := false } (content ++ part)
    else .ok content

/-- `Generator.Generate` (pkg/codegen/generators/v3/generator.go:22-50) -/
def generate {ε : Type} (imports : Except ε Str) (gen : Part → Except ε Str) (o : Opts) : Except ε Str :=
  match imports with
  | .error e => .error e
  | .ok c => loop gen 4 o c

end Verif.Cli
