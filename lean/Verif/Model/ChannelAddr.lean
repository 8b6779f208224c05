import Verif.Model.AddProps
import Verif.Model.Naming
import Verif.Base.GoLit

/-!
# Channel addresses and comments in the generated code

Models `GenerateChannelAddr` (pkg/codegen/generators/v3/templates/helpers.go:108-128), `GenerateChannelPath`
(pkg/codegen/generators/v2/templates/helpers.go:108-125), `MultiLineComment`
(pkg/utils/template/helpers.go:130-133), and the part of Go needed to evaluate the generated expressions.
-/

namespace Verif.ChannelAddr

open Verif.AddProps (goQuote)
open Verif.Naming (Bytes Uni encodeRune namify)

/-- What the expression `{[^{}]*}` finds in an address. -/
inductive Tok
  | lit (c : Char)
  | par (name : Str)
  deriving DecidableEq, Repr

/-- Scanning for `{[^{}]*}` (leftmost matches). `some acc`: an opening brace and `acc` were read. -/
def tokens : Option Str → Str → List Tok
  | none, [] => []
  | some acc, [] => .lit '{' :: acc.map .lit
  | none, c :: s => if c = '{' then tokens (some []) s else .lit c :: tokens none s
  | some acc, c :: s =>
    if c = '}' then .par acc :: tokens none s
    else if c = '{' then (.lit '{' :: acc.map .lit) ++ tokens (some []) s
    else tokens (some (acc ++ [c])) s

/-- The UTF-8 bytes of a text. -/
def utf8 (s : Str) : Bytes := s.flatMap (fun c => encodeRune c.toNat)

/-- `Namify`, as text; `none` is a panic. -/
def nameOf (u : Uni) (s : Str) : Option Str := (namify u (utf8 s)).map (fun bs => bs.map Char.ofNat)

/-- What a token becomes in the format (`ReplaceAllString`). -/
def formatOf (verb : Char) : Tok → Str
  | .lit c => [c]
  | .par _ => ['%', verb]

/-- The parameters found (`FindAllString`), with their braces. -/
def parOf : Tok → Option Str
  | .lit _ => none
  | .par s => some ('{' :: (s ++ ['}']))

/-- `fmt.Sprintf(` -/
def kwCall : Str := ['f', 'm', 't', '.', 'S', 'p', 'r', 'i', 'n', 't', 'f', '(']

/-- `params.` -/
def kwParams : Str := ['p', 'a', 'r', 'a', 'm', 's', '.']

/-- `GenerateChannelAddr` (v3, `verb` is `s`) and `GenerateChannelPath` (v2, `verb` is `v`): the Go expression
generated for an address. `hasParams` says whether the channel declares parameters. -/
def genText (u : Uni) (isPrint : Char → Bool) (verb : Char) (hasParams : Bool) (addr : Str) : Option Str :=
  if hasParams then
    let toks := tokens none addr
    match (toks.filterMap parOf).mapM (nameOf u) with
    | none => none
    | some names =>
      let sprint := kwCall ++ goQuote isPrint (toks.flatMap (formatOf verb)) ++ [',', ' '] ++
        names.flatMap (fun n => kwParams ++ n ++ [','])
      some (sprint.dropLast ++ [')'])
  else some (goQuote isPrint addr)

/-- Go's `fmt.Sprintf` with string arguments, for the verbs `%s`, `%v`, `%%` and verbs that do not apply to
strings (which print an error and consume an argument). `none`: not modelled (flags, widths, other verbs,
unused arguments). -/
def sprintf : Str → List Str → Option Str
  | [], [] => some []
  | [], _ :: _ => none
  | c :: s, args =>
    if c = '%' then
      match s with
      | [] => none
      | v :: s' =>
        if v = '%' then (sprintf s' args).map ('%' :: ·)
        else if v = 's' ∨ v = 'v' then
          match args with
          | [] => (sprintf s' []).map ("%!".toList ++ v :: "(MISSING)".toList ++ ·)
          | a :: args => (sprintf s' args).map (a ++ ·)
        else if v ∈ ['b', 'c', 'd', 'e', 'f', 'g', 'o', 't'] then
          match args with
          | [] => (sprintf s' []).map ("%!".toList ++ v :: "(MISSING)".toList ++ ·)
          | a :: args => (sprintf s' args).map ("%!".toList ++ v :: "(string=".toList ++ a ++ [')'] ++ ·)
        else none
    else (sprintf s args).map (c :: ·)

/-- The text after a prefix. -/
def stripPrefix : Str → Str → Option Str
  | [], s => some s
  | _ :: _, [] => none
  | p :: ps, c :: s => if p = c then stripPrefix ps s else none

/-- A selector `params.X`, for an identifier `X` of ASCII letters and digits. -/
def selector (field : Str → Option Str) (s : Str) : Option Str :=
  match stripPrefix kwParams s with
  | none => none
  | some n => if n = [] then none else field n

/-- Arguments separated by commas. -/
def argsOf (field : Str → Option Str) (s : Str) : Option (List Str) :=
  if s = [] then some [] else (Str.split ',' s).mapM (selector field)

/-- How Go evaluates a generated call to `fmt.Sprintf` on fields of `params` (`field` gives their values;
`none` if there is no such field). -/
def evalCall (field : Str → Option Str) (s : Str) : Option Str :=
  match stripPrefix (kwCall ++ ['"']) s with
  | none => none
  | some r =>
    match GoLit.readStr r with
    | some (f, ',' :: rest) =>
      if rest.getLast? = some ')' then
        match argsOf field ((rest.dropLast).dropWhile (· == ' ')) with
        | none => none
        | some args => sprintf f args
      else none
    | _ => none

/-- How Go evaluates the generated expression: a string literal, or a call. -/
def evalText (field : Str → Option Str) : Str → Option Str
  | [] => none
  | c :: s =>
    if c = '"' then
      match GoLit.readStr s with
      | some (v, []) => some v
      | _ => none
    else evalCall field (c :: s)

/-- The fields of the generated `Parameters` struct (v3/templates/types.tmpl:61-68): named after the declared
parameters. `none` if two have the same name, which Go refuses. -/
def fields (u : Uni) (keys : List Str) (val : Str → Str) (n : Str) : Option Str :=
  match keys.filter (fun k => nameOf u k == some n) with
  | [k] => some (val k)
  | _ => none

/-- `strings.TrimSuffix(s, "\n")` -/
def trimNewline (s : Str) : Str := if s.getLast? = some '\n' then s.dropLast else s

/-- `MultiLineComment` (pkg/utils/template/helpers.go:130-133). -/
def multiLineComment (s : Str) : Str :=
  (trimNewline s).flatMap (fun c => if c = '\n' then ['\n', '/', '/', ' '] else [c])

end Verif.ChannelAddr
