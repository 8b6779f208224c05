import Verif.Model.Naming

/-!
# Naming schemes and key conversions

Models the options `--naming-scheme` and `--convert-keys` (pkg/utils/template/helpers.go:14-29, 74-108). They
use `ToCamel`, `ToSnake` and `ToKebab` of github.com/iancoleman/strcase v0.3.0 (go.mod:14), whose source is not in
the repository: it is modelled from its published code (camel.go, snake.go), byte by byte. Simplified: of the
spaces that `strings.TrimSpace` removes, only the ASCII ones are modelled; no acronyms are configured, as in the
repository.
-/

namespace Verif.Strcase

open Naming

/-- ASCII white space. -/
def isSpace (b : Nat) : Bool := b == 32 || inRange 9 13 b

/-- `strings.TrimSpace`. -/
def trim (s : Bytes) : Bytes := ((s.dropWhile isSpace).reverse.dropWhile isSpace).reverse

/-- ASCII lower-casing (`v += 'a'; v -= 'A'`). -/
def down (b : Nat) : Nat := if isUpper b then b + 32 else b

/-- The separators `_`, space, `-` and `.`. -/
def isSep (b : Nat) : Bool := b == 95 || b == 32 || b == 45 || b == 46

/-- The loop of `toCamelInitCase` (strcase camel.go), from its state: whether the next letter is to be
capitalised, and whether the previous byte was a capital. Its branch for `i == 0` is never reached from `ToCamel`. -/
def camelLoop : Bool → Bool → Bytes → Bytes
  | _, _, [] => []
  | capNext, prevIsCap, v :: s =>
    let w := if capNext then up v else if prevIsCap && isUpper v then down v else v
    if isUpper v || isLower v then w :: camelLoop false (isUpper v) s
    else if isDigit v then w :: camelLoop true false s
    else camelLoop (isSep v) false s

/-- `strcase.ToCamel`: also the name given to a text with `--naming-scheme camel` (helpers.go:24, 82-84). -/
def toCamel (s : Bytes) : Bytes := camelLoop true false (trim s)

/-- Whether a delimiter is due between two bytes: the kind of character changes. -/
def changes (v next : Nat) : Bool :=
  (isUpper v && (isLower next || isDigit next)) || (isLower v && (isUpper next || isDigit next)) ||
  (isDigit v && (isUpper next || isLower next))

/-- Whether a byte is a capital. -/
def capital : Option Nat → Bool
  | none => false
  | some b => isUpper b

/-- The loop of `ToScreamingDelimited` (strcase snake.go) without screaming and ignored characters: `prev` is
the byte before, `d` the delimiter. -/
def delimLoop (d : Nat) : Option Nat → Bytes → Bytes
  | _, [] => []
  | _, [v] => [if isSep v then d else down v]
  | prev, v :: next :: s =>
    if changes v next then
      (if isUpper v && isLower next && capital prev then [d] else []) ++ down v ::
        ((if isLower v || isDigit v || isDigit next then [d] else []) ++ delimLoop d (some v) (next :: s))
    else (if isSep v then d else down v) :: delimLoop d (some v) (next :: s)

/-- `strcase.ToSnake`. -/
def toSnake (s : Bytes) : Bytes := delimLoop 95 none (trim s)

/-- `strcase.ToKebab`. -/
def toKebab (s : Bytes) : Bytes := delimLoop 45 none (trim s)

/-- The key conversions (helpers.go:16-21). -/
inductive Conversion
  | snake
  | kebab
  | camel
  | none
  deriving DecidableEq, Repr

/-- `ConvertKey` (helpers.go:76-78): the JSON name of a property, in struct tags
(pkg/codegen/generators/helpers.go:20-30) and among the declared names
(marshaling/additional_properties.tmpl, v3 line 60, v2 line 48). -/
def convertKey : Conversion → Bytes → Bytes
  | .snake, s => toSnake s
  | .kebab, s => toKebab s
  | .camel, s => toCamel s
  | .none, s => s

/-- `SetConvertKeyFn` (helpers.go:87-96): `none` is an error. -/
def conversion (name : String) : Option Conversion :=
  if name = "snake" then some .snake
  else if name = "kebab" then some .kebab
  else if name = "camel" then some .camel
  else if name = "none" then some .none
  else Option.none

/-- The name of a component message in v2 with `--naming-scheme camel` (pkg/asyncapi/v2/components.go:27,
message.go:59-60), as the functions of controllers write it (v2/templates/controller.tmpl:142, 192, 215, 281,
332: `(channelToMessage …).Name`). -/
def messageUsed (key : Bytes) : Bytes := toCamel (key ++ [77, 101, 115, 115, 97, 103, 101])

/-- The name under which its type is declared (v2/templates/message.tmpl:19: `namify .Name`). -/
def messageDeclared (key : Bytes) : Bytes := toCamel (messageUsed key)

end Verif.Strcase
