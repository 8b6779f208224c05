import Verif.Base.Str

/-!
# Generated names

Models pkg/utils/template/helpers.go. Go strings are lists of bytes here, because the code mixes byte
indices and runes.
-/

namespace Verif.Naming

/-- A Go string as its bytes. -/
abbrev Bytes := List Nat

/-- A continuation byte between `lo` and `hi`. -/
def inRange (lo hi b : Nat) : Bool := decide (lo ≤ b) && decide (b ≤ hi)

/-- `utf8.DecodeRuneInString`: the rune and its width; invalid bytes give U+FFFD and width 1. -/
def decodeRune : Bytes → Nat × Nat
  | [] => (0xFFFD, 0)
  | b0 :: rest =>
    if b0 < 0x80 then (b0, 1)
    else if inRange 0xC2 0xDF b0 then
      match rest with
      | b1 :: _ => if inRange 0x80 0xBF b1 then ((b0 - 0xC0) * 64 + (b1 - 0x80), 2) else (0xFFFD, 1)
      | [] => (0xFFFD, 1)
    else if inRange 0xE0 0xEF b0 then
      match rest with
      | b1 :: b2 :: _ =>
        if inRange (if b0 = 0xE0 then 0xA0 else 0x80) (if b0 = 0xED then 0x9F else 0xBF) b1 && inRange 0x80 0xBF b2
        then ((b0 - 0xE0) * 4096 + (b1 - 0x80) * 64 + (b2 - 0x80), 3) else (0xFFFD, 1)
      | _ => (0xFFFD, 1)
    else if inRange 0xF0 0xF4 b0 then
      match rest with
      | b1 :: b2 :: b3 :: _ =>
        if inRange (if b0 = 0xF0 then 0x90 else 0x80) (if b0 = 0xF4 then 0x8F else 0xBF) b1 &&
            inRange 0x80 0xBF b2 && inRange 0x80 0xBF b3
        then ((b0 - 0xF0) * 262144 + (b1 - 0x80) * 4096 + (b2 - 0x80) * 64 + (b3 - 0x80), 4) else (0xFFFD, 1)
      | _ => (0xFFFD, 1)
    else (0xFFFD, 1)

/-- `string(r)`: the UTF-8 encoding of a rune. -/
def encodeRune (r : Nat) : Bytes :=
  if r < 0x80 then [r]
  else if r < 0x800 then [0xC0 + r / 64, 0x80 + r % 64]
  else if r < 0x10000 then [0xE0 + r / 4096, 0x80 + r / 64 % 64, 0x80 + r % 64]
  else [0xF0 + r / 262144, 0x80 + r / 4096 % 64, 0x80 + r / 64 % 64, 0x80 + r % 64]

/-- `for i, r := range s`: byte indices and runes; `skip` bytes belong to the rune before. -/
def runes : Nat → Nat → Bytes → List (Nat × Nat)
  | _, _, [] => []
  | skip + 1, i, _ :: s => runes skip (i + 1) s
  | 0, i, b :: s => (i, (decodeRune (b :: s)).1) :: runes ((decodeRune (b :: s)).2 - 1) (i + 1) s

/-- ASCII classes. -/
def isLower (b : Nat) : Bool := inRange 97 122 b
def isUpper (b : Nat) : Bool := inRange 65 90 b
def isDigit (b : Nat) : Bool := inRange 48 57 b
def isAlnum (b : Nat) : Bool := isLower b || isUpper b || isDigit b
/-- ASCII upper-casing. -/
def up (b : Nat) : Nat := if isLower b then b - 32 else b

/-- The parts of package `unicode` the code uses. Only their behaviour on ASCII is assumed. -/
structure Uni where
  letterOrDigit : Nat → Bool
  upper : Nat → Nat
  letterOrDigit_ascii : ∀ b, b < 128 → letterOrDigit b = isAlnum b
  upper_ascii : ∀ b, b < 128 → upper b = up b

/-- `sentence[:i] + strings.ToUpper(string(r)) + sentence[i+1:]` (helpers.go:53); `none` is a slice out of
range. -/
def replaceAt (u : Uni) (s : Bytes) (i r : Nat) : Option Bytes :=
  if i + 1 ≤ s.length then some (s.take i ++ encodeRune (u.upper r) ++ s.drop (i + 1)) else none

/-- The loop upper-casing what follows a separator (helpers.go:50-56). -/
def upLoop (u : Uni) : List (Nat × Nat) → Nat → Bytes → Option Bytes
  | [], _, s => some s
  | (i, r) :: rest, previous, s =>
    if u.letterOrDigit previous then upLoop u rest r s
    else match replaceAt u s i r with
      | none => none
      | some s' => upLoop u rest r s'

/-- Removing all but ASCII alphanumerics, then leading digits, then upper-casing the first letter
(helpers.go:59-70). -/
def finish (s : Bytes) : Bytes :=
  match (s.filter isAlnum).dropWhile isDigit with
  | [] => []
  | b :: s => up b :: s

/-- `DefaultNamifier` (helpers.go:42-72), also `Namify` with the default scheme (helpers.go:82-84). `none` is
a panic. -/
def namify (u : Uni) (s : Bytes) : Option Bytes :=
  if s = [] then some []
  else (upLoop u (runes 0 0 s) 95 s).map finish

/-- What follows the last `}` before any parenthesis. -/
def afterLast : Bytes → Option Bytes
  | [] => none
  | b :: s =>
    if b = 40 ∨ b = 41 then none
    else match afterLast s with
      | some r => some r
      | none => if b = 125 then some s else none

/-- Replacing `{[^()]*}` by `_` (helpers.go:35-36): the expression is greedy. `fuel` bounds the number of
steps; the length of the text suffices. -/
def stripParams : Nat → Bytes → Bytes
  | _, [] => []
  | 0, s => s
  | fuel + 1, b :: s =>
    if b = 123 then
      match afterLast s with
      | some r => 95 :: stripParams fuel r
      | none => b :: stripParams fuel s
    else b :: stripParams fuel s

/-- `NamifyWithoutParams` (helpers.go:33-39). -/
def namifyWithoutParams (u : Uni) (s : Bytes) : Option Bytes := namify u (stripParams s.length s)

end Verif.Naming
