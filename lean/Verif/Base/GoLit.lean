import Verif.Base.Json

/-!
# Go string literals

How Go reads an interpreted string literal (Go specification, "String literals"). Bytes `\xNN` above 0x7f and
octal escapes are not supported: `%q` writes neither for valid text.
-/

namespace Verif.GoLit

open Json (hexVal prepend)

/-- The value of hexadecimal digits. -/
def hexNum : Nat → Str → Option Nat
  | n, [] => some n
  | n, c :: s => match hexVal c with
    | none => none
    | some d => hexNum (n * 16 + d) s

/-- The character with this code, if there is one. -/
def toChar (n : Nat) : Option Char := if n.isValidChar then some (Char.ofNat n) else none

/-- The character of a one-letter escape. -/
def unescape (c : Char) : Option Char :=
  if c = 'a' then some (Char.ofNat 7)
  else if c = 'b' then some (Char.ofNat 8)
  else if c = 'f' then some (Char.ofNat 12)
  else if c = 'n' then some '\n'
  else if c = 'r' then some '\r'
  else if c = 't' then some '\t'
  else if c = 'v' then some (Char.ofNat 11)
  else if c = '\\' then some '\\'
  else if c = '"' then some '"'
  else none

/-- Hexadecimal digits of an escape, to a character below `max`. -/
def hexChar (max : Nat) (ds : Str) : Option Char :=
  match hexNum 0 ds with
  | none => none
  | some n => if n < max then toChar n else none

/-- A string literal after its opening quote: its contents and what follows the closing quote. -/
def readStr : Str → Option (Str × Str)
  | [] => none
  | c :: s =>
    if c = '"' then some ([], s)
    else if c = '\n' then none
    else if c = '\\' then
      match s with
      | 'x' :: a :: b :: s2 => match hexChar 0x80 [a, b] with
        | none => none
        | some ch => prepend ch (readStr s2)
      | 'u' :: a :: b :: c :: d :: s2 => match hexChar 0x110000 [a, b, c, d] with
        | none => none
        | some ch => prepend ch (readStr s2)
      | 'U' :: a :: b :: c :: d :: e :: f :: g :: h :: s2 => match hexChar 0x110000 [a, b, c, d, e, f, g, h] with
        | none => none
        | some ch => prepend ch (readStr s2)
      | e :: s1 => match unescape e with
        | none => none
        | some ch => prepend ch (readStr s1)
      | [] => none
    else prepend c (readStr s)

end Verif.GoLit
