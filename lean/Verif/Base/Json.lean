import Verif.Base.Str

/-!
# JSON texts

A JSON syntax tree, a parser following RFC 8259 (the specification of what a JSON text is) and the printer
of Go's `encoding/json` (`Marshal`: compact, HTML-escaped). Numbers are kept as their texts. Escapes of
UTF-16 surrogates are not supported by the parser (Go never prints them).
-/

namespace Verif

/-- A JSON value. -/
inductive Json
  | null
  | bool (b : Bool)
  | num (text : Str)
  | str (s : Str)
  | arr (xs : List Json)
  | obj (ms : List (Str × Json))
  deriving Repr

namespace Json

/-- White space between tokens. -/
def isWs (c : Char) : Bool := c == ' ' || c == '\t' || c == '\n' || c == '\r'

def skipWs : Str → Str
  | [] => []
  | c :: s => if isWs c then skipWs s else c :: s

def isDigit (c : Char) : Bool := '0'.toNat ≤ c.toNat && c.toNat ≤ '9'.toNat

/-- Characters numbers are made of. -/
def isNumChar (c : Char) : Bool := isDigit c || c == '-' || c == '+' || c == '.' || c == 'e' || c == 'E'

/-- Where the recogniser of numbers stands. -/
inductive NumSt
  | start | neg | zero | int | dot | frac | e | esign | exp | bad
  deriving DecidableEq, Repr

/-- `-? (0 | [1-9][0-9]*) (. [0-9]+)? ([eE] [+-]? [0-9]+)?` -/
def numStep (s : NumSt) (c : Char) : NumSt :=
  match s with
  | .start => if c == '-' then .neg else if c == '0' then .zero else if isDigit c then .int else .bad
  | .neg => if c == '0' then .zero else if isDigit c then .int else .bad
  | .zero => if c == '.' then .dot else if c == 'e' || c == 'E' then .e else .bad
  | .int => if isDigit c then .int else if c == '.' then .dot else if c == 'e' || c == 'E' then .e else .bad
  | .dot => if isDigit c then .frac else .bad
  | .frac => if isDigit c then .frac else if c == 'e' || c == 'E' then .e else .bad
  | .e => if c == '+' || c == '-' then .esign else if isDigit c then .exp else .bad
  | .esign => if isDigit c then .exp else .bad
  | .exp => if isDigit c then .exp else .bad
  | .bad => .bad

/-- A well-formed JSON number. -/
def isNumber (s : Str) : Bool :=
  match s.foldl numStep .start with
  | .zero | .int | .frac | .exp => true
  | _ => false

/-- The value of a hexadecimal digit. -/
def hexVal (c : Char) : Option Nat :=
  let n := c.toNat
  if '0'.toNat ≤ n && n ≤ '9'.toNat then some (n - '0'.toNat)
  else if 'a'.toNat ≤ n && n ≤ 'f'.toNat then some (n - 'a'.toNat + 10)
  else if 'A'.toNat ≤ n && n ≤ 'F'.toNat then some (n - 'A'.toNat + 10)
  else none

/-- The character of four hexadecimal digits; surrogates are not supported. -/
def hex4 (a b c d : Char) : Option Char :=
  match hexVal a, hexVal b, hexVal c, hexVal d with
  | some a, some b, some c, some d =>
    let n := ((a * 16 + b) * 16 + c) * 16 + d
    if 0xd800 ≤ n && n ≤ 0xdfff then none else some (Char.ofNat n)
  | _, _, _, _ => none

/-- The character of a one-letter escape. -/
def unescape (c : Char) : Option Char :=
  if c == '"' then some '"'
  else if c == '\\' then some '\\'
  else if c == '/' then some '/'
  else if c == 'b' then some (Char.ofNat 8)
  else if c == 'f' then some (Char.ofNat 12)
  else if c == 'n' then some '\n'
  else if c == 'r' then some '\r'
  else if c == 't' then some '\t'
  else none

/-- Prepend to the string read. -/
def prepend (c : Char) (r : Option (Str × Str)) : Option (Str × Str) := r.map (fun p => (c :: p.1, p.2))

/-- A string literal after its opening quote: its contents and what follows the closing quote. -/
def parseStr : Str → Option (Str × Str)
  | [] => none
  | c :: s =>
    if c = '"' then some ([], s)
    else if c = '\\' then
      match s with
      | [] => none
      | e :: s1 =>
        if e = 'u' then
          match s1 with
          | a :: b :: c :: d :: s2 =>
            match hex4 a b c d with
            | none => none
            | some ch => prepend ch (parseStr s2)
          | _ => none
        else
          match unescape e with
          | none => none
          | some ch => prepend ch (parseStr s1)
    else if c.toNat < 0x20 then none
    else prepend c (parseStr s)

/-- A given word. -/
def stripWord : Str → Str → Option Str
  | [], s => some s
  | _ :: _, [] => none
  | w :: ws, c :: s => if w = c then stripWord ws s else none

mutual
/-- A value, and what follows it. -/
def parseVal : Nat → Str → Option (Json × Str)
  | 0, _ => none
  | n + 1, s =>
    match skipWs s with
    | [] => none
    | c :: r =>
      if c = '"' then (parseStr r).map (fun p => (.str p.1, p.2))
      else if c = '[' then
        match skipWs r with
        | [] => none
        | c' :: r' => if c' = ']' then some (.arr [], r') else (parseElems n r).map (fun p => (.arr p.1, p.2))
      else if c = '{' then
        match skipWs r with
        | [] => none
        | c' :: r' => if c' = '}' then some (.obj [], r') else (parseMembers n r).map (fun p => (.obj p.1, p.2))
      else if c = 'n' then (stripWord ['u', 'l', 'l'] r).map (fun r => (.null, r))
      else if c = 't' then (stripWord ['r', 'u', 'e'] r).map (fun r => (.bool true, r))
      else if c = 'f' then (stripWord ['a', 'l', 's', 'e'] r).map (fun r => (.bool false, r))
      else if isNumber ((c :: r).takeWhile isNumChar) then
        some (.num ((c :: r).takeWhile isNumChar), (c :: r).dropWhile isNumChar)
      else none
/-- One or more values up to `]`. -/
def parseElems : Nat → Str → Option (List Json × Str)
  | 0, _ => none
  | n + 1, s =>
    match parseVal n s with
    | none => none
    | some (v, r) =>
      match skipWs r with
      | [] => none
      | c :: r' =>
        if c = ',' then (parseElems n r').map (fun p => (v :: p.1, p.2))
        else if c = ']' then some ([v], r')
        else none
/-- One or more members up to `}`. -/
def parseMembers : Nat → Str → Option (List (Str × Json) × Str)
  | 0, _ => none
  | n + 1, s =>
    match skipWs s with
    | [] => none
    | q :: s1 =>
      if q = '"' then
        match parseStr s1 with
        | none => none
        | some (k, s2) =>
          match skipWs s2 with
          | [] => none
          | col :: s3 =>
            if col = ':' then
              match parseVal n s3 with
              | none => none
              | some (v, r) =>
                match skipWs r with
                | [] => none
                | c :: r' =>
                  if c = ',' then (parseMembers n r').map (fun p => ((k, v) :: p.1, p.2))
                  else if c = '}' then some ([(k, v)], r')
                  else none
            else none
      else none
end

/-- A JSON text: one value and nothing but white space after it. -/
def parse (s : Str) : Option Json :=
  match parseVal (2 * s.length + 1) s with
  | none => none
  | some (v, r) => if skipWs r = [] then some v else none

/-- A lower-case hexadecimal digit. -/
def hexDigit (n : Nat) : Char := if n < 10 then Char.ofNat ('0'.toNat + n) else Char.ofNat ('a'.toNat + (n - 10))

/-- `\uXXXX` -/
def uEscape (n : Nat) : Str :=
  ['\\', 'u', hexDigit (n / 4096 % 16), hexDigit (n / 256 % 16), hexDigit (n / 16 % 16), hexDigit (n % 16)]

/-- How `encoding/json` writes a character of a string (HTML escaping is on in `json.Marshal`). -/
def escChar (c : Char) : Str :=
  if c = '"' then ['\\', '"']
  else if c = '\\' then ['\\', '\\']
  else if c = Char.ofNat 8 then ['\\', 'b']
  else if c = Char.ofNat 12 then ['\\', 'f']
  else if c = '\n' then ['\\', 'n']
  else if c = '\r' then ['\\', 'r']
  else if c = '\t' then ['\\', 't']
  else if c.toNat < 0x20 || c = '<' || c = '>' || c = '&' || c.toNat = 0x2028 || c.toNat = 0x2029 then uEscape c.toNat
  else [c]

/-- How `encoding/json` writes a string. -/
def quote (s : Str) : Str := '"' :: (s.flatMap escChar ++ ['"'])

mutual
/-- `json.Marshal` -/
def print : Json → Str
  | .null => ['n', 'u', 'l', 'l']
  | .bool true => ['t', 'r', 'u', 'e']
  | .bool false => ['f', 'a', 'l', 's', 'e']
  | .num t => t
  | .str s => quote s
  | .arr xs => '[' :: (printElems xs ++ [']'])
  | .obj ms => '{' :: (printMembers ms ++ ['}'])
/-- Elements, separated by commas. -/
def printElems : List Json → Str
  | [] => []
  | x :: xs => print x ++ printElemsTail xs
/-- Further elements, each after a comma. -/
def printElemsTail : List Json → Str
  | [] => []
  | x :: xs => ',' :: (print x ++ printElemsTail xs)
/-- Members, separated by commas. -/
def printMembers : List (Str × Json) → Str
  | [] => []
  | (k, v) :: ms => quote k ++ ':' :: (print v ++ printMembersTail ms)
/-- Further members, each after a comma. -/
def printMembersTail : List (Str × Json) → Str
  | [] => []
  | (k, v) :: ms => ',' :: (quote k ++ ':' :: (print v ++ printMembersTail ms))
end

mutual
/-- All numbers are well-formed. -/
def Valid : Json → Prop
  | .null => True
  | .bool _ => True
  | .num t => isNumber t = true
  | .str _ => True
  | .arr xs => ValidElems xs
  | .obj ms => ValidMembers ms
def ValidElems : List Json → Prop
  | [] => True
  | x :: xs => Valid x ∧ ValidElems xs
def ValidMembers : List (Str × Json) → Prop
  | [] => True
  | (_, v) :: ms => Valid v ∧ ValidMembers ms
end

end Json
end Verif
