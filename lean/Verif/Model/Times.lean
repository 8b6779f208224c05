import Verif.Base.Str

/-!
# Date-times in messages

What generated code does with strings of format `date-time`, which are `time.Time` in Go
(pkg/codegen/generators/v3/templates/schema_name.tmpl:18-25): headers and payloads are written with
`Format(time.RFC3339)` and read with `time.Parse(time.RFC3339, …)` (v3/templates/message.tmpl:64-72, 127-153, 208-211,
246-263; v2/templates/message.tmpl:55-63, 118-140, 191-194, 228-245), properties of JSON objects with the methods of
`time.Time` (v3/templates/marshaling/time.tmpl:3-16 calls them for named schemas).

The package `time` is not in the repository: its functions are modelled from its published source (Go 1.21,
time/format.go, time/format_rfc3339.go). Simplifications: a `time.Time` is its civil fields and the offset of its zone
instead of a number of seconds; names of zones are left out; `time.Parse` is its general loop for this layout (the
shortcut `parseRFC3339` gives the same result on the texts it takes).
-/

namespace Verif.Times

/-- A `time.Time`: civil fields in its zone, and the offset of the zone in seconds. -/
structure Moment where
  year : Int
  month : Nat
  day : Nat
  hour : Nat
  min : Nat
  sec : Nat
  nanos : Nat
  offset : Int
  deriving DecidableEq, Repr

/-- A digit. -/
def digit (n : Nat) : Char := Char.ofNat ('0'.toNat + n)

/-- That many decimal digits. -/
def digits : Nat → Nat → Str
  | 0, _ => []
  | w + 1, n => digits w (n / 10) ++ [digit (n % 10)]

/-- The number of decimal digits of a positive number: the loop of `appendInt`. -/
def width (n : Nat) : Nat := if n < 10 then 1 else width (n / 10) + 1
termination_by n
decreasing_by omega

/-- `appendInt` (time/format.go) on numbers that are not negative. -/
def padded (w n : Nat) : Str := if n < 10 ^ w then digits w n else digits (width n) n

/-- `appendInt` (time/format.go) -/
def paddedInt (w : Nat) (n : Int) : Str := if n < 0 then '-' :: padded w n.natAbs else padded w n.natAbs

/-- Without the zeros at the end. -/
def trimZeros (s : Str) : Str := (s.reverse.dropWhile (· = '0')).reverse

/-- `appendNano` for the layout RFC3339Nano (time/format.go). -/
def fraction (nanos : Nat) : Str := if nanos = 0 then [] else '.' :: trimZeros (digits 9 nanos)

/-- The zone in minutes: `offset / 60` in Go. -/
def zoneMinutes (offset : Int) : Int := offset.tdiv 60

/-- The zone (time/format_rfc3339.go, `appendFormatRFC3339`). -/
def zoneText (offset : Int) : Str :=
  if offset = 0 then ['Z']
  else
    let z := zoneMinutes offset
    (if z < 0 then '-' else '+') :: (padded 2 (z.natAbs / 60) ++ ':' :: padded 2 (z.natAbs % 60))

/-- Date and time of day. -/
def civilText (m : Moment) : Str :=
  paddedInt 4 m.year ++ '-' :: (padded 2 m.month ++ '-' :: (padded 2 m.day ++ 'T' ::
    (padded 2 m.hour ++ ':' :: (padded 2 m.min ++ ':' :: padded 2 m.sec))))

/-- `t.Format(time.RFC3339)`, as message.tmpl:211, 248 and 261 call it for payloads and headers. -/
def format (m : Moment) : Str := civilText m ++ zoneText m.offset

/-- `t.Format(time.RFC3339Nano)` -/
def formatNano (m : Moment) : Str := civilText m ++ (fraction m.nanos ++ zoneText m.offset)

/-- `time.Time.MarshalJSON` without the quotes (`appendStrictRFC3339`, time/format_rfc3339.go); `none`: an error. It looks
at the text: the year has four characters, the hours of the zone are two digits below 24. -/
def marshal (m : Moment) : Option Str :=
  if (paddedInt 4 m.year).length ≠ 4 then none
  else if m.offset ≠ 0 ∧ 24 ≤ (zoneMinutes m.offset).natAbs / 60 then none
  else some (formatNano m)

/-- The value of a digit. -/
def digitVal (c : Char) : Option Nat := if '0'.toNat ≤ c.toNat ∧ c.toNat ≤ '9'.toNat then some (c.toNat - '0'.toNat) else none

/-- `getnum(value, true)` (time/format.go): exactly two digits. -/
def two : Str → Option (Nat × Str)
  | a :: b :: s => match digitVal a, digitVal b with
    | some x, some y => some (10 * x + y, s)
    | _, _ => none
  | _ => none

/-- `getnum(value, false)` (time/format.go): one or two digits. -/
def oneOrTwo : Str → Option (Nat × Str)
  | [] => none
  | a :: s => match digitVal a with
    | none => none
    | some x => match s with
      | [] => some (x, [])
      | b :: s' => match digitVal b with
        | some y => some (10 * x + y, s')
        | none => some (x, s)

/-- The year: `stdLongYear` of `Parse` (time/format.go). -/
def four : Str → Option (Nat × Str)
  | a :: b :: c :: d :: s => match digitVal a, digitVal b, digitVal c, digitVal d with
    | some w, some x, some y, some z => some (1000 * w + 100 * x + 10 * y + z, s)
    | _, _, _, _ => none
  | _ => none

/-- `skip(value, prefix)` (time/format.go) for one character. -/
def skip (c : Char) : Str → Option Str
  | [] => none
  | d :: s => if c = d then some s else none

/-- The number some digits write. -/
def readNat : Nat → Str → Nat
  | acc, [] => acc
  | acc, c :: s => match digitVal c with
    | some d => readNat (10 * acc + d) s
    | none => acc        -- not reached: only called with digits

/-- Leading digits, and the rest. -/
def leading : Str → Str × Str
  | [] => ([], [])
  | c :: s => match digitVal c with
    | some _ => (c :: (leading s).1, (leading s).2)
    | none => ([], c :: s)

/-- `parseNanoseconds` (time/format.go): at most nine digits count. -/
def nanosOf (ds : Str) : Nat := readNat 0 (ds.take 9) * 10 ^ (9 - (ds.take 9).length)

/-- A fraction of a second after the seconds, with a period or a comma, is taken although the layout has none
(`stdZeroSecond` of `Parse`, time/format.go). -/
def parseFraction (s : Str) : Nat × Str :=
  match s with
  | c :: d :: rest =>
    if (c = '.' ∨ c = ',') ∧ (digitVal d).isSome then (nanosOf (leading (d :: rest)).1, (leading (d :: rest)).2) else (0, s)
  | _ => (0, s)

/-- The zone: `stdISO8601ColonTZ` of `Parse` (time/format.go). Go takes 24 hours and 60 minutes too. -/
def parseZone : Str → Option (Int × Str)
  | [] => none
  | c :: s =>
    if c = 'Z' then some (0, s)
    else match two s with
      | none => none
      | some (hr, s1) => match skip ':' s1 with
        | none => none
        | some s2 => match two s2 with
          | none => none
          | some (mm, s3) =>
            if 24 < hr ∨ 60 < mm then none
            else if c = '+' then some (((hr * 60 + mm) * 60 : Nat), s3)
            else if c = '-' then some (-(((hr * 60 + mm) * 60 : Nat) : Int), s3)
            else none

/-- `isLeap` (time/time.go) -/
def isLeap (y : Nat) : Bool := y % 4 = 0 && (y % 100 ≠ 0 || y % 400 = 0)

/-- `daysIn` (time/time.go) -/
def daysIn (month year : Nat) : Nat :=
  if month = 2 then (if isLeap year then 29 else 28) else 30 + (month + month / 8) % 2

/-- What is checked when all fields are read; the text must be used up. -/
def finish (year month day hour min sec nanos : Nat) (zone : Int) (rest : Str) : Option Moment :=
  if rest ≠ [] then none
  else if day < 1 ∨ daysIn month year < day then none
  else some ⟨year, month, day, hour, min, sec, nanos, zone⟩

/-- From the seconds on. -/
def parseSeconds (year month day hour min : Nat) (s : Str) : Option Moment :=
  match two s with
  | none => none
  | some (sec, s) =>
    if 60 ≤ sec then none
    else match parseZone (parseFraction s).2 with
      | none => none
      | some (zone, rest) => finish year month day hour min sec (parseFraction s).1 zone rest

/-- The time of day. -/
def parseClock (year month day : Nat) (s : Str) : Option Moment :=
  match oneOrTwo s with
  | none => none
  | some (hour, s) =>
    if 24 ≤ hour then none
    else match skip ':' s with
      | none => none
      | some s => match two s with
        | none => none
        | some (min, s) =>
          if 60 ≤ min then none
          else match skip ':' s with
            | none => none
            | some s => parseSeconds year month day hour min s

/-- `time.Parse(time.RFC3339, s)` (time/format.go), as message.tmpl:67, 129 and 149 call it; also `UnmarshalJSON` of
`time.Time` on what is between the quotes (`parseStrictRFC3339`, whose stricter checks are switched off). -/
def parse (s : Str) : Option Moment :=
  match four s with
  | none => none
  | some (year, s) => match skip '-' s with
    | none => none
    | some s => match two s with
      | none => none
      | some (month, s) =>
        if month = 0 ∨ 12 < month then none
        else match skip '-' s with
          | none => none
          | some s => match two s with
            | none => none
            | some (day, s) => match skip 'T' s with
              | none => none
              | some s => parseClock year month day s

/-- A date-time in a header or as payload, as the receiver gets it; `none`: an error (message.tmpl:64-72, 127-153,
208-211, 246-263). -/
def viaText (m : Moment) : Option Moment := parse (format m)

/-- A date-time in a JSON object, as the receiver gets it; `none`: an error on one of the sides. -/
def viaJson (m : Moment) : Option Moment := (marshal m).bind parse

end Verif.Times
