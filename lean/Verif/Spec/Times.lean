import Verif.Model.Times

/-! # What date-times mean -/

namespace Verif.Times

/-- Lengths of the months. -/
def monthLengths (leap : Bool) : List Nat := [31, if leap then 29 else 28, 31, 30, 31, 30, 31, 31, 30, 31, 30, 31]

/-- A year of 366 days in the Gregorian calendar. -/
def Leap (y : Int) : Prop := y % 400 = 0 ∨ (y % 4 = 0 ∧ y % 100 ≠ 0)

instance (y : Int) : Decidable (Leap y) := inferInstanceAs (Decidable (_ ∨ _))

/-- The day exists. -/
def Day (y : Int) (month day : Nat) : Prop :=
  1 ≤ month ∧ 1 ≤ day ∧ ∃ n, (monthLengths (decide (Leap y)))[month - 1]? = some n ∧ day ≤ n

/-- The civil fields of some time. -/
structure Valid (m : Moment) : Prop where
  day : Day m.year m.month m.day
  hour : m.hour < 24
  min : m.min < 60
  sec : m.sec < 60
  nanos : m.nanos < 10 ^ 9

/-- Days from the beginning of the year 0 to the beginning of a year. -/
def yearStart (y : Int) : Int := 365 * y + (y + 3) / 4 - (y + 99) / 100 + (y + 399) / 400

/-- Days from the beginning of the year 0. -/
def dayNumber (y : Int) (month day : Nat) : Int :=
  yearStart y + (((monthLengths (decide (Leap y))).take (month - 1)).sum : Nat) + day - 1

/-- The point in time, in nanoseconds. -/
def instant (m : Moment) : Int :=
  (((dayNumber m.year m.month m.day * 24 + m.hour) * 60 + m.min) * 60 + m.sec - m.offset) * 10 ^ 9 + m.nanos

/-- The texts of RFC 3339 (section 5.6): `date-time = full-date "T" full-time`, by its parts. `lower`: with the small
letters `t` and `z`, which RFC 3339 allows. -/
structure Rfc where
  year : Nat
  month : Nat
  day : Nat
  hour : Nat
  min : Nat
  sec : Nat
  frac : Option (List Nat)
  zone : Option (Bool × Nat × Nat)     -- sign, hours, minutes; none: Z
  lower : Bool := false

/-- Two digits. -/
def rfc2 (n : Nat) : Str := [digit (n / 10), digit (n % 10)]

/-- Four digits. -/
def rfc4 (n : Nat) : Str := [digit (n / 1000), digit (n / 100 % 10), digit (n / 10 % 10), digit (n % 10)]

/-- The fraction of a second. -/
def rfcFrac : Option (List Nat) → Str
  | none => []
  | some ds => '.' :: ds.map digit

/-- The zone. -/
def rfcZone (lower : Bool) : Option (Bool × Nat × Nat) → Str
  | none => [if lower then 'z' else 'Z']
  | some (neg, h, m) => (if neg then '-' else '+') :: (rfc2 h ++ ':' :: rfc2 m)

/-- The text. -/
def Rfc.text (r : Rfc) : Str :=
  rfc4 r.year ++ '-' :: (rfc2 r.month ++ '-' :: (rfc2 r.day ++ (if r.lower then 't' else 'T') ::
    (rfc2 r.hour ++ ':' :: (rfc2 r.min ++ ':' :: (rfc2 r.sec ++ (rfcFrac r.frac ++ rfcZone r.lower r.zone))))))

/-- The restrictions of section 5.7: 60 seconds are leap seconds. -/
structure Rfc.Ok (r : Rfc) : Prop where
  year : r.year ≤ 9999
  day : Day r.year r.month r.day
  hour : r.hour ≤ 23
  min : r.min ≤ 59
  sec : r.sec ≤ 60
  frac : ∀ ds, r.frac = some ds → ds ≠ [] ∧ ∀ d ∈ ds, d ≤ 9
  zone : ∀ s h m, r.zone = some (s, h, m) → h ≤ 23 ∧ m ≤ 59

/-- The value of digits behind the point, in units of `10 ^ -9`, rounded down. -/
def fracNanos : Nat → List Nat → Nat
  | _, [] => 0
  | unit, d :: ds => d * unit + fracNanos (unit / 10) ds

/-- The offset of a zone in seconds. -/
def rfcOffset : Option (Bool × Nat × Nat) → Int
  | none => 0
  | some (neg, h, m) => if neg then -((h * 60 + m) * 60 : Nat) else ((h * 60 + m) * 60 : Nat)

/-- What it says. -/
def Rfc.moment (r : Rfc) : Moment :=
  { year := r.year, month := r.month, day := r.day, hour := r.hour, min := r.min, sec := r.sec
    nanos := (match r.frac with
      | none => 0
      | some ds => fracNanos (10 ^ 8) ds)
    offset := rfcOffset r.zone }

end Verif.Times
