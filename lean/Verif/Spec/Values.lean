import Verif.Model.Values
import Verif.Spec.Times

/-! # Which values conform, and when two values are the same -/

namespace Verif.Values

/-- Keys that Go writes between quotes as JSON does: no control characters but the five that have letters of their own, and
beyond 16 bits only printable characters. -/
def PlainKey (isPrint : Char → Bool) (k : Str) : Prop :=
  ∀ c ∈ k, (c.toNat < 0x20 → c.toNat ∈ [8, 9, 10, 12, 13]) ∧ c.toNat ≠ 0x7f ∧ (0x10000 ≤ c.toNat → isPrint c = true)

/-- The text of a full-date of RFC 3339. -/
def dateText (y m d : Nat) : Str := Times.rfc4 y ++ '-' :: (Times.rfc2 m ++ '-' :: Times.rfc2 d)

/-- What the round trip needs of an object: all members declared or additional properties with plain names, no
`x-omitempty` against the requirement, and no empty array for an optional property. -/
def Tidy (isPrint : Char → Bool) (fs : List F) (adds : Option T) (ms : List (Str × Json)) : Prop :=
  (∀ k j, (k, j) ∈ ms → (∃ f ∈ fs, f.key = k) ∨ (adds.isSome = true ∧ PlainKey isPrint k)) ∧
  (∀ f ∈ fs, f.ext ≠ some f.req) ∧
  ∀ f ∈ fs, f.req = false → f.type.isSlice = true → (f.key, Json.arr []) ∉ ms

/-- A value conforms to the schema behind a type: with integers written as such and within their bits, no leap
seconds and small letters in date-times, and no undeclared member that is a declared name up to case. With additional
properties, all members have to conform to their schema, the declared ones too. `tidy`: and is `Tidy` everywhere, with
at most nanoseconds. -/
inductive Conf {R : Type} (g : Go R) (env : Str → T) (tidy : Bool) : T → Json → Prop
  | bool {t : T} (h : res env t = .bool) (b : Bool) : Conf g env tidy t (.bool b)
  | str {t : T} (h : res env t = .str) (s : Str) : Conf g env tidy t (.str s)
  | int {t : T} {bits : Nat} (h : res env t = .int bits) (n : Int) (hb : -(2 ^ (bits - 1) : Int) ≤ n ∧ n < (2 ^ (bits - 1) : Int)) :
      Conf g env tidy t (.num (showInt n))
  | float {t : T} (h : res env t = .float) (x : Str) (r : R) (hx : g.parse x = some r) : Conf g env tidy t (.num x)
  | date {t : T} (h : res env t = .date) (y m d : Nat) (hy : y ≤ 9999) (hd : Times.Day y m d) :
      Conf g env tidy t (.str (dateText y m d))
  | time {t : T} (h : res env t = .time) (r : Times.Rfc) (hr : r.Ok) (hs : r.sec ≤ 59) (hl : r.lower = false)
      (ht : tidy = true → ∀ ds, r.frac = some ds → ds.length ≤ 9) : Conf g env tidy t (.str r.text)
  | slice {t u : T} (h : res env t = .slice u) (js : List Json) (hj : ∀ j ∈ js, Conf g env tidy u j) :
      Conf g env tidy t (.arr js)
  | struct {t : T} {fs : List F} {adds : Option T} (h : res env t = .struct fs adds) (ms : List (Str × Json))
      (hk : (fs.map F.key).Nodup) (hm : (ms.map (·.1)).Nodup)
      (hd : ∀ k j, (k, j) ∈ ms → ∀ f ∈ fs, f.key = k → Conf g env tidy f.type j)
      (hr : ∀ f ∈ fs, f.req = true → ∃ j, (f.key, j) ∈ ms)
      (hu : ∀ k j, (k, j) ∈ ms → (∀ f ∈ fs, f.key ≠ k) → ∀ f ∈ fs, g.fold f.key ≠ g.fold k)
      (ha : ∀ u, adds = some u → ∀ k j, (k, j) ∈ ms → Conf g env tidy u j)
      (ht : tidy = true → Tidy g.isPrint fs adds ms) :
      Conf g env tidy t (.obj ms)

/-- Two JSON values with the same meaning: numbers may be written differently, members may be in another order, and a point
in time may be written with fewer zeros or another name of the zone 0. -/
inductive Same {R : Type} (g : Go R) : Json → Json → Prop
  | refl (j : Json) : Same g j j
  | float {x y : Str} {r : R} (hx : g.parse x = some r) (hy : g.parse y = some r) : Same g (.num x) (.num y)
  | time (r r' : Times.Rfc) (hr : r.Ok) (hr' : r'.Ok) (hf : ∀ ds, r.frac = some ds → ds.length ≤ 9)
      (hf' : ∀ ds, r'.frac = some ds → ds.length ≤ 9) (he : Times.instant r.moment = Times.instant r'.moment) :
      Same g (.str r.text) (.str r'.text)
  | arr {js ks : List Json} (hl : js.length = ks.length)
      (h : ∀ (i : Nat) (j k : Json), js[i]? = some j → ks[i]? = some k → Same g j k) : Same g (.arr js) (.arr ks)
  | obj {ms ns : List (Str × Json)} (hl : ∀ k, k ∈ ms.map (·.1) ↔ k ∈ ns.map (·.1))
      (h : ∀ k j j', GoMap.get ms k = some j → GoMap.get ns k = some j' → Same g j j') : Same g (.obj ms) (.obj ns)

end Verif.Values
