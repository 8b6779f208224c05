import Verif.Model.Values

/-! # Which schemas have a value, and which Go types are valid -/

namespace Verif.Values

/-- A JSON value is valid for a schema: properties that are required are there, those that are there are valid, items are
valid; a reference means the schema of that name; properties that are not declared are valid for the schema of the
additional properties. Formats may exclude strings, as long as one is left. -/
inductive Fits (env : Str → T) : T → Json → Prop
  | bool (b : Bool) : Fits env .bool (.bool b)
  | str (s : Str) : Fits env .str (.str s)
  | date (s : Str) : Fits env .date (.str s)
  | time (s : Str) : Fits env .time (.str s)
  | int (bits : Nat) (x : Str) : Fits env (.int bits) (.num x)
  | float (x : Str) : Fits env .float (.num x)
  | slice (t : T) (js : List Json) (h : ∀ j ∈ js, Fits env t j) : Fits env (.slice t) (.arr js)
  | struct (fs : List F) (adds : Option T) (ms : List (Str × Json)) (hr : ∀ f ∈ fs, f.req = true → ∃ j, (f.key, j) ∈ ms)
      (hd : ∀ k j, (k, j) ∈ ms → ∀ f ∈ fs, f.key = k → Fits env f.type j)
      (ha : ∀ u, adds = some u → ∀ k j, (k, j) ∈ ms → (∀ f ∈ fs, f.key ≠ k) → Fits env u j) :
      Fits env (.struct fs adds) (.obj ms)
  | name (n : Str) (j : Json) (h : Fits env (env n) j) : Fits env (.name n) j

/-- Values of a type hold values of the named type in place: not behind a pointer, in a slice or in a
map, as the additional properties are. -/
inductive Inside (ptr : F → Bool) : T → Str → Prop
  | name (n : Str) : Inside ptr (.name n) n
  | field {fs : List F} {adds : Option T} {f : F} {n : Str} (hf : f ∈ fs) (hp : ptr f = false) (h : Inside ptr f.type n) :
      Inside ptr (.struct fs adds) n

/-- The Go compiler's "invalid recursive type": values of the declared type would hold values of the same type. -/
def Invalid (ptr : F → Bool) (env : Str → T) (n : Str) : Prop :=
  Relation.TransGen (fun a b => Inside ptr (env a) b) n n

/-- No two properties of an object have the same name. -/
inductive Distinct : T → Prop
  | bool : Distinct .bool
  | str : Distinct .str
  | date : Distinct .date
  | time : Distinct .time
  | int (b : Nat) : Distinct (.int b)
  | float : Distinct .float
  | slice (t : T) : Distinct (.slice t)
  | name (n : Str) : Distinct (.name n)
  | struct (fs : List F) (adds : Option T) (hk : (fs.map F.key).Nodup) (h : ∀ f ∈ fs, Distinct f.type) :
      Distinct (.struct fs adds)

end Verif.Values
