import Verif.Base.Str

/-!
# Looking for a field by reflection

Models `FieldValueExists` (pkg/utils/reflect.go:7-36).
-/

namespace Verif.Reflect

mutual

/-- A Go value as `reflect` sees it: a pointer (to an address, or nil), a struct, or anything else, with its type and value.
Simplification: the type that is asked for is no struct and no pointer. -/
inductive RV
  | ptr (to : Option Nat)
  | struct (fs : List F)
  | leaf (ty : Nat) (val : Nat)

/-- A field of a struct. -/
inductive F
  | mk (name : Str) (exported : Bool) (value : RV)

end

def F.name : F → Str | .mk n _ _ => n
def F.exported : F → Bool | .mk _ e _ => e
def F.value : F → RV | .mk _ _ v => v

/-- What a call ends with. -/
inductive Res
  | yes
  | no
  | panicked
  deriving DecidableEq, Repr

/-- The loop over the fields of one struct (reflect.go:22-33): the answer, if one is given there. `ro`: the struct was reached
through an unexported field; `Interface` panics then, and on unexported fields. -/
def scan (name : Str) (ty want : Nat) (ro : Bool) : List F → Option Res
  | [] => none
  | f :: fs =>
    if f.name = name then
      if ro || !f.exported then some .panicked
      else match f.value with
        | .leaf t v => if t = ty then some (if v = want then .yes else .no) else scan name ty want ro fs
        | _ => scan name ty want ro fs
    else scan name ty want ro fs

/-- The loop over the queue (reflect.go:9-35), for a number of steps; a step takes an entry from the queue or follows a pointer
(reflect.go:13-15). `none`: not at its end yet. -/
def search (heap : Nat → RV) (name : Str) (ty want : Nat) : Nat → List (RV × Bool) → Option Res
  | 0, _ => none
  | _ + 1, [] => some .no
  | n + 1, (v, ro) :: q =>
    match v with
    | .ptr (some a) => search heap name ty want n ((heap a, ro) :: q)
    | .ptr none => search heap name ty want n q
    | .leaf .. => search heap name ty want n q
    | .struct fs =>
      match scan name ty want ro fs with
      | some r => some r
      | none => search heap name ty want n (q ++ fs.map (fun f => (f.value, ro || !f.exported)))

/-- `FieldValueExists(v, name, want)`, for `n` steps (reflect.go:7-36). -/
def fieldValueExists (heap : Nat → RV) (v : RV) (name : Str) (ty want : Nat) (n : Nat) : Option Res :=
  search heap name ty want n [(v, false)]

end Verif.Reflect
