import Verif.Model.TextLog

/-!
# The slices that loggers append to

The loggers append their own fields to the slice of fields they are called with (pkg/extensions/loggers/ecs.go:20-57,
76-82; text.go:70-93). A call `logger.Info(ctx, msg, fields...)` hands over the caller's slice itself: as long as it has room,
`append` writes into the caller's array. Arrays are in a store here, and goroutines that log take turns, one `append` at a
time.

Simplifications: a slice begins at the start of its array; writing one field is one step.
-/

namespace Verif.LogSlices
open Logs (Info Ctx)

/-- The arrays of fields; `next` has not been handed out. -/
structure Store where
  arr : Nat → List Info
  next : Nat

/-- A Go slice: its array, and its length. The capacity is the length of the array. -/
structure Slice where
  arr : Nat
  len : Nat
  deriving DecidableEq, Repr

/-- What is read through a slice. -/
def Store.read (s : Store) (x : Slice) : List Info := (s.arr x.arr).take x.len

/-- The store with one array replaced. -/
def Store.put (s : Store) (a : Nat) (l : List Info) : Store := { s with arr := fun q => if q = a then l else s.arr q }

/-- `append(x, f)` of Go: in place if there is room, otherwise in a new array, with `room` more places at the end. -/
def append (room : Nat → Nat) (s : Store) (x : Slice) (f : Info) : Store × Slice :=
  if x.len < (s.arr x.arr).length then
    (s.put x.arr ((s.arr x.arr).set x.len f), ⟨x.arr, x.len + 1⟩)
  else
    ({ s.put s.next (s.read x ++ f :: List.replicate (room x.len) ⟨[], []⟩) with next := s.next + 1 }, ⟨s.next, x.len + 1⟩)

/-- A call of a logger on its way: its slice, the fields it still has to append, and, at the end, the fields it has handed to
`structureLogs` (ecs.go:64, text.go:98). -/
structure Call where
  slice : Slice
  todo : List Info
  out : Option (List Info) := none
  deriving DecidableEq, Repr

/-- A call of the ECS logger, at some level (ecs.go:76-97). -/
def ecsCall (ctx : Ctx) (level msg now : Str) (x : Slice) : Call := ⟨x, Logs.ecsExtra ctx level msg now, none⟩

/-- A call of the text logger (text.go:95-119). -/
def textCall (ctx : Ctx) (msg now : Str) (x : Slice) : Call := ⟨x, TextLog.textInfo ctx msg now [], none⟩

/-- The next step of a call. -/
def Call.step (room : Nat → Nat) (s : Store) (c : Call) : Store × Call :=
  match c.todo with
  | f :: fs =>
    let r := append room s c.slice f
    (r.1, { c with slice := r.2, todo := fs })
  | [] => (s, { c with out := some (s.read c.slice) })

/-- Goroutines that log: a schedule says who is next. -/
def run (room : Nat → Nat) : List Nat → Store → List Call → Store × List Call
  | [], s, cs => (s, cs)
  | i :: is, s, cs =>
    match cs[i]? with
    | none => run room is s cs
    | some c =>
      let r := c.step room s
      run room is r.1 (cs.set i r.2)

end Verif.LogSlices
