import Verif.Base.GoMap
import Verif.Base.Str

/-! # Removing duplicates -/

namespace Verif.Dedup

/-- The loop of `RemoveDuplicateFromSlice` (pkg/utils/slice.go:7-12): the map of seen values, the result so far. -/
def loop {α : Type} [DecidableEq α] : GoMap α Bool → List α → List α → List α
  | _, list, [] => list
  | allKeys, list, item :: rest =>
    match allKeys.get item with
    | some _ => loop allKeys list rest
    | none => loop (allKeys.put item true) (list ++ [item]) rest

/-- `RemoveDuplicateFromSlice` (pkg/utils/slice.go:4-14) -/
def removeDuplicate {α : Type} [DecidableEq α] (l : List α) : List α := loop [] [] l

/-- The loop of `RemoveDuplicateTags` and `RemoveDuplicateSecuritySchemes` (pkg/asyncapi/v3/tag.go:58-74,
pkg/asyncapi/v3/security_scheme.go:84-100): elements are compared by name. -/
def loopNamed {β : Type} (name : β → Str) : List β → List β → List β
  | newList, [] => newList
  | newList, t :: rest =>
    let present := newList.any (fun p => decide (name p = name t))
    loopNamed name (if present then newList else newList ++ [t]) rest

/-- `RemoveDuplicateTags`, `RemoveDuplicateSecuritySchemes` -/
def removeDuplicateNamed {β : Type} (name : β → Str) (l : List β) : List β := loopNamed name [] l

/-- `IsInSlice` (pkg/utils/slice.go:17-24) -/
def isInSlice : List Str → Str → Bool
  | [], _ => false
  | v :: rest, x => if v = x then true else isInSlice rest x

end Verif.Dedup
