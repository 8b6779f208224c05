import Verif.Model.Controller

/-! # The subscriptions of a controller as a set of addresses (C14, C15) -/

namespace Verif.Controller

/-- A set of addresses. -/
abbrev ASet := String → Bool

namespace ASet

def empty : ASet := fun _ => false
def insert (S : ASet) (a : String) : ASet := fun b => if b = a then true else S b
def remove (S : ASet) (a : String) : ASet := fun b => if b = a then false else S b

/-- Subscribing: refused for a member; added if the broker accepts. -/
def sub (S : ASet) (a : String) (ok : Bool) : ASet × Option Err :=
  if S a then (S, some .alreadySubscribed)
  else if ok then (S.insert a, none) else (S, some .broker)

/-- Subscribing to a list of addresses, stopping at the first refusal. -/
def subMany (S : ASet) : List (String × Bool) → ASet × Option Err
  | [] => (S, none)
  | (a, ok) :: rest =>
    match S.sub a ok with
    | (S1, none) => subMany S1 rest
    | (S1, some e) => (S1, some e)

/-- Removing a list of addresses. -/
def removeMany (S : ASet) (as : List String) : ASet := fun b => if b ∈ as then false else S b

/-- One API call on the set. -/
def step (plain : List String) (S : ASet) : Op → ASet × Option Err
  | .sub a ok => S.sub a ok
  | .unsub a => (S.remove a, none)
  | .subAll nilSub answers =>
    if nilSub then (S, some .nilSubscriber)
    else S.subMany (plain.zip ((List.range plain.length).map answers))
  | .unsubAll => (S.removeMany plain, none)
  | .close => (S.removeMany plain, none)

/-- A history on the set. -/
def run (plain : List String) (S : ASet) : List Op → ASet × List (Option Err)
  | [] => (S, [])
  | o :: os =>
    let (S1, r) := step plain S o
    let (S2, rs) := run plain S1 os
    (S2, r :: rs)

end ASet

/-- The addresses with a live broker subscription. -/
def liveAddrs (s : St) : List String := s.live.map (·.2)

/-- The controller state represents the set: the live broker subscriptions are exactly one per member,
and the map knows them. -/
def Represents (s : St) (S : ASet) : Prop :=
  (liveAddrs s).Nodup ∧ (∀ a, S a = true ↔ a ∈ liveAddrs s)

end Verif.Controller
