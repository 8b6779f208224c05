/-!
# Concurrent subscriptions on one controller

Models `SubscribeTo…` and `UnsubscribeFrom…` called from several goroutines for one address
(pkg/codegen/generators/v3/templates/controller.tmpl:143-193, 286-311). The `subscriptions` map of the
controller is a plain Go map without lock (v3/templates/types.tmpl), so a call is not atomic; it is cut
at its accesses to shared state: the check of the map, the broker subscription, the store into the map.
Simplification: a Go map access is taken as atomic (Go may abort the program with "concurrent map
writes", which is worse).
-/

namespace Verif.SubRace

/-- Where a caller of `SubscribeTo…` is. -/
inductive Pc
  | idle                 -- not started
  | checked              -- passed the check of controller.tmpl:158-163
  | got (id : Nat)       -- has its broker subscription (:166-171), has not stored it
  | done                 -- returned nil
  | refused              -- returned ErrAlreadySubscribedChannel
  | failed               -- returned the broker's error
  deriving DecidableEq, Repr

/-- One address of the controller's map, the live broker subscriptions of that address, the callers. -/
structure St where
  entry : Option Nat := none
  live : List Nat := []
  nextId : Nat := 0
  pcs : Nat → Pc := fun _ => .idle

/-- A new controller. -/
def init : St := {}

/-- Move of caller `i`; `brokerOk` is only used at the broker call. `unsub` is a whole
`UnsubscribeFrom…` call. -/
inductive Act
  | caller (i : Nat) (brokerOk : Bool)
  | unsub
  deriving DecidableEq, Repr

/-- `c.pcs` with the position of `i` replaced. -/
def setPc (s : St) (i : Nat) (p : Pc) : Nat → Pc := fun j => if j = i then p else s.pcs j

/-- One atomic move (controller.tmpl:158-163 check, :166-171 broker, :190 store; :295-308 unsubscribe). -/
def step (s : St) : Act → Option St
  | .caller i ok =>
    match s.pcs i with
    | .idle =>
      match s.entry with
      | some _ => some { s with pcs := setPc s i .refused }
      | none => some { s with pcs := setPc s i .checked }
    | .checked =>
      if ok then
        some { s with live := s.live ++ [s.nextId], nextId := s.nextId + 1, pcs := setPc s i (.got s.nextId) }
      else some { s with pcs := setPc s i .failed }
    | .got id => some { s with entry := some id, pcs := setPc s i .done }
    | _ => none
  | .unsub =>
    match s.entry with
    | none => some s
    | some id => some { s with entry := none, live := s.live.filter (fun x => !decide (x = id)) }

/-- A schedule. -/
def run (s : St) : List Act → Option St
  | [] => some s
  | a :: as => match step s a with
    | none => none
    | some s1 => run s1 as

end Verif.SubRace
