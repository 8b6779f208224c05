import Verif.Model.Ack

/-!
# Acknowledgement by several goroutines

Models `Ack` and `Nak` of pkg/extensions/broker.go:120-134 one statement at a time, for calls made by several goroutines
and on copies of the message: `AcknowledgeableBrokerMessage` is a struct (pkg/extensions/broker.go:102-107) that is sent
by value over channels (pkg/extensions/broker.go:28-30, versioning/broker_subscription.go), and error handlers get a
pointer they may keep (pkg/extensions/errorhandler.go:9).
-/

namespace Verif.AckRace

open Verif.Ack (Kind)

/-- Where a call is. -/
inductive Pc
  | idle
  | hooking (copy : Nat) (k : Kind)   -- `!bm.acked` was true, about to call the hook (L121-122, L130-131)
  | setting (copy : Nat)              -- about to do `bm.acked = true` (L123, L132)
  | done
  deriving DecidableEq, Repr

/-- The `acked` flags of the copies, the calls, and the hooks called on the shared `acknowledgment`. -/
structure St where
  acked : Nat → Bool := fun _ => false
  pc : Nat → Pc := fun _ => .idle
  hooks : List Kind := []

/-- A message just received, and its (future) copies. -/
def init : St := {}

/-- One statement of a goroutine. -/
inductive Act
  | check (i : Nat) (copy : Nat) (k : Kind)   -- call i begins, on a copy
  | hook (i : Nat)
  | set (i : Nat)
  | copy (src dst : Nat)                      -- `dst := src`, for instance by sending it over a channel
  deriving DecidableEq, Repr

/-- Function update. -/
def upd {α : Type} (f : Nat → α) (i : Nat) (v : α) : Nat → α := fun j => if j = i then v else f j

/-- `Ack`, `Nak` (pkg/extensions/broker.go:120-134) and copying a struct; `none`: not enabled. -/
def step (s : St) : Act → Option St
  | .check i c k =>
    if s.pc i = .idle then
      some { s with pc := upd s.pc i (if s.acked c then .done else .hooking c k) }
    else none
  | .hook i =>
    match s.pc i with
    | .hooking c k => some { s with pc := upd s.pc i (.setting c), hooks := s.hooks ++ [k] }
    | _ => none
  | .set i =>
    match s.pc i with
    | .setting c => some { s with pc := upd s.pc i .done, acked := upd s.acked c true }
    | _ => none
  | .copy src dst => some { s with acked := upd s.acked dst (s.acked src) }

/-- Execute a schedule. -/
def run (s : St) : List Act → Option St
  | [] => some s
  | a :: as => match step s a with
    | some s' => run s' as
    | none => none

end Verif.AckRace
