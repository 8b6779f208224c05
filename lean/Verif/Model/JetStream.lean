import Verif.Base.Str
import Verif.Base.GoMap

/-!
# NATS JetStream controller

Models pkg/extensions/brokers/natsjetstream/natsjetstream.go: `MatchSubjectSubscription` (:354-391),
`ConsumeMessage` (:324-351) and the life cycle of subscriptions (`Subscribe` :226-258,
`ConsumeIfNeeded` :298-312, `StopConsumeIfNeeded` :315-320).
-/

namespace Verif.JetStream

/-- The loop of `MatchSubjectSubscription` (natsjetstream.go:368-390) over the remaining tokens; `none`
is an index out of range. -/
def matchLoop : List Str → List Str → Option Bool
  | [], ss => some (ss == [])
  | p :: ps, ss =>
    if p = ['*'] then
      match ss with
      | [] => none
      | s :: ss => if s = [] then some false else matchLoop ps ss
    else if p = ['>'] then some (ps == [])
    else match ss with
      | [] => none
      | s :: ss => if p ≠ s then some false else matchLoop ps ss

/-- `MatchSubjectSubscription` (natsjetstream.go:354-391); `none` is a panic. -/
def matchSubject (pattern subject : Str) : Option Bool :=
  if pattern = [] ∨ subject = [] then some false
  else
    let ps := Str.split '.' pattern
    let ss := Str.split '.' subject
    if ss.length < ps.length then some false else matchLoop ps ss

/-- What `ConsumeMessage` does with a message. -/
inductive Routed
  | handed (pattern : Str)
  | ackedAndDropped
  | panicked
  deriving DecidableEq, Repr

/-- The handler made by `ConsumeMessage` (natsjetstream.go:324-351); `patterns` are the keys of the
channel map in the order Go happens to iterate. A chosen key "" counts as none (:334). -/
def consume (subject : Str) : List Str → Routed
  | [] => .ackedAndDropped
  | p :: rest =>
    match matchSubject p subject with
    | none => .panicked
    | some true => if p = [] then .ackedAndDropped else .handed p
    | some false => consume subject rest

/-- Controller state: the queue of each channel key (`channels`), the goroutines reading a queue (made at
natsjetstream.go:241-249: subscription number and queue number), the subscriptions not cancelled,
whether it consumes, and whether it crashed (`close` of a nil channel). -/
structure St where
  chans : GoMap Str Nat := []
  readers : List (Nat × Nat) := []
  subs : List (Nat × Str) := []
  consuming : Bool := false
  next : Nat := 0
  crashed : Bool := false
  deriving DecidableEq, Repr

/-- A new controller. -/
def init : St := {}

/-- Calls: subscribe to a channel (`ok`: starting to consume succeeds if it is needed), cancel the
subscription of that number. -/
inductive Op
  | subscribe (ch : Str) (ok : Bool)
  | cancel (id : Nat)
  deriving DecidableEq, Repr

/-- `c.channels[channel]`, made if missing (natsjetstream.go:233-235). -/
def ensureQueue (s : St) (ch : Str) : St × Nat :=
  match s.chans.get ch with
  | some q => (s, q)
  | none => ({ s with chans := s.chans.put ch s.next, next := s.next + 1 }, s.next)

/-- `Subscribe` (natsjetstream.go:226-258) with `ConsumeIfNeeded` (:298-312). The reading goroutine is
taken to start at once. -/
def subscribe (s : St) (ch : Str) (ok : Bool) : St :=
  let (s1, q) := ensureQueue s ch
  if !s1.consuming && !ok then s1
  else { s1 with
    consuming := true
    readers := s1.readers ++ [(s1.next, q)]
    subs := s1.subs ++ [(s1.next, ch)]
    next := s1.next + 1 }

/-- Cancellation (natsjetstream.go:251-255) with `StopConsumeIfNeeded` (:315-320): the queue is closed,
which ends every goroutine reading it. -/
def cancel (s : St) (id : Nat) : St :=
  match s.subs.find? (fun e => e.1 == id) with
  | none => s
  | some (_, ch) =>
    match s.chans.get ch with
    | none => { s with crashed := true }
    | some q =>
      let chans := s.chans.del ch
      { s with
        chans := chans
        readers := s.readers.filter (fun r => !decide (r.2 = q))
        subs := s.subs.filter (fun e => !decide (e.1 = id))
        consuming := if chans.length = 0 then false else s.consuming }

/-- One call. A crashed program does nothing any more. -/
def step (s : St) (o : Op) : St :=
  if s.crashed then s
  else match o with
    | .subscribe ch ok => subscribe s ch ok
    | .cancel id => cancel s id

/-- A history of calls. -/
def run (s : St) (os : List Op) : St := os.foldl step s

end Verif.JetStream
