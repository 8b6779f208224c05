/-!
# Cancellation of a broker subscription

Models `pkg/extensions/broker.go`, lines 39-69: the goroutine started by `WaitForCancellationAsync`
(the *waiter*) and any number of goroutines calling `Cancel` (the *cancellers*) over the `cancel`
channel, whose capacity is a parameter (every broker of the repository passes `make(chan any, 1)`:
pkg/extensions/brokers/nats/nats.go:111, pkg/extensions/brokers/kafka/kafka.go:216,
pkg/extensions/brokers/natsjetstream/natsjetstream.go:230,
pkg/extensions/versioning/version_subscription.go).

Each channel operation is one atomic action; schedules are lists of actions.  The values sent on the
channel are irrelevant, so the channel buffer is a token counter.
Simplification: the broker's cleanup function is one atomic step which returns normally.
-/

namespace Verif.Cancel

/-- Program counter of the goroutine of `WaitForCancellationAsync`
(pkg/extensions/broker.go:42-54), one value per statement. -/
inductive WPc
  | recv         -- about to do `<-bcs.cancel`        (L44)
  | cleanup      -- about to call `cleanup()`         (L47)
  | closeMsgs    -- about to do `close(bcs.messages)` (L50)
  | closeCancel  -- about to do `close(bcs.cancel)`   (L53)
  | done
  deriving DecidableEq, Repr

/-- Program counter of one call to `Cancel` (pkg/extensions/broker.go:60-69). The three `ret…`
values distinguish how the call returned. -/
inductive CPc
  | idle         -- not called yet
  | sending      -- about to do `bcs.cancel <- true` (L62)
  | selecting    -- in the `select` (L65)
  | retToken     -- returned: L66 received a value
  | retClosed    -- returned: L66 received because the channel is closed
  | retCtx       -- returned: L67 context done
  deriving DecidableEq, Repr

/-- What the waiter does, in the order it does it. -/
inductive Ev
  | cleanup
  | closeMessages
  | closeCancel
  deriving DecidableEq, Repr

/-- State shared by the goroutines: the cancel channel (capacity, number of buffered values, closed),
the waiter, the cancellers, which contexts are done, the log of teardown effects, and whether the
process panicked. -/
structure St where
  cap : Nat
  buf : Nat := 0
  cClosed : Bool := false
  log : List Ev := []
  w : WPc := .recv
  c : Nat → CPc := fun _ => .idle
  ctxDone : Nat → Bool := fun _ => false
  panicked : Bool := false

/-- A subscription just after `WaitForCancellationAsync` was called on it. -/
def init (cap : Nat) : St := { cap := cap }

/-- Atomic actions of a schedule. `i`, `j` identify calls to `Cancel`. -/
inductive Act
  | call (i : Nat)           -- somebody calls Cancel
  | send (i : Nat)           -- L62 succeeds into the buffer (or panics if closed)
  | handW (i : Nat)          -- L62 hands its value directly to the waiter (L44)
  | handC (i j : Nat)        -- L62 of call i hands its value directly to the select of call j
  | recvW                    -- L44 takes a value
  | recvC (i : Nat)          -- L66 takes a value, or sees the closed channel
  | ctxC (i : Nat)           -- L67
  | expire (i : Nat)         -- the context of call i is cancelled
  | doCleanup                -- L47
  | doCloseMsgs              -- L50
  | doCloseCancel            -- L53
  deriving DecidableEq, Repr

/-- Function update. -/
def upd {α : Type} (f : Nat → α) (i : Nat) (v : α) : Nat → α := fun j => if j = i then v else f j

/-- One atomic action (pkg/extensions/broker.go:41-69, with Go's channel semantics); `none` when the
action is not enabled. A panic stops the whole process. -/
def step (s : St) : Act → Option St
  | .call i =>
    if s.panicked = false ∧ s.c i = .idle then some { s with c := upd s.c i .sending } else none
  | .send i =>
    if s.panicked = false ∧ s.c i = .sending then
      if s.cClosed then some { s with panicked := true }
      else if s.buf < s.cap then some { s with buf := s.buf + 1, c := upd s.c i .selecting }
      else none
    else none
  | .handW i =>
    if s.panicked = false ∧ s.c i = .sending ∧ s.cClosed = false ∧ s.w = .recv ∧ s.buf = 0 then
      some { s with c := upd s.c i .selecting, w := .cleanup }
    else none
  | .handC i j =>
    if s.panicked = false ∧ s.c i = .sending ∧ s.c j = .selecting ∧ s.cClosed = false ∧ s.buf = 0 then
      some { s with c := upd (upd s.c i .selecting) j .retToken }
    else none
  | .recvW =>
    if s.panicked = false ∧ s.w = .recv then
      if 0 < s.buf then some { s with buf := s.buf - 1, w := .cleanup }
      else if s.cClosed then some { s with w := .cleanup }
      else none
    else none
  | .recvC i =>
    if s.panicked = false ∧ s.c i = .selecting then
      if 0 < s.buf then some { s with buf := s.buf - 1, c := upd s.c i .retToken }
      else if s.cClosed then some { s with c := upd s.c i .retClosed }
      else none
    else none
  | .ctxC i =>
    if s.panicked = false ∧ s.c i = .selecting ∧ s.ctxDone i = true then
      some { s with c := upd s.c i .retCtx }
    else none
  | .expire i =>
    if s.panicked = false then some { s with ctxDone := upd s.ctxDone i true } else none
  | .doCleanup =>
    if s.panicked = false ∧ s.w = .cleanup then
      some { s with w := .closeMsgs, log := s.log ++ [.cleanup] }
    else none
  | .doCloseMsgs =>
    if s.panicked = false ∧ s.w = .closeMsgs then
      if .closeMessages ∈ s.log then some { s with panicked := true }
      else some { s with w := .closeCancel, log := s.log ++ [.closeMessages] }
    else none
  | .doCloseCancel =>
    if s.panicked = false ∧ s.w = .closeCancel then
      if s.cClosed then some { s with panicked := true }
      else some { s with w := .done, cClosed := true, log := s.log ++ [.closeCancel] }
    else none

/-- Execute a schedule; `none` if some action was not enabled. -/
def run (s : St) : List Act → Option St
  | [] => some s
  | a :: as => match step s a with
    | some s' => run s' as
    | none => none

end Verif.Cancel
