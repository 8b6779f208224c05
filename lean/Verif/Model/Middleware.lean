/-!
# Middleware chain of the generated controllers

Models `wrapMiddlewares` and `executeMiddlewares`
(pkg/codegen/generators/v3/templates/controller.tmpl:31-86; v2 is textually the same:
pkg/codegen/generators/v2/templates/controller.tmpl:31-86), the `Middleware` type
(pkg/extensions/middleware.go) and the provided middlewares (pkg/extensions/middlewares).

Middlewares are arbitrary user code. They are embedded as programs (`MProg`) which may read and
overwrite the message behind their pointer, call `next` any number of times with any context, plainly
or under `recover`, return any error, or panic. Simplifications: `next` is called from the
middleware's own goroutine and not after the middleware returned; a middleware terminates.
-/

namespace Verif.Middleware

variable {C M X E : Type}

/-- Outcome of a Go function returning `error`: it returned (`none` is nil) or it panicked. -/
inductive Res (E : Type)
  | ret (e : Option E)
  | panicked
  deriving DecidableEq, Repr

/-- A middleware body (pkg/extensions/middleware.go:14), in continuation style.
`nextR` is a call of `next` under a deferred `recover`: the continuation receives the outcome. -/
inductive MProg (C M E : Type)
  | ret (e : Option E)
  | panic
  | read (k : M → MProg C M E)
  | write (m : M) (k : MProg C M E)
  | next (ctx : C) (k : Option E → MProg C M E)
  | nextR (ctx : C) (k : Res E → MProg C M E)

/-- `extensions.Middleware` (pkg/extensions/middleware.go:14): the context is an argument, the
message is reached through `read`/`write`, the `next` argument through `next`/`nextR`. -/
abbrev Mw (C M E : Type) := C → MProg C M E

/-- The final operation (`extensions.NextMiddleware`, pkg/extensions/middleware.go:19): a closure
which sees the message variable and changes the outside world `X` (acknowledgement, broker). -/
abbrev Callback (C M X E : Type) := C → M → X → Res E × X

/-- Observable events of an execution. Levels count middlewares from 0. -/
inductive Ev (C M E : Type)
  | enter (lvl : Nat) (ctx : C)
  | exit (lvl : Nat) (r : Res E)
  | wrote (m : M)
  | cb (ctx : C) (m : M)
  | cbExit (r : Res E)

/-- Execution state: the message variable, the outside world, the `called` variable of each closure
made by `wrapMiddlewares` (controller.tmpl:35), and the history of events. -/
structure St (C M X E : Type) where
  msg : M
  x : X
  called : Nat → Bool
  trace : List (Ev C M E)

/-- `called = true` (controller.tmpl:42 and :66). -/
def St.setCalled (s : St C M X E) (lvl : Nat) : St C M X E :=
  { s with called := fun j => if j = lvl then true else s.called j }

/-- Record an event. -/
def St.log (s : St C M X E) (e : Ev C M E) : St C M X E := { s with trace := s.trace ++ [e] }

/-- Run a middleware body, given the meaning of its `next` argument. -/
def runProg (next : C → St C M X E → Res E × St C M X E) :
    MProg C M E → St C M X E → Res E × St C M X E
  | .ret e, s => (.ret e, s)
  | .panic, s => (.panicked, s)
  | .read k, s => runProg next (k s.msg) s
  | .write m k, s => runProg next k (({ s with msg := m } : St C M X E).log (.wrote m))
  | .next ctx k, s =>
    match next ctx s with
    | (.ret e, s') => runProg next (k e) s'
    | (.panicked, s') => (.panicked, s')
  | .nextR ctx k, s =>
    match next ctx s with
    | (r, s') => runProg next (k r) s'

/-- The function returned by `wrapMiddlewares(middlewares, callback)`
(controller.tmpl:31-78), called with `ctx`; `lvl` is the position of the first of `middlewares` in the
controller's list. -/
def callLevel (cb : Option (Callback C M X E)) :
    List (Mw C M E) → Nat → C → St C M X E → Res E × St C M X E
  -- controller.tmpl:38-49
  | [], lvl, ctx, s =>
    match cb with
    | some f =>
      if !s.called lvl then
        let s1 := (s.setCalled lvl).log (.cb ctx s.msg)
        let (r, x') := f ctx s1.msg s1.x
        (r, ({ s1 with x := x' } : St C M X E).log (.cbExit r))
      else (.ret none, s)
    | none => (.ret none, s)
  -- controller.tmpl:52-77
  | mw :: rest, lvl, ctx, s =>
    if !s.called lvl then
      let s1 := (s.setCalled lvl).log (.enter lvl ctx)
      match runProg (callLevel cb rest (lvl + 1)) (mw ctx) s1 with
      | (.ret none, s2) => callLevel cb rest (lvl + 1) ctx (s2.log (.exit lvl (.ret none)))
      | (r, s2) => (r, s2.log (.exit lvl r))
    else (.ret none, s)

/-- State at the start of `executeMiddlewares`: fresh closures, all `called` false. -/
def St.start (m : M) (x : X) : St C M X E := ⟨m, x, fun _ => false, []⟩

/-- `executeMiddlewares` (controller.tmpl:80-86). -/
def executeMiddlewares (mws : List (Mw C M E)) (ctx : C) (m : M) (x : X)
    (cb : Option (Callback C M X E)) : Res E × St C M X E :=
  callLevel cb mws 0 ctx (St.start m x)

/-- `Logging` (pkg/extensions/middlewares/logging.go:10-25). The log output is not modelled. -/
def logging : Mw C M E := fun _ => .read (fun _ => .ret none)

/-- `Intercepter` (pkg/extensions/middlewares/intercepter.go:10-18). The copy sent on the channel is
not modelled, and the channel is assumed to accept it. -/
def intercepter : Mw C M E := fun _ => .read (fun _ => .ret none)

/-- `Recovery` (pkg/extensions/middlewares/recovery.go:12-24): a recovered panic makes the function
return its zero result, nil. -/
def recovery : Mw C M E := fun ctx => .nextR ctx (fun
  | .ret e => .ret e
  | .panicked => .ret none)

end Verif.Middleware
