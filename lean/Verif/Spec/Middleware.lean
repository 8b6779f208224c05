import Verif.Model.Middleware

/-!
# What users expect of the middleware chain (C06–C10)
-/

namespace Verif.Middleware

variable {C M X E : Type}

/-- What got started: middleware `i`, or the operation. -/
inductive Start
  | mw (i : Nat)
  | op
  deriving DecidableEq, Repr

/-- The starts in a history, oldest first. -/
def starts : List (Ev C M E) → List Start
  | [] => []
  | .enter i _ :: t => .mw i :: starts t
  | .cb _ _ :: t => .op :: starts t
  | _ :: t => starts t

/-- The only allowed order: every middleware once, in registration order, then the operation once. -/
def fullOrder (n : Nat) : List Start := (List.range n).map .mw ++ [.op]

/-- Executions of the operation in a history: context and message it was given. -/
def opRuns : List (Ev C M E) → List (C × M)
  | [] => []
  | .cb c m :: t => (c, m) :: opRuns t
  | _ :: t => opRuns t

/-- Outcomes of the executions of the operation in a history. -/
def opOutcomes : List (Ev C M E) → List (Res E)
  | [] => []
  | .cbExit r :: t => r :: opOutcomes t
  | _ :: t => opOutcomes t

/-- The message according to the history: the last one written, or the initial one. -/
def lastWritten (m0 : M) : List (Ev C M E) → M
  | [] => m0
  | .wrote m :: t => lastWritten m t
  | _ :: t => lastWritten m0 t

/-- No middleware returned an error or panicked. -/
def AllMwOk (t : List (Ev C M E)) : Prop := ∀ i r, .exit i r ∈ t → r = .ret none

/-- A middleware body that reports failures of `next`: if some call of `next` returned an error or
panicked, the body does not return nil. `failed` says whether one did so far. -/
def Reports : Bool → MProg C M E → Prop
  | failed, .ret e => failed = true → e ≠ none
  | _, .panic => True
  | failed, .read k => ∀ m, Reports failed (k m)
  | failed, .write _ k => Reports failed k
  | failed, .next _ k => ∀ r, Reports (failed || r.isSome) (k r)
  | failed, .nextR _ k =>
    (∀ r, Reports (failed || r.isSome) (k (.ret r))) ∧ Reports true (k .panicked)

/-- A middleware body that passes the outcome of `next` on unchanged and fails in no other way. `e`
is the error seen so far. -/
def PassesOn : Option E → MProg C M E → Prop
  | e, .ret e' => e' = e
  | _, .panic => False
  | e, .read k => ∀ m, PassesOn e (k m)
  | e, .write _ k => PassesOn e k
  | e, .next _ k => ∀ r, PassesOn (r.or e) (k r)
  | e, .nextR _ k => (∀ r, PassesOn (r.or e) (k (.ret r))) ∧ k .panicked = .panic

/-- The one-shot semantics a reader of the documentation has in mind
(pkg/extensions/middleware.go:5-19): the first call of `next` runs the rest of the chain, further
calls do nothing and return nil; if the middleware returns nil without having called `next`, the rest
of the chain runs then. No flags, no levels, no history. The `Bool` says whether the rest of the
chain has run. -/
def specProg (rest : C → M × X → Res E × (M × X)) :
    MProg C M E → Bool → M × X → Res E × Bool × (M × X)
  | .ret e, ran, s => (.ret e, ran, s)
  | .panic, ran, s => (.panicked, ran, s)
  | .read k, ran, s => specProg rest (k s.1) ran s
  | .write m k, ran, s => specProg rest k ran (m, s.2)
  | .next ctx k, false, s =>
    match rest ctx s with
    | (.ret e, s') => specProg rest (k e) true s'
    | (.panicked, s') => (.panicked, true, s')
  | .next _ k, true, s => specProg rest (k none) true s
  | .nextR ctx k, false, s =>
    match rest ctx s with
    | (r, s') => specProg rest (k r) true s'
  | .nextR _ k, true, s => specProg rest (k (.ret none)) true s

/-- One-shot semantics of a chain, see `specProg`. -/
def specChain (cb : Option (Callback C M X E)) :
    List (Mw C M E) → C → M × X → Res E × (M × X)
  | [], ctx, s =>
    match cb with
    | some f => match f ctx s.1 s.2 with
      | (r, x') => (r, (s.1, x'))
    | none => (.ret none, s)
  | mw :: rest, ctx, s =>
    match specProg (specChain cb rest) (mw ctx) false s with
    | (.ret none, false, s') => specChain cb rest ctx s'
    | (r, _, s') => (r, s')

end Verif.Middleware
