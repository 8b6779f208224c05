import Verif.Model.Lifetimes
import Verif.Spec.Versioning

/-!
# What contexts should mean for subscriptions (C116)

The directory of `Verif.Versioning.Spec`, to which contexts are added: those of the subscriptions, and, for each channel,
the one of the subscription that was the first since the channel had none.
-/

namespace Verif.Lifetimes.Spec
open Versioning (Cfg Out)
open Versioning.Spec (Dir)

structure Life where
  d : Dir := {}
  first : GoMap String Nat := []
  ended : List Nat := []

/-- The call without contexts; ends of contexts are no calls. -/
def erase : Op → Option Versioning.Op
  | .subscribe ch ver _ ok => some (.subscribe ch ver ok)
  | .cancel ch v => some (.cancel ch v)
  | .deliver ch m => some (.deliver ch m)
  | .endCtx _ | .observe _ => none

/-- One call or event: contexts do not matter. -/
def step (cfg : Cfg) (l : Life) : Op → Life × Out
  | .subscribe ch ver ctx ok =>
    let r := Versioning.Spec.subscribe l.d ch ver ok
    ({ l with d := r.1, first := if !l.d.used ch && r.1.used ch then l.first.put ch ctx else l.first }, r.2)
  | .cancel ch v => ({ l with d := { l.d with reg := l.d.reg.del (ch, v) } }, .done)
  | .deliver ch m => ({ l with d := Versioning.Spec.deliver cfg l.d ch m }, .done)
  | .endCtx c => ({ l with ended := c :: l.ended }, .done)
  | .observe _ => (l, .done)

def run (cfg : Cfg) (l : Life) : List Op → Life × List Out
  | [] => (l, [])
  | o :: os =>
    let r := step cfg l o
    let rest := run cfg r.1 os
    (rest.1, r.2 :: rest.2)

/-- As `Versioning.Spec.Known`: the versions met are registered. -/
def Known (cfg : Cfg) (l : Life) : List Op → Prop
  | [] => True
  | o :: os =>
    (match o with
      | .deliver ch m => l.d.used ch = true → ∀ v, Versioning.Spec.IsVersion cfg m v → (l.d.reg.get (ch, v)).isSome
      | _ => True) ∧ Known cfg (step cfg l o).1 os

/-- As long as a channel is used, the context of the subscription that was first on it lasts. -/
def Lasting (cfg : Cfg) (l : Life) : List Op → Prop
  | [] => True
  | o :: os => (∀ ch c, l.d.used ch = true → l.first.get ch = some c → c ∉ l.ended) ∧ Lasting cfg (step cfg l o).1 os

end Verif.Lifetimes.Spec
