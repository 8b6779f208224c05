import Verif.Model.Ack

/-! # C01: a received message is acknowledged at most once -/

namespace Verif.Ack

theorem run_acked (ks : List Kind) : ∀ s : St, s.acked = true → run s ks = s := by
  induction ks with
  | nil => intro s _; rfl
  | cons k ks ih =>
    intro s h
    have : step s k = s := by cases k <;> simp [step, h]
    rw [run, this, ih s h]

/-- **C01.** Whatever calls are made on a fresh message, the hooks invoked on the broker are exactly
the first call (if any): at most one hook, the one of the first call. -/
theorem C01_hooks_are_the_first_call (calls : List Kind) :
    (run init calls).hooks = calls.take 1 := by
  cases calls with
  | nil => rfl
  | cons k ks =>
    have : (step init k).acked = true := by cases k <;> rfl
    rw [run, run_acked ks _ this]
    cases k <;> rfl

/-- **C01**, counting form: at most one hook call in total. -/
theorem C01_at_most_one_hook (calls : List Kind) : (run init calls).hooks.length ≤ 1 := by
  rw [C01_hooks_are_the_first_call, List.length_take]; omega

/-- Non-vacuity: an error handler that naks, followed by the listener's own nak and a late ack. -/
example : (run init [.nak, .nak, .ack]).hooks = [.nak] := by decide
example : (run init [.ack, .nak]).hooks = [.ack] := by decide
example : (run init []).hooks = [] := by decide

end Verif.Ack
