import Verif.Model.JetCrash
import Verif.Model.Transport
import Verif.Props.JetStream
import Verif.Props.Listen

/-!
# C118: JetStream messages are not lost
-/

namespace Verif.JetCrash
open JetStream (PatternMatches)

/-! ## Specification -/

/-- A consumer acknowledged message `n`, as the first one to decide on it, and the server heard of it. -/
def Acked (subject : Nat → Str) (os : List Op) (n : Nat) : Prop :=
  ∃ pre i post g, os = pre ++ .decide i .ack true :: post ∧ (run subject init pre).proc.crashed = false ∧
    (run subject init pre).given[i]? = some g ∧ g.seq = n ∧ g.ack.acked = false

/-- The process was ready for message `n`, but had no subscription for its subject. -/
def Unwanted (subject : Nat → Str) (os : List Op) (n : Nat) : Prop :=
  ∃ pre order r post, os = pre ++ .deliver n order r true :: post ∧
    (run subject init pre).proc.crashed = false ∧ (run subject init pre).proc.consuming = true ∧
    (run subject init pre).blocked = false ∧ order.Perm ((run subject init pre).proc.chans.map (·.1)) ∧
    ∀ p ∈ (run subject init pre).proc.chans.map (·.1), ¬ PatternMatches p (subject n)

/-- Messages arrive only when the process has a subscription for them. -/
def Ready (subject : Nat → Str) (os : List Op) : Prop :=
  ∀ pre n order r ok post, os = pre ++ .deliver n order r ok :: post → (run subject init pre).proc.consuming = true →
    ∃ p ∈ (run subject init pre).proc.chans.map (·.1), PatternMatches p (subject n)

/-! ## Proofs -/

theorem run_append (subject : Nat → Str) (s : St) (a b : List Op) :
    run subject s (a ++ b) = run subject (run subject s a) b := by simp [run, List.foldl_append]

theorem snoc_cases {α : Type} {os pre post : List α} {o x : α} (h : os ++ [o] = pre ++ x :: post) :
    (post = [] ∧ pre = os ∧ x = o) ∨ ∃ post', post = post' ++ [o] ∧ os = pre ++ x :: post' := by
  rcases List.eq_nil_or_concat post with rfl | ⟨post', y, rfl⟩
  · have := List.append_inj' h rfl
    left
    exact ⟨rfl, this.1.symm, by simpa using this.2.symm⟩
  · rw [List.concat_eq_append] at h ⊢
    right
    have h' : os ++ [o] = (pre ++ x :: post') ++ [y] := by simpa using h
    have := List.append_inj' h' rfl
    have e : o = y := by simpa using this.2
    exact ⟨post', by rw [e], this.1⟩

theorem acked_snoc (subject : Nat → Str) (os : List Op) (o : Op) (n : Nat) :
    Acked subject (os ++ [o]) n ↔ Acked subject os n ∨ ∃ i g, o = .decide i .ack true ∧
      (run subject init os).proc.crashed = false ∧ (run subject init os).given[i]? = some g ∧ g.seq = n ∧ g.ack.acked = false := by
  constructor
  · rintro ⟨pre, i, post, g, e, hc, hg, h1, h2⟩
    rcases snoc_cases e with ⟨rfl, rfl, hx⟩ | ⟨post', rfl, he⟩
    · exact Or.inr ⟨i, g, hx.symm, hc, hg, h1, h2⟩
    · exact Or.inl ⟨pre, i, post', g, he, hc, hg, h1, h2⟩
  · rintro (⟨pre, i, post, g, e, h⟩ | ⟨i, g, e, h⟩)
    · exact ⟨pre, i, post ++ [o], g, by rw [e]; simp, h⟩
    · exact ⟨os, i, [], g, by rw [e], h⟩

theorem unwanted_snoc (subject : Nat → Str) (os : List Op) (o : Op) (n : Nat) :
    Unwanted subject (os ++ [o]) n ↔ Unwanted subject os n ∨ ∃ order r, o = .deliver n order r true ∧
      (run subject init os).proc.crashed = false ∧ (run subject init os).proc.consuming = true ∧
      (run subject init os).blocked = false ∧ order.Perm ((run subject init os).proc.chans.map (·.1)) ∧
      ∀ p ∈ (run subject init os).proc.chans.map (·.1), ¬ PatternMatches p (subject n) := by
  constructor
  · rintro ⟨pre, order, r, post, e, h⟩
    rcases snoc_cases e with ⟨rfl, rfl, hx⟩ | ⟨post', rfl, he⟩
    · exact Or.inr ⟨order, r, hx.symm, h⟩
    · exact Or.inl ⟨pre, order, r, post', he, h⟩
  · rintro (⟨pre, order, r, post, e, h⟩ | ⟨order, r, e, h⟩)
    · exact ⟨pre, order, r, post ++ [o], by rw [e]; simp, h⟩
    · exact ⟨os, order, r, [], by rw [e], h⟩

theorem hand_done (s : St) (n : Nat) (p : Str) (r : Nat) : (hand s n p r).done = s.done := by
  unfold hand
  split
  · rfl
  · dsimp only
    split <;> rfl

/-- The server takes `n` to be acknowledged after a step: it did before, or the step is one of two. -/
theorem done_step (subject : Nat → Str) (s : St) (o : Op) (n : Nat) : n ∈ (step subject s o).done ↔ n ∈ s.done ∨
    (∃ i g, o = .decide i .ack true ∧ s.proc.crashed = false ∧ s.given[i]? = some g ∧ g.seq = n ∧ g.ack.acked = false) ∨
    (n ∉ s.done ∧ ∃ order r, o = .deliver n order r true ∧ s.proc.crashed = false ∧ s.proc.consuming = true ∧ s.blocked = false ∧
      order.Perm (s.proc.chans.map (·.1)) ∧ ∀ p ∈ s.proc.chans.map (·.1), ¬ PatternMatches p (subject n)) := by
  cases o with
  | call o => simp [step]
  | crash => simp [step]
  | decide i k ok =>
    simp only [step]
    by_cases hc : s.proc.crashed = true
    · simp [hc]
    · rw [if_neg hc]
      have hc' : s.proc.crashed = false := by simpa using hc
      cases hg : s.given[i]? with
      | none =>
        simp only [Op.decide.injEq, reduceCtorEq, false_and, and_false, exists_false, or_false]
        constructor
        · exact Or.inl
        · rintro (h | ⟨i', g, ⟨rfl, _⟩, _, h, _⟩)
          · exact h
          · rw [hg] at h; cases h
      | some g =>
        simp only [Op.decide.injEq, reduceCtorEq, false_and, and_false, exists_false, or_false]
        split
        · rename_i hb
          simp only [Bool.and_eq_true, Bool.not_eq_true', decide_eq_true_eq] at hb
          rw [List.mem_cons]
          constructor
          · rintro (rfl | h)
            · exact Or.inr ⟨i, g, ⟨rfl, hb.1.2, hb.2⟩, hc', hg, rfl, hb.1.1⟩
            · exact Or.inl h
          · rintro (h | ⟨i', g', ⟨rfl, _⟩, _, h, h1, _⟩)
            · exact Or.inr h
            · rw [hg] at h; cases h; exact Or.inl h1.symm
        · rename_i hb
          simp only [Bool.and_eq_true, Bool.not_eq_true', decide_eq_true_eq] at hb
          constructor
          · exact Or.inl
          · rintro (h | ⟨i', g', ⟨rfl, hk, hok⟩, _, h, _, h2⟩)
            · exact h
            · rw [hg] at h; cases h; exact absurd ⟨⟨h2, hk⟩, hok⟩ hb
  | deliver m order r ok =>
    simp only [step, Op.deliver.injEq, reduceCtorEq, false_and, exists_false, false_or]
    split
    · rename_i hb
      simp only [Bool.or_eq_true, Bool.not_eq_true', decide_eq_true_eq] at hb
      constructor
      · exact Or.inl
      · rintro (h | ⟨hn, order', r', ⟨rfl, rfl, rfl, rfl⟩, h1, h2, h3, h4, _⟩)
        · exact h
        · rw [← List.isPerm_iff] at h4
          rcases hb with (((hb | hb) | hb) | hb) | hb
          · rw [h1] at hb; cases hb
          · rw [h3] at hb; cases hb
          · rw [h2] at hb; cases hb
          · exact hb
          · rw [h4] at hb; cases hb
    · rename_i hb
      simp only [Bool.or_eq_true, Bool.not_eq_true', decide_eq_true_eq, not_or, Bool.not_eq_true, Bool.not_eq_false] at hb
      obtain ⟨⟨⟨⟨h1, h3⟩, h2⟩, hn⟩, h4⟩ := hb
      rw [List.isPerm_iff] at h4
      unfold deliver
      rcases JetStream.C31_routed_to_a_match (subject m) order with ⟨p, hp, hm, e⟩ | ⟨hm, e⟩
      · rw [e]
        simp only [hand_done]
        constructor
        · exact Or.inl
        · rintro (h | ⟨_, order', r', ⟨rfl, rfl, rfl, rfl⟩, _, _, _, _, h5⟩)
          · exact h
          · exact absurd hm (h5 p (h4.mem_iff.1 hp))
      · rw [e]
        dsimp only
        cases ok with
        | false =>
          simp only [Bool.false_eq_true, if_false, and_false, false_and, exists_false, or_false]
        | true =>
          simp only [if_true, List.mem_cons]
          constructor
          · rintro (rfl | h)
            · by_cases hd : n ∈ s.done
              · exact Or.inl hd
              · exact Or.inr ⟨hd, order, r, ⟨rfl, rfl, rfl, trivial⟩, h1, h2, h3, h4,
                  fun p hp => hm p (h4.mem_iff.2 hp)⟩
            · exact Or.inl h
          · rintro (h | ⟨_, order', r', ⟨rfl, _⟩, _⟩)
            · exact Or.inr h
            · exact Or.inl rfl

/-- **C118, exactly which messages are gone.** At any point of any history, over any number of crashes, the server has given a
message up if and only if a consumer acknowledged it, or it arrived while the process had no subscription for it. -/
theorem C118_gone_exactly (subject : Nat → Str) (os : List Op) (n : Nat) :
    n ∈ (run subject init os).done ↔ Acked subject os n ∨ Unwanted subject os n := by
  have key : ∀ m (os : List Op), os.length = m →
      (n ∈ (run subject init os).done ↔ Acked subject os n ∨ Unwanted subject os n) := by
    intro m
    induction m with
    | zero =>
      intro os hl
      have : os = [] := List.length_eq_zero_iff.1 hl
      subst this
      constructor
      · intro h; simp [run, init] at h
      · rintro (⟨pre, i, post, g, e, _⟩ | ⟨pre, order, r, post, e, _⟩)
        · cases pre <;> cases e
        · cases pre <;> cases e
    | succ m ih =>
      intro os hl
      rcases List.eq_nil_or_concat os with rfl | ⟨pre, o, rfl⟩
      · simp at hl
      · rw [List.concat_eq_append] at *
        have hi := ih pre (by simpa using hl)
        have hs : run subject init (pre ++ [o]) = step subject (run subject init pre) o := by rw [run_append]; rfl
        rw [hs, done_step, acked_snoc, unwanted_snoc, hi]
        constructor
        · rintro ((h | h) | h | ⟨_, h⟩)
          · exact Or.inl (Or.inl h)
          · exact Or.inr (Or.inl h)
          · exact Or.inl (Or.inr h)
          · exact Or.inr (Or.inr h)
        · rintro ((h | h) | (h | h))
          · exact Or.inl (Or.inl h)
          · exact Or.inr (Or.inl h)
          · exact Or.inl (Or.inr h)
          · by_cases hd : Acked subject pre n ∨ Unwanted subject pre n
            · exact Or.inl hd
            · exact Or.inr (Or.inr ⟨hd, h⟩)
  exact key _ os rfl

theorem ready_snoc (subject : Nat → Str) (os : List Op) (o : Op) (h : Ready subject os)
    (ho : ∀ n order r ok, o = .deliver n order r ok → ∃ p ∈ (run subject init os).proc.chans.map (·.1), PatternMatches p (subject n)) :
    Ready subject (os ++ [o]) := by
  intro pre n order r ok post e hc
  rcases snoc_cases e with ⟨rfl, rfl, hx⟩ | ⟨post', rfl, he⟩
  · exact ho n order r ok hx.symm
  · exact h pre n order r ok post' he hc

/-- **C118 (partial).** If messages arrive only when the process has a subscription for them, the server gives up none that no
consumer acknowledged. Missing for the full claim: messages that arrive while some subscriptions are not made yet. -/
theorem C118_no_loss_partial (subject : Nat → Str) (os : List Op) (hr : Ready subject os) (n : Nat)
    (h : n ∈ (run subject init os).done) : Acked subject os n := by
  rcases (C118_gone_exactly subject os n).1 h with h | ⟨pre, order, r, post, e, _, hc, _, _, hn⟩
  · exact h
  · obtain ⟨p, hp, hm⟩ := hr pre n order r true post e hc
    exact absurd hm (hn p hp)

/-- A message that the server has not given up is given to the next process that subscribes to it. -/
theorem C118_given_again (subject : Nat → Str) (os : List Op) (n : Nat) (hn : n ∉ (run subject init os).done) (p : Str)
    (hp : PatternMatches p (subject n)) (r : Nat) (ok : Bool) :
    ∃ g, (run subject init (os ++ [.crash, .call (.subscribe p true), .deliver n [p] r ok])).given = [g] ∧ g.seq = n ∧
      g.ack = Ack.init ∧ (g.sub, p) ∈ (run subject init (os ++ [.crash, .call (.subscribe p true)])).proc.subs := by
  have hs : step subject (step subject (run subject init os) .crash) (.call (.subscribe p true)) =
      { proc := { chans := [(p, 0)], readers := [(1, 0)], subs := [(1, p)], consuming := true, next := 2, crashed := false },
        done := (run subject init os).done } := by
    simp [step, JetStream.step, JetStream.subscribe, JetStream.ensureQueue, GoMap.put]
    rfl
  have e2 : run subject init (os ++ [.crash, .call (.subscribe p true)]) =
      step subject (step subject (run subject init os) .crash) (.call (.subscribe p true)) := by
    rw [run_append]; rfl
  have e3 : run subject init (os ++ [.crash, .call (.subscribe p true), .deliver n [p] r ok]) =
      step subject (step subject (step subject (run subject init os) .crash) (.call (.subscribe p true))) (.deliver n [p] r ok) := by
    rw [run_append]; rfl
  rw [e3, e2, hs]
  refine ⟨⟨n, 1, Ack.init⟩, ?_, rfl, rfl, by simp⟩
  rcases JetStream.C31_routed_to_a_match (subject n) [p] with ⟨q, hq, _, e⟩ | ⟨hm, _⟩
  · rw [List.mem_singleton] at hq
    subst hq
    have hperm : [q].isPerm ([(q, 0)].map (fun e : Str × Nat => e.1)) = true := List.isPerm_iff.2 (List.Perm.refl _)
    simp only [step, Bool.or_false, Bool.not_true, Bool.false_or, hperm, decide_eq_true_eq, hn, if_false, deliver, e]
    simp [hand, GoMap.get, Nat.mod_one]
  · exact absurd hp (hm p (List.mem_singleton.2 rfl))

theorem done_mono (subject : Nat → Str) : ∀ (os : List Op) (s : St) (n : Nat), n ∈ s.done → n ∈ (run subject s os).done
  | [], _, _, h => h
  | o :: os, s, n, h => done_mono subject os _ n ((done_step subject s o n).2 (Or.inl h))

theorem hand_given (s : St) (n : Nat) (p : Str) (r : Nat) (g : Given) (h : g ∈ (hand s n p r).given) : g ∈ s.given ∨ g.seq = n := by
  unfold hand at h
  split at h
  · exact Or.inl h
  · dsimp only at h
    split at h
    · exact Or.inl h
    · rcases List.mem_append.1 h with h | h
      · exact Or.inl h
      · rw [List.mem_singleton] at h
        rw [h]
        exact Or.inr rfl

theorem given_step (subject : Nat → Str) (s : St) (o : Op) (n : Nat) (hd : n ∈ s.done) (h : ∀ g ∈ s.given, g.seq ≠ n) :
    ∀ g ∈ (step subject s o).given, g.seq ≠ n := by
  intro g hg
  cases o with
  | call o => exact h g hg
  | crash => simp [step] at hg
  | decide i k ok =>
    simp only [step] at hg
    split at hg
    · exact h g hg
    · split at hg
      · exact h g hg
      · rename_i g' e
        rcases List.mem_or_eq_of_mem_set hg with hg | rfl
        · exact h g hg
        · exact h g' (List.mem_of_getElem? e)
  | deliver m order r ok =>
    simp only [step] at hg
    split at hg
    · exact h g hg
    · rename_i hb
      simp only [Bool.or_eq_true, Bool.not_eq_true', decide_eq_true_eq, not_or, Bool.not_eq_true, Bool.not_eq_false] at hb
      have hm : m ≠ n := fun e => hb.1.2 (e ▸ hd)
      unfold deliver at hg
      split at hg
      · exact h g hg
      · split at hg <;> exact h g hg
      · rcases hand_given _ _ _ _ _ hg with hg | e
        · exact h g hg
        · rw [e]; exact hm

/-- A message that the server has given up is given to no later process, and not again to this one. -/
theorem C118_not_again (subject : Nat → Str) (os : List Op) (n : Nat) (h : n ∈ (run subject init os).done) (more : List Op) :
    ∀ g ∈ (run subject init (os ++ .crash :: more)).given, g.seq ≠ n := by
  have key : ∀ (more : List Op) (s : St), n ∈ s.done → (∀ g ∈ s.given, g.seq ≠ n) → ∀ g ∈ (run subject s more).given, g.seq ≠ n := by
    intro more
    induction more with
    | nil => exact fun s _ h => h
    | cons o more ih =>
      intro s hd hg
      exact ih _ ((done_step subject s o n).2 (Or.inl hd)) (given_step subject s o n hd hg)
  rw [run_append]
  exact key more (step subject (run subject init os) .crash) h (by simp [step])

/-! ### The generated listeners -/

/-- What the listener of subscription `sub` makes of messages; `log` is the content of the stream. -/
def Listened {C D E : Type} (env : Nat → Listen.Env C D E) (log : Nat → BrokerMessage) (subject : Nat → Str) (os : List Op) : Prop :=
  ∀ pre i k ok post g, os = pre ++ .decide i k ok :: post → (run subject init pre).given[i]? = some g →
    k ∈ (Listen.handle (env g.sub) (log g.seq)).w.ack.hooks

/-- **C118 for generated controllers (partial).** Whatever crashes happen: a message that the server has given up was handled
without an error, or it arrived while there was no subscription for it. -/
theorem C118_listener_partial {C D E : Type} (env : Nat → Listen.Env C D E) (log : Nat → BrokerMessage) (subject : Nat → Str)
    (os : List Op) (hl : Listened env log subject os) (heh : ∀ s m e, Ack.Kind.ack ∉ (env s).eh m e) (n : Nat)
    (h : n ∈ (run subject init os).done) :
    (∃ sub, Listen.HandledOk (env sub) (Listen.handle (env sub) (log n)).trace) ∨ Unwanted subject os n := by
  rcases (C118_gone_exactly subject os n).1 h with ⟨pre, i, post, g, e, _, hg, rfl, _⟩ | h
  · exact Or.inl ⟨g.sub, Listen.C11_ack_only_after_success _ _ (heh g.sub) (hl pre i .ack true post g e hg)⟩
  · exact Or.inr h

/-! ## Violations -/

/-- **C118 is violated** for every program that subscribes to two channels: a message of the second one that is delivered when
only the first subscription is made is acknowledged by the controller. It is given to nobody, ever, although nobody decided on
it. Since a new process makes its subscriptions one after the other, every crash and every restart can lose messages that way,
also those that an earlier process was given. -/
theorem C118_violated_startup (subject : Nat → Str) (os : List Op) (a b : Str) (n r : Nat)
    (hn : ¬ Acked subject os n) (ha : ¬ PatternMatches a (subject n)) (more : List Op) :
    let hist := os ++ [.crash, .call (.subscribe a true), .deliver n [a] r true]
    n ∈ (run subject init hist).done ∧ ¬ Acked subject hist n ∧
    ∀ g ∈ (run subject init (hist ++ .call (.subscribe b true) :: more)).given, g.seq ≠ n := by
  intro hist
  have hs : step subject (step subject (run subject init os) .crash) (.call (.subscribe a true)) =
      { proc := { chans := [(a, 0)], readers := [(1, 0)], subs := [(1, a)], consuming := true, next := 2, crashed := false },
        done := (run subject init os).done } := by
    simp [step, JetStream.step, JetStream.subscribe, JetStream.ensureQueue, GoMap.put]
    rfl
  have e3 : run subject init hist =
      step subject (step subject (step subject (run subject init os) .crash) (.call (.subscribe a true))) (.deliver n [a] r true) := by
    show run subject init (os ++ _) = _
    rw [run_append]; rfl
  have hg : (run subject init hist).given = [] ∧ n ∈ (run subject init hist).done := by
    rw [e3, hs]
    rcases JetStream.C31_routed_to_a_match (subject n) [a] with ⟨q, hq, hm, _⟩ | ⟨_, e⟩
    · rw [List.mem_singleton] at hq
      exact absurd (hq ▸ hm) ha
    · simp only [step]
      split
      · rename_i hb
        have hperm : [a].isPerm ([(a, 0)].map (fun e : Str × Nat => e.1)) = true := List.isPerm_iff.2 (List.Perm.refl _)
        simp only [Bool.or_false, Bool.not_true, Bool.false_or, hperm, decide_eq_true_eq] at hb
        exact ⟨rfl, hb⟩
      · simp only [deliver, e, if_true, List.mem_cons, true_or, and_true]
  refine ⟨hg.2, ?_, ?_⟩
  · rintro ⟨pre, i, post, g, e, h⟩
    have e' : (((os ++ [.crash]) ++ [.call (.subscribe a true)]) ++ [.deliver n [a] r true]) = pre ++ .decide i .ack true :: post := by
      rw [← e]; simp [hist]
    rcases snoc_cases e' with ⟨_, _, hx⟩ | ⟨p1, _, e1⟩
    · cases hx
    rcases snoc_cases e1 with ⟨_, _, hx⟩ | ⟨p2, _, e2⟩
    · cases hx
    rcases snoc_cases e2 with ⟨_, _, hx⟩ | ⟨p3, _, e3⟩
    · cases hx
    exact hn ⟨pre, i, p3, g, e3, h⟩
  · rw [run_append]
    have key : ∀ (more : List Op) (s : St), n ∈ s.done → (∀ g ∈ s.given, g.seq ≠ n) →
        ∀ g ∈ (run subject s more).given, g.seq ≠ n := by
      intro more
      induction more with
      | nil => exact fun s _ h => h
      | cons o more ih =>
        intro s hd hg
        exact ih _ ((done_step subject s o n).2 (Or.inl hd)) (given_step subject s o n hd hg)
    exact key _ _ hg.2 (by rw [hg.1]; intro g hg; cases hg)

/-! ## Two channels -/

def orders : Str := "orders".toList
def bills : Str := "bills".toList
/-- Message 0 is an order, all others are bills. -/
def subject0 : Nat → Str := fun n => if n = 0 then orders else bills

/-- The process is given a bill, crashes, and the next one is given it again: C118 holds as long as all subscriptions are made. -/
def good : List Op := [.call (.subscribe orders true), .call (.subscribe bills true), .deliver 1 [bills, orders] 0 true, .crash,
  .call (.subscribe bills true), .deliver 1 [bills] 0 true, .decide 0 .ack true]

example : (run subject0 init good).done = [1] := by decide

example : Ready subject0 good := by
  have h1 : PatternMatches bills (subject0 1) := by
    rw [← JetStream.matchSubject_true]
    decide
  have hd : ∀ (os : List Op) (m : Nat) (order : List Str) (q : Nat) (b : Bool), m = 1 →
      bills ∈ (run subject0 init os).proc.chans.map (·.1) → ∀ n order' r ok, Op.deliver m order q b = .deliver n order' r ok →
      ∃ p ∈ (run subject0 init os).proc.chans.map (·.1), PatternMatches p (subject0 n) := by
    intro os m order q b hm hb n order' r ok e
    cases e
    exact ⟨bills, hb, hm ▸ h1⟩
  show Ready subject0 ((((((([] ++ [_]) ++ [_]) ++ [_]) ++ [_]) ++ [_]) ++ [_]) ++ [_])
  refine ready_snoc _ _ _ (ready_snoc _ _ _ (ready_snoc _ _ _ (ready_snoc _ _ _ (ready_snoc _ _ _ (ready_snoc _ _ _
    (ready_snoc _ _ _ ?_ nofun) nofun) (hd _ 1 _ _ _ rfl (by decide))) nofun) nofun) (hd _ 1 _ _ _ rfl (by decide))) nofun
  intro pre n order r ok post e
  cases pre <;> cases e

/-- Refused messages come again. -/
example : ((run subject0 init [.call (.subscribe bills true), .deliver 2 [bills] 0 true, .decide 0 .nak true,
    .deliver 2 [bills] 0 true]).given.map (·.seq), (run subject0 init [.call (.subscribe bills true), .deliver 2 [bills] 0 true,
    .decide 0 .nak true, .deliver 2 [bills] 0 true]).done) = ([2, 2], []) := by decide

/-- The bill was given to the first process, which crashed, and is lost by the next one. -/
example : (run subject0 init [.call (.subscribe orders true), .call (.subscribe bills true), .deliver 1 [bills, orders] 0 true, .crash,
    .call (.subscribe orders true), .deliver 1 [orders] 0 true, .call (.subscribe bills true), .deliver 1 [orders, bills] 0 true]).given = [] := by
  decide

example : ¬ PatternMatches orders (subject0 1) := by
  rw [← JetStream.matchSubject_false]
  decide

/-- Listeners with a handler that succeeds. -/
example : Listened (fun _ => Listen.demoEnv [] (fun _ => .ret none)) (fun _ => ⟨none, some [1]⟩) subject0
    [.call (.subscribe bills true), .deliver 2 [bills] 0 true, .decide 0 .ack true] := by
  intro pre i k ok post g e _
  have hk : k = .ack := by
    have hm : Op.decide i k ok ∈ [Op.call (.subscribe bills true), .deliver 2 [bills] 0 true, .decide 0 .ack true] := by
      rw [e]; simp
    simp only [List.mem_cons, reduceCtorEq, Op.decide.injEq, List.not_mem_nil, or_false, false_or] at hm
    exact hm.2.1
  rw [hk]
  show Ack.Kind.ack ∈ (Listen.handle (Listen.demoEnv [] (fun _ => .ret none)) ⟨none, some [1]⟩).w.ack.hooks
  decide

end Verif.JetCrash
