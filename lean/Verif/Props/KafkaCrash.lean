import Verif.Model.KafkaCrash
import Verif.Props.Kafka
import Verif.Props.Listen

/-! # C83: crashes lose no message -/

namespace Verif.KafkaCrash

open Verif.Transport (KafkaMsg kafkaDecode)

/-! ## Specification -/

/-- Message `i` of the current process was decided on. -/
def Done (s : St) (i : Nat) : Prop := ∃ d, s.sess.delivered[i]? = some d ∧ d.ack.acked = true

/-- Messages are decided on in the order in which they were delivered. -/
def InOrder (cfg : Cfg) (log : Nat → KafkaMsg) (os : List Op) : Prop :=
  ∀ pre i k ok post, os = pre ++ .decide i k ok :: post → ∀ j, j < i → Done (run cfg log init pre) j

/-- The messages this process was given. -/
def given (s : St) : List BrokerMessage := s.sess.delivered.map (·.message)

/-! ## Proofs -/

theorem run_append (cfg : Cfg) (log : Nat → KafkaMsg) (s : St) (a b : List Op) :
    run cfg log s (a ++ b) = run cfg log (run cfg log s a) b := by simp [run, List.foldl_append]

/-- What one decision does to the subscription. -/
theorem decide_sess (t : Kafka.St) (ht : Kafka.Inv t) (i : Nat) (k : Ack.Kind) :
    (∀ j, (∃ d, (Kafka.step false t (.decide i k)).delivered[j]? = some d ∧ d.ack.acked = true) ↔
      (∃ d, t.delivered[j]? = some d ∧ d.ack.acked = true) ∨ (j = i ∧ i < t.delivered.length)) ∧
    (Kafka.step false t (.decide i k)).delivered.length = t.delivered.length ∧
    (Kafka.step false t (.decide i k)).commits.drop t.commits.length =
      (if ∃ d, t.delivered[i]? = some d ∧ d.ack.acked = false then [i] else []) := by
  simp only [Kafka.step]
  cases hd : t.delivered[i]? with
  | none =>
    have hge : t.delivered.length ≤ i := by
      rcases Nat.lt_or_ge i t.delivered.length with h | h
      · rw [List.getElem?_eq_getElem h] at hd; cases hd
      · exact h
    refine ⟨fun j => ⟨Or.inl, ?_⟩, rfl, ?_⟩
    · rintro (h | ⟨_, h⟩)
      · exact h
      · omega
    · simp
  | some d =>
    have hlt : i < t.delivered.length := by
      rcases Nat.lt_or_ge i t.delivered.length with h | h
      · exact h
      · rw [List.getElem?_eq_none h] at hd; cases hd
    have hf := ht.flag i d hd
    obtain ⟨h1, h2⟩ := Kafka.ack_step_len d.ack k hf
    refine ⟨fun j => ?_, by simp, ?_⟩
    · simp only [List.getElem?_set]
      by_cases hij : i = j
      · subst hij
        simp only [if_true, hlt]
        constructor
        · intro _; simp
        · intro _; exact ⟨_, rfl, h1⟩
      · simp only [hij, if_false]
        constructor
        · exact Or.inl
        · rintro (h | ⟨h, _⟩)
          · exact h
          · exact absurd h.symm hij
    · simp only [Kafka.newCommits d.ack k i hf, List.drop_left]
      have : d.ack.hooks.length = 0 ↔ d.ack.acked = false := by
        cases ha : d.ack.acked with
        | true => have := hf.1.1 ha; simp [this]
        | false =>
          have h3 : ¬ d.ack.hooks.length = 1 := fun h => by rw [hf.1.2 h] at ha; cases ha
          have := hf.2
          simp only [iff_true]; omega
      simp [this]

/-- What one read does to the subscription. -/
theorem read_sess (auto : Bool) (t : Kafka.St) (r : Kafka.Read) :
    (∀ j : Nat, (∃ d, (Kafka.step auto t (.read r)).delivered[j]? = some d ∧ d.ack.acked = true) ↔
      (∃ d, t.delivered[j]? = some d ∧ d.ack.acked = true)) ∧
    t.delivered.length ≤ (Kafka.step auto t (.read r)).delivered.length := by
  simp only [Kafka.step]
  split
  · exact ⟨fun _ => Iff.rfl, Nat.le_refl _⟩
  · cases r with
    | eof => exact ⟨fun _ => Iff.rfl, Nat.le_refl _⟩
    | error => exact ⟨fun _ => Iff.rfl, Nat.le_refl _⟩
    | msg m =>
      refine ⟨fun j => ?_, by simp⟩
      simp only
      rcases Nat.lt_trichotomy j t.delivered.length with h | h | h
      · rw [List.getElem?_append_left h]
      · subst h
        simp [Ack.init]
      · rw [List.getElem?_append_right (by omega), List.getElem?_eq_none (by omega : t.delivered.length ≤ j)]
        have : j - t.delivered.length ≠ 0 := by omega
        cases hj : j - t.delivered.length with
        | zero => omega
        | succ n => simp

theorem sessInv_step (cfg : Cfg) (hc : cfg.auto = false) (log : Nat → KafkaMsg) (s : St) (o : Op) (h : Kafka.Inv s.sess) :
    Kafka.Inv (step cfg log s o).sess := by
  cases o with
  | read ok => simp only [step, hc]; exact Kafka.inv_step h _
  | decide i k ok => simp only [step, hc]; exact Kafka.inv_step h _
  | crash => exact Kafka.inv_init

theorem stored_nil (old base : Nat) : stored old base [] = old := rfl

theorem stored_one (old base j : Nat) : stored old base [j] = base + j + 1 := rfl

/-- What holds at every point of a history with decisions in order: everything before the stored offset, and before the
start of the process, was decided on. -/
structure Safe (s : St) : Prop where
  sess : Kafka.Inv s.sess
  committed : ∀ n, n < s.committed → n ∈ s.decided
  base : ∀ n, n < s.base → n ∈ s.decided
  done : ∀ j, Done s j → s.base + j ∈ s.decided

theorem safe_step (cfg : Cfg) (hc : cfg.auto = false) (log : Nat → KafkaMsg) (s : St) (o : Op) (h : Safe s)
    (ho : ∀ i k ok, o = .decide i k ok → ∀ j, j < i → Done s j) : Safe (step cfg log s o) := by
  refine ⟨sessInv_step cfg hc log s o h.sess, ?_, ?_, ?_⟩
  · cases o with
    | read ok => simpa only [step, hc, Bool.false_and, Bool.false_eq_true, if_false] using h.committed
    | crash => exact h.committed
    | decide i k ok =>
      obtain ⟨_, _, h3⟩ := decide_sess s.sess h.sess i k
      simp only [step, hc, h3]
      have old : ∀ n, n < s.committed → n ∈ (if i < s.sess.delivered.length then s.decided ++ [s.base + i] else s.decided) := by
        intro n hn
        split
        · exact List.mem_append_left _ (h.committed n hn)
        · exact h.committed n hn
      split
      · split
        · rename_i hd
          obtain ⟨d, hd, _⟩ := hd
          have hlt : i < s.sess.delivered.length := by
            rcases Nat.lt_or_ge i s.sess.delivered.length with h | h
            · exact h
            · rw [List.getElem?_eq_none h] at hd; cases hd
          rw [stored_one, if_pos hlt]
          intro n hn
          rw [List.mem_append, List.mem_singleton]
          by_cases hb : n < s.base
          · exact Or.inl (h.base n hb)
          · by_cases hi : n = s.base + i
            · exact Or.inr hi
            · left
              have := h.done (n - s.base) (ho i k ok rfl (n - s.base) (by omega))
              rwa [show s.base + (n - s.base) = n by omega] at this
        · rw [stored_nil]; exact old
      · exact old
  · cases o with
    | read ok => exact h.base
    | crash =>
      simp only [step]
      split
      · exact h.committed
      · intro n hn; omega
    | decide i k ok =>
      intro n hn
      simp only [step]
      split
      · exact List.mem_append_left _ (h.base n hn)
      · exact h.base n hn
  · cases o with
    | read ok => intro j hj; exact h.done j ((read_sess cfg.auto _ _).1 j |>.1 hj)
    | crash => rintro j ⟨d, hd, _⟩; simp [step] at hd
    | decide i k ok =>
      intro j hj
      simp only [Done, step, hc] at hj
      obtain ⟨h1, _, _⟩ := decide_sess s.sess h.sess i k
      simp only [step]
      rcases (h1 j).1 hj with hj | ⟨rfl, hlt⟩
      · split
        · exact List.mem_append_left _ (h.done j hj)
        · exact h.done j hj
      · rw [if_pos hlt]; simp

theorem safe_run (cfg : Cfg) (hc : cfg.auto = false) (log : Nat → KafkaMsg) (os : List Op) (ho : InOrder cfg log os) :
    Safe (run cfg log init os) := by
  have key : ∀ n (os : List Op), os.length = n → InOrder cfg log os → Safe (run cfg log init os) := by
    intro n
    induction n with
    | zero =>
      intro os hl _
      have : os = [] := List.length_eq_zero_iff.1 hl
      subst this
      exact ⟨Kafka.inv_init, by simp [run, init], by simp [run, init], by simp [run, init, Done]⟩
    | succ n ih =>
      intro os hl ho
      rcases List.eq_nil_or_concat os with rfl | ⟨pre, o, rfl⟩
      · simp at hl
      · rw [List.concat_eq_append] at *
        have hp : InOrder cfg log pre := by
          intro p i k ok post e
          exact ho p i k ok (post ++ [o]) (by rw [e]; simp)
        rw [run_append]
        refine safe_step cfg hc log _ o (ih pre (by simpa using hl) hp) ?_
        intro i k ok e
        exact ho pre i k ok [] (by rw [e])
  exact key _ os rfl ho

/-- **C83, partial**: with manual commits and decisions in order, Kafka never stores an offset behind which a message
is undecided, at any point of any history, whatever commits fail and however often the process crashes. -/
theorem C83_partial (cfg : Cfg) (hc : cfg.auto = false) (log : Nat → KafkaMsg) (os : List Op) (ho : InOrder cfg log os) (n : Nat)
    (hn : n < (run cfg log init os).committed) : n ∈ (run cfg log init os).decided :=
  (safe_run cfg hc log os ho).committed n hn

theorem given_reads (cfg : Cfg) (log : Nat → KafkaMsg) (s : St) (hs : s.sess.stopped = false) (k : Nat) :
    given (run cfg log s (List.replicate k (.read true))) =
      given s ++ (List.range k).map (fun j => kafkaDecode (log (s.base + s.sess.delivered.length + j))) ∧
    (run cfg log s (List.replicate k (.read true))).sess.stopped = false ∧
    (run cfg log s (List.replicate k (.read true))).base = s.base ∧
    (run cfg log s (List.replicate k (.read true))).sess.delivered.length = s.sess.delivered.length + k := by
  induction k with
  | zero => simp [run, hs]
  | succ k ih =>
    rw [List.replicate_succ', run_append]
    obtain ⟨h1, h2, h3, h4⟩ := ih
    generalize run cfg log s (List.replicate k (.read true)) = t at *
    refine ⟨?_, ?_, ?_, ?_⟩
    · simp only [run, List.foldl_cons, List.foldl_nil, step, Kafka.step, h2, if_true]
      rw [given] at h1 ⊢
      simp only [Bool.false_eq_true, if_false, List.map_append, List.map_cons, List.map_nil, h1, List.range_succ, h3, h4,
        List.append_assoc, Nat.add_assoc]
    · simp [run, step, Kafka.step, h2]
    · simp [run, step, h3]
    · simp [run, step, Kafka.step, h2, h4]; omega

/-- The process that comes after a crash is given the messages from the stored offset on, in order. -/
theorem C83_resumes (cfg : Cfg) (hg : cfg.group = true) (log : Nat → KafkaMsg) (os : List Op) (k : Nat) :
    given (run cfg log init (os ++ .crash :: List.replicate k (.read true))) =
      (List.range k).map (fun j => kafkaDecode (log ((run cfg log init os).committed + j))) := by
  rw [run_append, show (.crash :: List.replicate k (.read true) : List Op) = [.crash] ++ List.replicate k (.read true) from rfl,
    run_append]
  rw [(given_reads cfg log _ (by rfl) k).1]
  simp [run, step, given, hg]

/-- Messages whose commits were refused are given again: as long as no commit succeeds, every process starts with the first
message. -/
theorem C83_failed_commits (cfg : Cfg) (hc : cfg.auto = false) (log : Nat → KafkaMsg) (os : List Op)
    (hf : ∀ i k ok, .decide i k ok ∈ os → ok = false) (k : Nat) :
    given (run cfg log init (os ++ .crash :: List.replicate k (.read true))) =
      (List.range k).map (fun j => kafkaDecode (log j)) := by
  have h0 : ∀ (os : List Op) (s : St), (∀ i k ok, .decide i k ok ∈ os → ok = false) → s.committed = 0 → (run cfg log s os).committed = 0 := by
    intro os
    induction os with
    | nil => intro s _ h; exact h
    | cons o os ih =>
      intro s hf h
      refine ih _ (fun i k ok hm => hf i k ok (List.mem_cons_of_mem _ hm)) ?_
      cases o with
      | read ok => simp [step, hc, h]
      | decide i k ok => simp [step, hf i k ok (List.mem_cons_self ..), h]
      | crash => exact h
  rw [run_append, show (.crash :: List.replicate k (.read true) : List Op) = [.crash] ++ List.replicate k (.read true) from rfl,
    run_append]
  rw [(given_reads cfg log _ (by rfl) k).1]
  simp [run, step, given, show (os.foldl (step cfg log) init).committed = 0 from h0 os init hf rfl]

/-- So every message is decided on, or given to the next process once it has read enough. -/
theorem C83_no_loss_partial (cfg : Cfg) (hc : cfg.auto = false) (hg : cfg.group = true) (log : Nat → KafkaMsg) (os : List Op)
    (ho : InOrder cfg log os) (n : Nat) :
    n ∈ (run cfg log init os).decided ∨
    ∃ j : Nat, (given (run cfg log init (os ++ .crash :: List.replicate (n + 1) (.read true))))[j]? = some (kafkaDecode (log n)) := by
  by_cases hn : n < (run cfg log init os).committed
  · exact Or.inl (C83_partial cfg hc log os ho n hn)
  · right
    refine ⟨n - (run cfg log init os).committed, ?_⟩
    rw [C83_resumes cfg hg, List.getElem?_map, List.getElem?_range (by omega)]
    simp only [Option.map_some]
    rw [show (run cfg log init os).committed + (n - (run cfg log init os).committed) = n by omega]

/-! ### Without repetition -/

/-- All commits succeed. -/
def Succeed (os : List Op) : Prop := ∀ i k ok, .decide i k ok ∈ os → ok = true

/-- With all commits succeeding: a beginning of the messages is decided on, and its length is stored. -/
structure Exact (s : St) : Prop where
  sess : Kafka.Inv s.sess
  count : ∃ a, a ≤ s.sess.delivered.length ∧ (∀ j, Done s j ↔ j < a) ∧ s.committed = s.base + a ∧
    ∀ n, n ∈ s.decided → n < s.base + a

theorem exact_step (cfg : Cfg) (hc : cfg.auto = false) (hg : cfg.group = true) (log : Nat → KafkaMsg) (s : St) (o : Op)
    (h : Exact s) (ho : ∀ i k ok, o = .decide i k ok → ok = true ∧ ∀ j, j < i → Done s j) : Exact (step cfg log s o) := by
  obtain ⟨hs, a, ha, hd, hcm, hall⟩ := h
  refine ⟨sessInv_step cfg hc log s o hs, ?_⟩
  cases o with
  | read ok =>
    refine ⟨a, Nat.le_trans ha (read_sess cfg.auto _ _).2, fun j => ?_, ?_, hall⟩
    · rw [← hd j]; exact (read_sess cfg.auto _ _).1 j
    · simpa only [step, hc, Bool.false_and, Bool.false_eq_true, if_false] using hcm
  | crash =>
    refine ⟨0, Nat.zero_le _, fun j => ⟨?_, by omega⟩, by simp [step, hg], ?_⟩
    · rintro ⟨d, hd, _⟩; simp [step] at hd
    · intro n hn
      simp only [step, hg, if_true, Nat.add_zero]
      rw [hcm]; exact hall n hn
  | decide i k ok =>
    obtain ⟨rfl, hin⟩ := ho i k ok rfl
    obtain ⟨h1, h2, h3⟩ := decide_sess s.sess hs i k
    have hia : i ≤ a := by
      rcases Nat.lt_or_ge a i with h | h
      · exact absurd ((hd a).1 (hin a h)) (by omega)
      · exact h
    by_cases hlt : i < s.sess.delivered.length
    · by_cases hia' : i < a
      · -- decided on before
        have hno : ¬ ∃ d, s.sess.delivered[i]? = some d ∧ d.ack.acked = false := by
          rintro ⟨d, e, f⟩
          obtain ⟨d', e', f'⟩ := (hd i).2 hia'
          rw [e] at e'; cases e'; rw [f] at f'; cases f'
        refine ⟨a, by simpa only [step, hc, h2] using ha, fun j => ?_, ?_, ?_⟩
        · simp only [Done, step, hc, h1]
          constructor
          · rintro (h | ⟨rfl, _⟩)
            · exact (hd j).1 h
            · exact hia'
          · intro h; exact Or.inl ((hd j).2 h)
        · simp only [step, hc, h3, hno, if_false, stored_nil, ite_self]; exact hcm
        · intro n hn
          simp only [step, hlt, if_true, List.mem_append, List.mem_singleton] at hn
          rcases hn with hn | rfl
          · exact hall n hn
          · simp only [step]; omega
      · have : i = a := by omega
        subst this
        have hyes : ∃ d, s.sess.delivered[i]? = some d ∧ d.ack.acked = false := by
          refine ⟨s.sess.delivered[i], List.getElem?_eq_getElem hlt, ?_⟩
          cases hk : s.sess.delivered[i].ack.acked with
          | false => rfl
          | true => exact absurd ((hd i).1 ⟨_, List.getElem?_eq_getElem hlt, hk⟩) (by omega)
        refine ⟨i + 1, by simp only [step, hc, h2]; omega, fun j => ?_, ?_, ?_⟩
        · simp only [Done, step, hc, h1]
          constructor
          · rintro (h | ⟨rfl, _⟩)
            · have := (hd j).1 h; omega
            · omega
          · intro h
            by_cases hj : j = i
            · exact Or.inr ⟨hj, hlt⟩
            · exact Or.inl ((hd j).2 (by omega))
        · simp only [step, hc, h3, hyes, if_true, hg, Bool.and_self, stored_one]; omega
        · intro n hn
          simp only [step, hlt, if_true, List.mem_append, List.mem_singleton] at hn
          rcases hn with hn | rfl
          · have := hall n hn; simp only [step]; omega
          · simp only [step]; omega
    · have hno : ¬ ∃ d, s.sess.delivered[i]? = some d ∧ d.ack.acked = false := by
        rintro ⟨d, e, _⟩
        rw [List.getElem?_eq_none (by omega)] at e; cases e
      refine ⟨a, by simpa only [step, hc, h2] using ha, fun j => ?_, ?_, ?_⟩
      · simp only [Done, step, hc, h1, hlt, and_false, or_false]; exact hd j
      · simp only [step, hc, h3, hno, if_false, stored_nil, ite_self]; exact hcm
      · intro n hn
        simp only [step, hlt, if_false] at hn
        exact hall n hn

/-- **C83, no repetition (partial)**: with a group, manual commits that succeed and decisions in order, a message that was
decided on is not given to a later process. -/
theorem C83_not_again_partial (cfg : Cfg) (hc : cfg.auto = false) (hg : cfg.group = true) (log : Nat → KafkaMsg) (os : List Op)
    (ho : InOrder cfg log os) (hs : Succeed os) (n : Nat) :
    n ∈ (run cfg log init os).decided ↔ n < (run cfg log init os).committed := by
  refine ⟨?_, C83_partial cfg hc log os ho n⟩
  have key : ∀ m (os : List Op), os.length = m → InOrder cfg log os → Succeed os → Exact (run cfg log init os) := by
    intro m
    induction m with
    | zero =>
      intro os hl _ _
      have : os = [] := List.length_eq_zero_iff.1 hl
      subst this
      exact ⟨Kafka.inv_init, 0, Nat.le_refl _, by simp [run, init, Done], rfl, by simp [run, init]⟩
    | succ m ih =>
      intro os hl ho hs
      rcases List.eq_nil_or_concat os with rfl | ⟨pre, o, rfl⟩
      · simp at hl
      · rw [List.concat_eq_append] at *
        have hp : InOrder cfg log pre := by
          intro p i k ok post e
          exact ho p i k ok (post ++ [o]) (by rw [e]; simp)
        rw [run_append]
        refine exact_step cfg hc hg log _ o (ih pre (by simpa using hl) hp (fun i k ok h => hs i k ok (by simp [h]))) ?_
        intro i k ok e
        exact ⟨hs i k ok (by simp [e]), ho pre i k ok [] (by rw [e])⟩
  intro h
  obtain ⟨_, a, _, _, hcm, hall⟩ := key _ os rfl ho hs
  rw [hcm]; exact hall n h

/-! ### The generated listeners -/

/-- The decisions of a listener, with the number of the message they are about. -/
def decisions {C D E : Type} (outs : List (Listen.Out C D E)) : List (Nat × Ack.Kind) :=
  outs.zipIdx.flatMap (fun p => p.1.w.ack.hooks.map (fun k => (p.2, k)))

/-- One more event of the current process. -/
def record (ds : List (Nat × Ack.Kind)) : Op → List (Nat × Ack.Kind)
  | .read _ => ds
  | .decide i k _ => ds ++ [(i, k)]
  | .crash => []

/-- The decisions made in the current process. -/
def current (os : List Op) : List (Nat × Ack.Kind) := os.foldl record []

/-- All decisions are those of a generated listener, at any time: it handles the messages given to its process one after
the other, and may be interrupted anywhere. -/
def Listened {C D E : Type} (env : Listen.Env C D E) (cfg : Cfg) (log : Nat → KafkaMsg) (os : List Op) : Prop :=
  ∀ pre i k ok post, os = pre ++ .decide i k ok :: post →
    current pre ++ [(i, k)] <+: decisions (Listen.loop env ((given (run cfg log init pre)).map (·, true))).2

theorem loop_outs {C D E : Type} (env : Listen.Env C D E) (ms : List BrokerMessage) (j : Nat) (o : Listen.Out C D E)
    (h : (Listen.loop env (ms.map (·, true))).2[j]? = some o) :
    ∃ m, ms[j]? = some m ∧ o = Listen.handle env m ∧ ∀ o', (Listen.loop env (ms.map (·, true))).2[j + 1]? = some o' → o.crashed = false := by
  induction ms generalizing j with
  | nil => simp [Listen.loop] at h
  | cons m ms ih =>
    simp only [List.map_cons, Listen.loop, Bool.not_true, Bool.false_and, Bool.false_eq_true, if_false] at h ⊢
    split at h
    · rename_i hc
      rw [if_pos hc]
      cases j with
      | zero =>
        simp only [List.getElem?_cons_zero, Option.some.injEq] at h
        exact ⟨m, rfl, h.symm, by simp⟩
      | succ j => simp at h
    · rename_i hc
      rw [if_neg hc]
      cases j with
      | zero =>
        simp only [List.getElem?_cons_zero, Option.some.injEq] at h
        refine ⟨m, rfl, h.symm, fun o' _ => ?_⟩
        rw [← h]; simpa using hc
      | succ j =>
        simp only [List.getElem?_cons_succ] at h ⊢
        exact ih j h

theorem decisions_mem {C D E : Type} (outs : List (Listen.Out C D E)) (i : Nat) (k : Ack.Kind) :
    (i, k) ∈ decisions outs ↔ ∃ o, outs[i]? = some o ∧ k ∈ o.w.ack.hooks := by
  simp only [decisions, List.mem_flatMap, List.mem_map, Prod.exists]
  constructor
  · rintro ⟨o, j, hm, k', hk, e⟩
    cases e
    exact ⟨o, List.mem_zipIdx_iff_getElem?.1 hm, hk⟩
  · rintro ⟨o, ho, hk⟩
    exact ⟨o, i, List.mem_zipIdx_iff_getElem?.2 ho, k, hk, rfl⟩

theorem decisions_sorted {C D E : Type} (outs : List (Listen.Out C D E)) :
    (decisions outs).Pairwise (fun a b => a.1 ≤ b.1) := by
  have key : ∀ (outs : List (Listen.Out C D E)) (n : Nat),
      ((outs.zipIdx n).flatMap (fun p => p.1.w.ack.hooks.map (fun k => (p.2, k)))).Pairwise (fun a b => a.1 ≤ b.1) ∧
      ∀ x ∈ (outs.zipIdx n).flatMap (fun p => p.1.w.ack.hooks.map (fun k => (p.2, k))), n ≤ x.1 := by
    intro outs
    induction outs with
    | nil => intro n; simp
    | cons o outs ih =>
      intro n
      obtain ⟨h1, h2⟩ := ih (n + 1)
      simp only [List.zipIdx_cons, List.flatMap_cons]
      refine ⟨List.pairwise_append.2 ⟨?_, h1, ?_⟩, ?_⟩
      · rw [List.pairwise_map]
        exact List.Pairwise.imp (fun _ => Nat.le_refl n) (List.pairwise_of_forall (R := fun _ _ => True) (fun _ _ => trivial))
      · intro a ha b hb
        obtain ⟨_, _, rfl⟩ := List.mem_map.1 ha
        have := h2 b hb
        simp only
        omega
      · intro x hx
        rcases List.mem_append.1 hx with hx | hx
        · obtain ⟨_, _, rfl⟩ := List.mem_map.1 hx
          exact Nat.le_refl n
        · have := h2 x hx; omega
  exact (key outs 0).1

theorem done_step (cfg : Cfg) (hc : cfg.auto = false) (log : Nat → KafkaMsg) (s : St) (hs : Kafka.Inv s.sess) (o : Op) (j : Nat)
    (h : Done s j) (ho : o ≠ .crash) : Done (step cfg log s o) j := by
  cases o with
  | read ok => exact ((read_sess cfg.auto _ _).1 j).2 h
  | crash => exact absurd rfl ho
  | decide i k ok =>
    simp only [Done, step, hc]
    exact ((decide_sess s.sess hs i k).1 j).2 (Or.inl h)

theorem sessInv_run (cfg : Cfg) (hc : cfg.auto = false) (log : Nat → KafkaMsg) : ∀ (os : List Op) (s : St), Kafka.Inv s.sess →
    Kafka.Inv (run cfg log s os).sess
  | [], _, h => h
  | o :: os, s, h => sessInv_run cfg hc log os _ (sessInv_step cfg hc log s o h)

theorem current_done {C D E : Type} (env : Listen.Env C D E) (cfg : Cfg) (hc : cfg.auto = false) (log : Nat → KafkaMsg) :
    ∀ n (os : List Op), os.length = n → Listened env cfg log os → ∀ j k, (j, k) ∈ current os → Done (run cfg log init os) j := by
  intro n
  induction n with
  | zero =>
    intro os hl _ j k h
    have : os = [] := List.length_eq_zero_iff.1 hl
    subst this
    simp [current] at h
  | succ n ih =>
    intro os hl ho j k h
    rcases List.eq_nil_or_concat os with rfl | ⟨pre, o, rfl⟩
    · simp at hl
    · rw [List.concat_eq_append] at *
      have hp : Listened env cfg log pre := by
        intro p i k ok post e
        exact ho p i k ok (post ++ [o]) (by rw [e]; simp)
      have hi := ih pre (by simpa using hl) hp
      have hinv := sessInv_run cfg hc log pre init Kafka.inv_init
      rw [run_append]
      have hcur : current (pre ++ [o]) = record (current pre) o := by simp [current]
      rw [hcur] at h
      cases o with
      | read ok => exact done_step cfg hc log _ hinv (.read ok) j (hi j k h) (by simp)
      | crash => simp [record] at h
      | decide i k' ok =>
        simp only [record, List.mem_append, List.mem_singleton, Prod.mk.injEq] at h
        rcases h with h | ⟨rfl, rfl⟩
        · exact done_step cfg hc log _ hinv (.decide i k' ok) j (hi j k h) (by simp)
        · have hpre := ho pre j k ok [] rfl
          have hm : (j, k) ∈ decisions (Listen.loop env ((given (run cfg log init pre)).map (·, true))).2 :=
            hpre.subset (by simp)
          obtain ⟨o, ho', _⟩ := (decisions_mem _ _ _).1 hm
          obtain ⟨m, hm', _⟩ := loop_outs env _ j o ho'
          have hlt : j < (run cfg log init pre).sess.delivered.length := by
            rw [given, List.getElem?_map] at hm'
            cases hd : (run cfg log init pre).sess.delivered[j]? with
            | none => rw [hd] at hm'; cases hm'
            | some d =>
              rcases Nat.lt_or_ge j (run cfg log init pre).sess.delivered.length with h | h
              · exact h
              · rw [List.getElem?_eq_none h] at hd; cases hd
          simp only [run, List.foldl_cons, List.foldl_nil, Done, step, hc]
          exact ((decide_sess _ hinv j k).1 j).2 (Or.inr ⟨rfl, hlt⟩)

/-- **C83 for generated controllers (partial)**: with middlewares that report failures (`Reports`) and an error handler that
does not acknowledge, a listener decides in order, so nothing is lost, wherever the process stops: in particular when a
handler panics. -/
theorem C83_listener_partial {C D E : Type} (env : Listen.Env C D E) (cfg : Cfg) (hc : cfg.auto = false) (log : Nat → KafkaMsg)
    (os : List Op) (ho : Listened env cfg log os)
    (hrep : ∀ mw ∈ env.mws, ∀ ctx, Middleware.Reports false (mw ctx)) (heh : ∀ m e, env.eh m e = []) :
    InOrder cfg log os := by
  intro pre i k ok post e j hji
  have hp : Listened env cfg log pre := by
    intro p i' k' ok' post' e'
    exact ho p i' k' ok' (post' ++ .decide i k ok :: post) (by rw [e, e']; simp)
  have hpre := ho pre i k ok post e
  generalize hD : decisions (Listen.loop env ((given (run cfg log init pre)).map (·, true))).2 = ds at hpre
  obtain ⟨rest, hr⟩ := hpre
  have hik : (i, k) ∈ ds := by rw [← hr]; simp
  rw [← hD, decisions_mem] at hik
  obtain ⟨oi, hoi, _⟩ := hik
  have hjlen : j + 1 < (Listen.loop env ((given (run cfg log init pre)).map (·, true))).2.length := by
    rcases Nat.lt_or_ge i (Listen.loop env ((given (run cfg log init pre)).map (·, true))).2.length with h | h
    · omega
    · rw [List.getElem?_eq_none h] at hoi; cases hoi
  obtain ⟨m, _, hh, hcr⟩ := loop_outs env (given (run cfg log init pre)) j _ (List.getElem?_eq_getElem (by omega))
  have hnc := hcr _ (List.getElem?_eq_getElem hjlen)
  rw [hh] at hnc
  have hone : ∃ k', k' ∈ (Listen.handle env m).w.ack.hooks := by
    rcases Listen.C12_exactly_one_outcome_partial env m hrep heh hnc with ⟨_, h⟩ | ⟨_, h, _⟩ <;> rw [h] <;> simp
  obtain ⟨k', hk'⟩ := hone
  have hjm : (j, k') ∈ ds := by
    rw [← hD, decisions_mem]
    exact ⟨_, List.getElem?_eq_getElem (by omega), by rw [hh]; exact hk'⟩
  have hsorted := hD ▸ decisions_sorted (Listen.loop env ((given (run cfg log init pre)).map (·, true))).2
  have hin : (j, k') ∈ current pre := by
    rw [← hr] at hjm hsorted
    rw [List.append_assoc, List.pairwise_append] at hsorted
    simp only [List.mem_append, List.mem_singleton, Prod.mk.injEq] at hjm
    rcases hjm with (h | ⟨h, _⟩) | h
    · exact h
    · omega
    · have := hsorted.2.1
      simp only [List.singleton_append, List.pairwise_cons] at this
      have := this.1 _ h
      simp only at this
      omega
  exact current_done env cfg hc log _ pre rfl hp j k' hin

/-! ### Violations -/

theorem stays_lost (cfg : Cfg) (hg : cfg.group = true) (log : Nat → KafkaMsg) (n : Nat) : ∀ (os : List Op) (s : St),
    n < s.base → n < s.committed → n ∉ s.decided →
    n ∉ (run cfg log s os).decided ∧ n < (run cfg log s os).base
  | [], s, h1, _, h3 => ⟨h3, h1⟩
  | o :: os, s, h1, h2, h3 => by
    have hst : ∀ (js : List Nat) (old : Nat), n < old → n < stored old s.base js := by
      intro js
      induction js with
      | nil => intro old h; exact h
      | cons j js ih => intro old h; exact ih _ (by omega)
    rw [show run cfg log s (o :: os) = run cfg log (step cfg log s o) os from rfl]
    apply stays_lost cfg hg log n os
    · cases o <;> simp only [step, hg, if_true] <;> assumption
    · cases o with
      | read ok => simp only [step]; split <;> omega
      | decide i k ok =>
        simp only [step]
        split
        · exact hst _ _ h2
        · exact h2
      | crash => exact h2
    · cases o with
      | read ok => exact h3
      | decide i k ok =>
        simp only [step]
        split
        · simp only [List.mem_append, List.mem_singleton, not_or]
          exact ⟨h3, by omega⟩
        · exact h3
      | crash => exact h3

/-- **C83 violated by the recovery middleware.** The handler of the first message panics; the middleware hides it, nothing
is decided about that message, and deciding on the second commits both. After a crash the first message is never decided
on nor given to anybody again, whatever happens. -/
theorem C83_violated_recovery :
    ∃ (env : Listen.Env Unit Bytes String) (log : Nat → KafkaMsg) (os : List Op), Listened env ⟨false, true⟩ log os ∧
      env.mws = [Middleware.recovery] ∧
      ∀ more, 0 ∉ (run ⟨false, true⟩ log init (os ++ .crash :: more)).decided ∧
        0 < (run ⟨false, true⟩ log init (os ++ .crash :: more)).base := by
  refine ⟨Listen.demoEnv [Middleware.recovery] (fun b => if b = [1] then .panicked else .ret none),
    fun n => ⟨[], if n = 0 then [1] else [2]⟩, [.read true, .read true, .decide 1 .ack true], ?_, rfl, fun more => ?_⟩
  · intro pre i k ok post e
    match pre with
    | [] => cases e
    | [_] => cases e
    | [_, _] => cases e; exact ⟨[], rfl⟩
    | _ :: _ :: _ :: pre =>
      have := congrArg List.length e
      simp at this
  · rw [show ([.read true, .read true, .decide 1 .ack true] ++ .crash :: more : List Op) =
      [.read true, .read true, .decide 1 .ack true, .crash] ++ more from rfl, run_append]
    exact stays_lost ⟨false, true⟩ rfl _ 0 more _ (by decide) (by decide) (by decide)

/-- **C83 violated with automatic commits** (the default): a message that was read when the process stops is lost. -/
theorem C83_violated_auto (log : Nat → KafkaMsg) (more : List Op) :
    0 ∉ (run ⟨true, true⟩ log init (.read true :: .crash :: more)).decided ∧
    0 < (run ⟨true, true⟩ log init (.read true :: .crash :: more)).base :=
  stays_lost ⟨true, true⟩ rfl log 0 more _ (by simp [step, init]) (by simp [step, init]) (by simp [step, init])

/-- **C83 violated by decisions out of order**, for instance of an error handler that keeps the message for later. -/
theorem C83_violated_order (log : Nat → KafkaMsg) (k : Ack.Kind) (more : List Op) :
    0 ∉ (run ⟨false, true⟩ log init (.read true :: .read true :: .decide 1 k true :: .crash :: more)).decided ∧
    0 < (run ⟨false, true⟩ log init (.read true :: .read true :: .decide 1 k true :: .crash :: more)).base := by
  have h1 : (run ⟨false, true⟩ log init [.read true, .read true, .decide 1 k true, .crash]).base = 2 := by cases k <;> rfl
  have h2 : (run ⟨false, true⟩ log init [.read true, .read true, .decide 1 k true, .crash]).committed = 2 := by cases k <;> rfl
  have h3 : (run ⟨false, true⟩ log init [.read true, .read true, .decide 1 k true, .crash]).decided = [1] := by cases k <;> rfl
  rw [show (.read true :: .read true :: .decide 1 k true :: .crash :: more : List Op) =
      [.read true, .read true, .decide 1 k true, .crash] ++ more from rfl, run_append]
  exact stays_lost ⟨false, true⟩ rfl log 0 more _ (by omega) (by omega) (by rw [h3]; simp)

/-- **C83 violated without a group** (the default): every process is given all messages again from the first one, whatever
was decided. -/
theorem C83_violated_again (auto : Bool) (log : Nat → KafkaMsg) (os : List Op) (k : Nat) :
    given (run ⟨auto, false⟩ log init (os ++ .crash :: List.replicate k (.read true))) =
      (List.range k).map (fun j => kafkaDecode (log j)) := by
  rw [run_append, show (.crash :: List.replicate k (.read true) : List Op) = [.crash] ++ List.replicate k (.read true) from rfl,
    run_append]
  rw [(given_reads _ log _ (by rfl) k).1]
  simp [run, step, given]

/-- Non-vacuity: a listener that refuses its second message, crashes before the third is decided on, and goes on. -/
def sample : List Op :=
  [.read true, .read true, .decide 0 .ack true, .read true, .decide 1 .nak true, .crash, .read true]

example : InOrder ⟨false, true⟩ (fun n => ⟨[], [n.toUInt8]⟩) sample ∧
    (run ⟨false, true⟩ (fun n => ⟨[], [n.toUInt8]⟩) init sample).committed = 2 ∧
    given (run ⟨false, true⟩ (fun n => ⟨[], [n.toUInt8]⟩) init sample) = [⟨some [], some [2]⟩] := by
  refine ⟨?_, by decide, by decide⟩
  intro pre i k ok post e j hj
  match pre with
  | [] => cases e
  | [_] => cases e
  | [_, _] => cases e; omega
  | [_, _, _] => cases e
  | [_, _, _, _] =>
    cases e
    have : j = 0 := by omega
    subst this
    exact ⟨_, rfl, rfl⟩
  | [_, _, _, _, _] => cases e
  | [_, _, _, _, _, _] => cases e
  | _ :: _ :: _ :: _ :: _ :: _ :: _ :: pre =>
    have := congrArg List.length e
    simp [sample] at this

end Verif.KafkaCrash
