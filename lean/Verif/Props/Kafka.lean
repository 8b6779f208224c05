import Verif.Model.Kafka

/-! # C34–C36 and C65: the Kafka controller -/

namespace Verif.Kafka

open Verif.Transport (KafkaMsg kafkaDecode)

/-- In the history `os`, the consumer decided (ack or nak) on message number `i` after it had been
delivered. -/
def Decided (auto : Bool) (i : Nat) (os : List Op) : Prop :=
  ∃ pre k post, os = pre ++ .decide i k :: post ∧ i < (run auto init pre).delivered.length

theorem run_append (auto : Bool) (s : St) (a b : List Op) :
    run auto s (a ++ b) = run auto (run auto s a) b := by simp [run, List.foldl_append]

/-- `acked` tells whether a hook was called, and each delivered message was committed as often as its
hooks were called. -/
structure Inv (s : St) : Prop where
  flag : ∀ (i : Nat) (d : Delivered), s.delivered[i]? = some d → (d.ack.acked = true ↔ d.ack.hooks.length = 1) ∧
    d.ack.hooks.length ≤ 1
  count : ∀ i, s.commits.count i = (match s.delivered[i]? with
    | none => 0
    | some d => d.ack.hooks.length)

theorem inv_init : Inv init := ⟨by simp [init], by simp [init]⟩

theorem ack_step_len (a : Ack.St) (k : Ack.Kind) (h : (a.acked = true ↔ a.hooks.length = 1) ∧ a.hooks.length ≤ 1) :
    (Ack.step a k).acked = true ∧ (Ack.step a k).hooks.length = 1 := by
  obtain ⟨acked, hooks⟩ := a
  cases acked with
  | true =>
    have hl : hooks.length = 1 := h.1.mp rfl
    cases k <;> simp [Ack.step, hl]
  | false =>
    have hl : hooks.length = 0 := by
      have h1 := h.1
      have h2 := h.2
      simp only [Bool.false_eq_true, false_iff] at h1
      simp only at h2
      omega
    have : hooks = [] := List.length_eq_zero_iff.mp hl
    subst this
    cases k <;> simp [Ack.step]

theorem newCommits (a : Ack.St) (k : Ack.Kind) (i : Nat)
    (h : (a.acked = true ↔ a.hooks.length = 1) ∧ a.hooks.length ≤ 1) :
    (((Ack.step a k).hooks.drop a.hooks.length).map (hook false i)).flatten =
      if a.hooks.length = 0 then [i] else [] := by
  obtain ⟨acked, hooks⟩ := a
  cases acked with
  | true =>
    have hl : hooks.length = 1 := h.1.mp rfl
    have hd : hooks.drop 1 = [] := List.drop_eq_nil_of_le (by omega)
    cases k <;> simp [Ack.step, hl, -List.drop_one, hd]
  | false =>
    have hl : hooks.length = 0 := by
      have h1 := h.1
      have h2 := h.2
      simp only [Bool.false_eq_true, false_iff] at h1
      simp only at h2
      omega
    have : hooks = [] := List.length_eq_zero_iff.mp hl
    subst this
    cases k <;> simp [Ack.step, hook]

theorem inv_step {s : St} (h : Inv s) (o : Op) : Inv (step false s o) := by
  cases o with
  | read r =>
    simp only [step]
    split
    · exact h
    · cases r with
      | eof => exact ⟨h.flag, h.count⟩
      | error => exact ⟨h.flag, h.count⟩
      | msg m =>
        refine ⟨?_, ?_⟩
        · intro i d hd
          by_cases hi : i < s.delivered.length
          · rw [List.getElem?_append_left hi] at hd
            exact h.flag i d hd
          · rw [List.getElem?_append_right (by omega)] at hd
            have : d = ⟨kafkaDecode m, Ack.init⟩ := by
              cases hj : i - s.delivered.length with
              | zero => rw [hj] at hd; simpa using hd.symm
              | succ n => rw [hj] at hd; simp at hd
            subst this
            simp [Ack.init]
        · intro i
          simp only
          rw [h.count i]
          by_cases hi : i < s.delivered.length
          · rw [List.getElem?_append_left hi]
          · rw [List.getElem?_append_right (by omega)]
            rw [List.getElem?_eq_none (by omega)]
            cases hj : i - s.delivered.length with
            | zero => simp [Ack.init]
            | succ n => simp
  | decide i k =>
    simp only [step]
    split
    · exact h
    · rename_i d hd
      have hf := h.flag i d hd
      obtain ⟨h1, h2⟩ := ack_step_len d.ack k hf
      have hlt : i < s.delivered.length := by
        rcases Nat.lt_or_ge i s.delivered.length with hlt | hge
        · exact hlt
        · rw [List.getElem?_eq_none hge] at hd; cases hd
      refine ⟨?_, ?_⟩
      · intro j e he
        simp only [List.getElem?_set] at he
        split at he
        · cases he; simp [h1, h2]
        · exact h.flag j e he
      · intro j
        simp only [newCommits d.ack k i hf, List.count_append, h.count j, List.getElem?_set]
        by_cases hij : i = j
        · subst hij
          simp only [hd, if_true, hlt, h2]
          split
          · rename_i h0; simp [h0]
          · rename_i h0
            have := hf.2
            simp; omega
        · simp only [hij, if_false]
          have : List.count j (if d.ack.hooks.length = 0 then [i] else []) = 0 := by
            split <;> simp [hij]
          rw [this]; rfl

theorem inv_run (os : List Op) : ∀ s, Inv s → Inv (run false s os) := by
  induction os with
  | nil => intro s h; exact h
  | cons o os ih => intro s h; exact ih _ (inv_step h o)

/-- **C34** (manual commit). Each message is committed at most once. -/
theorem C34_committed_at_most_once (os : List Op) (i : Nat) : (run false init os).commits.count i ≤ 1 := by
  have h := inv_run os init inv_init
  rw [h.count i]
  split
  · exact Nat.zero_le _
  · rename_i d hd; exact (h.flag i d hd).2

theorem run_snoc (auto : Bool) (s : St) (os : List Op) (o : Op) :
    run auto s (os ++ [o]) = step auto (run auto s os) o := by simp [run, List.foldl_append]

/-- **C34** (manual commit). At every moment of every history, the messages committed are exactly those
the consumer decided on after they were delivered: never one before its decision. -/
theorem C34_committed_iff_decided (os : List Op) (i : Nat) :
    i ∈ (run false init os).commits ↔ Decided false i os := by
  constructor
  · -- by induction from the end
    suffices ∀ (n : Nat) (os : List Op), os.length = n → i ∈ (run false init os).commits → Decided false i os from
      this _ os rfl
    intro n
    induction n with
    | zero =>
      intro os hl hm
      have : os = [] := List.length_eq_zero_iff.mp hl
      subst this
      simp [run, init] at hm
    | succ n ih =>
      intro os hl hm
      have hne : os ≠ [] := by rintro rfl; simp at hl
      obtain ⟨os', o, rfl⟩ : ∃ os' o, os = os' ++ [o] :=
        ⟨os.dropLast, os.getLast hne, (List.dropLast_concat_getLast hne).symm⟩
      have hl' : os'.length = n := by simpa using hl
      have lift : Decided false i os' → Decided false i (os' ++ [o]) := by
        rintro ⟨pre, k, post, rfl, h⟩
        exact ⟨pre, k, post ++ [o], by simp, h⟩
      rw [run_snoc] at hm
      cases o with
      | read r =>
        apply lift; apply ih os' hl'
        simp only [step] at hm
        split at hm
        · exact hm
        · cases r <;> exact hm
      | decide j k =>
        simp only [step] at hm
        split at hm
        · exact lift (ih os' hl' hm)
        · rename_i d hd
          have hinv := inv_run os' init inv_init
          simp only [newCommits d.ack k j (hinv.flag j d hd), List.mem_append] at hm
          rcases hm with hm | hm
          · exact lift (ih os' hl' hm)
          · split at hm
            · simp only [List.mem_singleton] at hm
              subst hm
              refine ⟨os', k, [], rfl, ?_⟩
              rcases Nat.lt_or_ge i (run false init os').delivered.length with hlt | hge
              · exact hlt
              · rw [List.getElem?_eq_none hge] at hd; cases hd
            · cases hm
  · rintro ⟨pre, k, post, rfl, hlt⟩
    rw [run_append]
    have hinv := inv_run pre init inv_init
    have hcons : run false (run false init pre) (.decide i k :: post) =
        run false (step false (run false init pre) (.decide i k)) post := rfl
    rw [hcons]
    have hmem : i ∈ (step false (run false init pre) (.decide i k)).commits := by
      have hinv' := inv_step hinv (.decide i k)
      have hc := hinv'.count i
      have hd : (run false init pre).delivered[i]? = some ((run false init pre).delivered[i]) :=
        List.getElem?_eq_getElem hlt
      have hlen := (ack_step_len _ k (hinv.flag i _ hd)).2
      rw [← List.count_pos_iff, hc]
      simp only [step, hd, List.getElem?_set, if_true, hlt]
      omega
    have mono : ∀ (os : List Op) (s : St), i ∈ s.commits → i ∈ (run false s os).commits := by
      intro os
      induction os with
      | nil => intro s h; exact h
      | cons o os ih =>
        intro s h
        apply ih
        cases o with
        | read r =>
          simp only [step]
          split
          · exact h
          · cases r <;> exact h
        | decide j k =>
          simp only [step]
          split
          · exact h
          · exact List.mem_append_left _ h
    exact mono post _ hmem

/-- **C34** (automatic commit). Ack and Nak commit nothing. -/
theorem C34_auto_commit_ignores_decisions (os : List Op) : (run true init os).commits = [] := by
  have hook_nil : ∀ i (ks : List Ack.Kind), (ks.map (hook true i)).flatten = [] := by
    intro i ks
    induction ks with
    | nil => rfl
    | cons k ks ih => cases k <;> simpa [hook] using ih
  suffices ∀ (os : List Op) (s : St), s.commits = [] → (run true s os).commits = [] from this os init rfl
  intro os
  induction os with
  | nil => intro s h; exact h
  | cons o os ih =>
    intro s h
    apply ih
    cases o with
    | read r =>
      simp only [step]
      split
      · exact h
      · cases r <;> exact h
    | decide i k =>
      simp only [step]
      split
      · exact h
      · simp only [h, hook_nil, List.append_nil]

def m0 : KafkaMsg := ⟨[("k", [1])], [2]⟩

example : Decided false 1 [.read (.msg m0), .read (.msg m0), .decide 1 .nak, .decide 1 .ack] :=
  ⟨[.read (.msg m0), .read (.msg m0)], .nak, [.decide 1 .ack], rfl, by decide⟩
example : (run false init [.read (.msg m0), .read (.msg m0), .decide 1 .nak, .decide 1 .ack]).commits = [1] := by
  decide

/-- The messages before the first failed read. -/
def beforeFailure : List Read → List KafkaMsg
  | .msg m :: rs => m :: beforeFailure rs
  | _ => []

/-- What the subscription delivers when the reads return `rs`. -/
def deliveries (auto : Bool) (rs : List Read) : List BrokerMessage :=
  (run auto init (rs.map .read)).delivered.map (·.message)

theorem deliveries_aux (auto : Bool) (rs : List Read) : ∀ s : St, s.stopped = false →
    (run auto s (rs.map .read)).delivered.map (·.message) =
    s.delivered.map (·.message) ++ (beforeFailure rs).map kafkaDecode := by
  have stuck : ∀ (rs : List Read) (s : St), s.stopped = true → run auto s (rs.map .read) = s := by
    intro rs
    induction rs with
    | nil => intro s _; rfl
    | cons r rs ih =>
      intro s h
      show run auto (step auto s (.read r)) (rs.map .read) = s
      rw [show step auto s (.read r) = s by simp [step, h]]
      exact ih s h
  induction rs with
  | nil => intro s _; simp [run, beforeFailure]
  | cons r rs ih =>
    intro s h
    show (run auto (step auto s (.read r)) (rs.map .read)).delivered.map (·.message) = _
    cases r with
    | msg m =>
      rw [ih _ (by simp [step, h])]
      simp [step, h, beforeFailure]
    | eof => rw [stuck rs _ (by simp [step, h])]; simp [step, h, beforeFailure]
    | error => rw [stuck rs _ (by simp [step, h])]; simp [step, h, beforeFailure]

/-- What is delivered, for every sequence of read results: the messages before the first failed read, in
order, each with its own headers and value. -/
theorem C35_delivers_until_first_failure_partial (auto : Bool) (rs : List Read) :
    deliveries auto rs = (beforeFailure rs).map kafkaDecode := by
  unfold deliveries
  rw [deliveries_aux auto rs init rfl]
  simp [init]

/-- **C35 (partial: no failed read).** All messages are delivered, in order. Missing: failed reads, for
which it is false (below). -/
theorem C35_delivers_all_without_failure_partial (auto : Bool) (ms : List KafkaMsg) :
    deliveries auto (ms.map .msg) = ms.map kafkaDecode := by
  rw [C35_delivers_until_first_failure_partial]
  congr 1
  induction ms with
  | nil => rfl
  | cons m ms ih => simp [beforeFailure, ih]

/-- **C35 is violated:** after one failed read nothing is delivered any more, whatever follows, in both
modes. -/
theorem C35_violated (auto : Bool) (ms : List KafkaMsg) : deliveries auto (.error :: ms.map .msg) = [] := by
  rw [C35_delivers_until_first_failure_partial]
  rfl

example : deliveries false [.error, .msg m0] = [] ∧ deliveries false [.msg m0, .msg m0] = [kafkaDecode m0, kafkaDecode m0] := by
  decide

/-- **C36.** `Publish` returns nil exactly when a write succeeded, and then exactly one did. -/
theorem C36_nil_iff_written_once (script : List (Write × Option Nat)) :
    ((publish script).ret = some none ↔ .ok ∈ (publish script).writes) ∧
    (publish script).writes.count .ok ≤ 1 := by
  induction script with
  | nil => simp [publish]
  | cons e rest ih =>
    obtain ⟨w, c⟩ := e
    cases w with
    | ok => simp [publish]
    | other e => simp [publish]
    | unknownTopic =>
      cases c with
      | some e => simp [publish]
      | none => simpa [publish, List.count_cons] using ih

/-- **C36.** Every write before the last one failed with an unknown topic: a retry happens only then. -/
theorem C36_retries_only_unknown_topic (script : List (Write × Option Nat)) :
    ∀ w ∈ (publish script).writes.dropLast, w = .unknownTopic := by
  induction script with
  | nil => simp [publish]
  | cons e rest ih =>
    obtain ⟨w, c⟩ := e
    cases w with
    | ok => simp [publish]
    | other e => simp [publish]
    | unknownTopic =>
      cases c with
      | some e => simp [publish]
      | none =>
        simp only [publish]
        cases hw : (publish rest).writes with
        | nil => simp
        | cons x xs =>
          rw [hw] at ih
          simpa [List.dropLast_cons_of_ne_nil] using ih

/-- **C36.** Any other error is returned at once: it is the last write, and it is what is returned. -/
theorem C36_other_errors_returned (script : List (Write × Option Nat)) (e : Nat)
    (h : .other e ∈ (publish script).writes) :
    (publish script).ret = some (some e) ∧ (publish script).writes.getLast? = some (.other e) := by
  induction script with
  | nil => simp [publish] at h
  | cons x rest ih =>
    obtain ⟨w, c⟩ := x
    cases w with
    | ok => simp [publish] at h
    | other e' =>
      simp only [publish, List.mem_singleton, Write.other.injEq] at h
      subst h
      simp [publish]
    | unknownTopic =>
      cases c with
      | some e' => simp [publish] at h
      | none =>
        simp only [publish, List.mem_cons, reduceCtorEq, false_or] at h
        obtain ⟨h1, h2⟩ := ih h
        refine ⟨h1, ?_⟩
        simp only [publish, List.getLast?_cons, h2, Option.getD]

/-- **C36.** A failed topic check is returned, and it came after a write refused for an unknown topic. -/
theorem C36_returned_error_is_real (script : List (Write × Option Nat)) (e : Nat)
    (h : (publish script).ret = some (some e)) :
    .other e ∈ (publish script).writes ∨
    ((.unknownTopic, some e) ∈ script ∧ (publish script).checks = (publish script).writes.length) := by
  induction script with
  | nil => simp [publish] at h
  | cons x rest ih =>
    obtain ⟨w, c⟩ := x
    cases w with
    | ok => simp [publish] at h
    | other e' =>
      simp only [publish, Option.some.injEq] at h
      subst h; left; simp [publish]
    | unknownTopic =>
      cases c with
      | some e' =>
        simp only [publish, Option.some.injEq] at h
        subst h; right; simp [publish]
      | none =>
        simp only [publish] at h
        rcases ih h with h' | ⟨h1, h2⟩
        · left; simp [publish, h']
        · right; exact ⟨List.mem_cons_of_mem _ h1, by simp [publish, h2]⟩

example : publish [(.unknownTopic, none), (.unknownTopic, none), (.ok, none), (.ok, none)] =
    ⟨some none, [.unknownTopic, .unknownTopic, .ok], 2⟩ := by decide
example : publish [(.unknownTopic, none), (.other 4, none), (.ok, none)] =
    ⟨some (some 4), [.unknownTopic, .other 4], 1⟩ := by decide

/-- **C65.** The topic check succeeds only if the broker listed the topic, after connecting and without
any error before. -/
theorem C65_topic_check_means_listed (topic : String) (dial : Option Nat)
    (script : List (Option Nat × Except Nat (List String))) (h : checkTopic topic dial script = some none) :
    dial = none ∧ ∃ pre ts post, script = pre ++ (none, .ok ts) :: post ∧ topic ∈ ts ∧
      ∀ x ∈ pre, ∃ us, x = (none, .ok us) ∧ topic ∉ us := by
  unfold checkTopic at h
  cases dial with
  | some e => cases h
  | none =>
    refine ⟨rfl, ?_⟩
    simp only at h
    induction script with
    | nil => cases h
    | cons x rest ih =>
      obtain ⟨c, r⟩ := x
      cases c with
      | some e => cases h
      | none =>
        cases r with
        | error e => cases h
        | ok ts =>
          simp only [checkLoop] at h
          split at h
          · rename_i hm; exact ⟨[], ts, rest, rfl, hm, by simp⟩
          · rename_i hm
            obtain ⟨pre, us, post, h1, h2, h3⟩ := ih h
            refine ⟨(none, .ok ts) :: pre, us, post, by rw [h1]; rfl, h2, ?_⟩
            intro x hx
            simp only [List.mem_cons] at hx
            rcases hx with rfl | hx
            · exact ⟨ts, rfl, hm⟩
            · exact h3 x hx

/-- **C65.** An error from the broker ends the check with that error. -/
theorem C65_topic_check_reports_errors (topic : String)
    (script : List (Option Nat × Except Nat (List String))) (e : Nat)
    (h : checkTopic topic none script = some (some e)) :
    ∃ pre x post, script = pre ++ x :: post ∧ (x.1 = some e ∨ x = (none, .error e)) := by
  unfold checkTopic at h
  simp only at h
  induction script with
  | nil => cases h
  | cons x rest ih =>
    obtain ⟨c, r⟩ := x
    cases c with
    | some e' =>
      simp only [checkLoop, Option.some.injEq] at h; subst h
      exact ⟨[], _, rest, rfl, .inl rfl⟩
    | none =>
      cases r with
      | error e' =>
        simp only [checkLoop, Option.some.injEq] at h; subst h
        exact ⟨[], _, rest, rfl, .inr rfl⟩
      | ok ts =>
        simp only [checkLoop] at h
        split at h
        · cases h
        · obtain ⟨pre, y, post, h1, h2⟩ := ih h
          exact ⟨_ :: pre, y, post, by rw [h1]; rfl, h2⟩

example : checkTopic "t" none [(none, .ok ["u"]), (none, .ok ["u", "t"])] = some none := by decide

end Verif.Kafka
