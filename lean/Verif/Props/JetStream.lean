import Verif.Spec.JetStream

/-! # C30–C32: the JetStream controller -/

namespace Verif.JetStream

theorem matchLoop_iff : ∀ (ps ss : List Str), ps.length ≤ ss.length →
    ∃ b, matchLoop ps ss = some b ∧ (b = true ↔ Matches ps ss) := by
  intro ps
  induction ps with
  | nil =>
    intro ss _
    refine ⟨ss == [], rfl, ?_⟩
    cases ss with
    | nil => simp [Matches.nil]
    | cons s ss => simp only [show ((s :: ss) == ([] : List Str)) = false from rfl, Bool.false_eq_true, false_iff]; intro h; cases h
  | cons p ps ih =>
    intro ss hl
    match ss, hl with
    | s :: ss, hl =>
      have hl' : ps.length ≤ ss.length := by simpa using hl
      obtain ⟨b, hb1, hb2⟩ := ih ss hl'
      unfold matchLoop
      by_cases h1 : p = ['*']
      · subst h1
        simp only [if_true]
        by_cases hs : s = []
        · refine ⟨false, by simp [hs], ?_⟩
          simp only [Bool.false_eq_true, false_iff]
          intro h
          cases h with
          | lit h _ _ => exact h rfl
          | star h _ => exact h hs
        · refine ⟨b, by simp [hs, hb1], ?_⟩
          rw [hb2]
          constructor
          · exact fun h => .star hs h
          · intro h
            cases h with
            | lit h _ _ => exact absurd rfl h
            | star _ h => exact h
      · simp only [h1, if_false]
        by_cases h2 : p = ['>']
        · subst h2
          simp only [if_true]
          refine ⟨ps == [], rfl, ?_⟩
          cases ps with
          | nil => simp only [beq_self_eq_true, true_iff]; exact .rest (by simp)
          | cons q qs =>
            simp only [show ((q :: qs) == ([] : List Str)) = false from rfl, Bool.false_eq_true, false_iff]
            intro h
            cases h with
            | lit _ h _ => exact h rfl
        · simp only [h2, if_false]
          by_cases h3 : p = s
          · subst h3
            refine ⟨b, by simp [hb1], ?_⟩
            rw [hb2]
            constructor
            · exact fun h => .lit h1 h2 h
            · intro h
              cases h with
              | lit _ _ h => exact h
              | star _ h => exact absurd rfl h1
              | rest _ => exact absurd rfl h2
          · refine ⟨false, by simp [h3], ?_⟩
            simp only [Bool.false_eq_true, false_iff]
            intro h
            cases h with
            | lit _ _ _ => exact h3 rfl
            | star _ _ => exact h1 rfl
            | rest _ => exact h2 rfl

theorem matches_length {ps ss : List Str} (h : Matches ps ss) : ps.length ≤ ss.length := by
  induction h with
  | nil => simp
  | lit _ _ _ ih => simpa using ih
  | star _ _ ih => simpa using ih
  | rest h =>
    rename_i ss
    cases ss with
    | nil => exact absurd rfl h
    | cons s ss => simp

/-- **C30.** For every pattern and subject, given as the joining by '.' of any lists of '.'-free tokens,
`MatchSubjectSubscription` does not panic and answers true exactly when both are non-empty and NATS'
rules match the tokens. -/
theorem C30_matches_like_nats (ps ss : List Str) (hp : ps ≠ []) (hs : ss ≠ [])
    (hpt : ∀ t ∈ ps, '.' ∉ t) (hst : ∀ t ∈ ss, '.' ∉ t) :
    ∃ b, matchSubject (Str.join '.' ps) (Str.join '.' ss) = some b ∧
      (b = true ↔ Str.join '.' ps ≠ [] ∧ Str.join '.' ss ≠ [] ∧ Matches ps ss) := by
  unfold matchSubject
  by_cases he : Str.join '.' ps = [] ∨ Str.join '.' ss = []
  · refine ⟨false, by simp [he], ?_⟩
    simp only [Bool.false_eq_true, false_iff]
    rintro ⟨h1, h2, _⟩
    rcases he with he | he
    · exact h1 he
    · exact h2 he
  · rw [not_or] at he
    simp only [he.1, he.2, or_self, if_false, Str.split_join '.' ps hp hpt, Str.split_join '.' ss hs hst]
    by_cases hl : ss.length < ps.length
    · refine ⟨false, by simp [hl], ?_⟩
      simp only [Bool.false_eq_true, false_iff]
      rintro ⟨_, _, h⟩
      have := matches_length h
      omega
    · simp only [hl, if_false]
      obtain ⟨b, h1, h2⟩ := matchLoop_iff ps ss (by omega)
      exact ⟨b, h1, by rw [h2]; simp [he.1, he.2]⟩

/-- Every string is such a joining, so C30 covers all pairs of strings. -/
theorem C30_covers_all_strings (pattern subject : Str) :
    ∃ b, matchSubject pattern subject = some b ∧
      (b = true ↔ pattern ≠ [] ∧ subject ≠ [] ∧ Matches (Str.split '.' pattern) (Str.split '.' subject)) := by
  have := C30_matches_like_nats (Str.split '.' pattern) (Str.split '.' subject)
    (Str.split_ne_nil _ _) (Str.split_ne_nil _ _) (Str.not_mem_split _ _) (Str.not_mem_split _ _)
  rwa [Str.join_split, Str.join_split] at this

example : matchSubject "a.*.c.>".toList "a.b.c.d.e".toList = some true := by decide
example : matchSubject "a.*.c.>".toList "a.b.c".toList = some false := by decide
example : matchSubject "a.>.c".toList "a.b.c".toList = some false := by decide
example : matchSubject "a.*".toList "a.b.c".toList = some false := by decide

/-- A pattern matches a subject. -/
def PatternMatches (pattern subject : Str) : Prop :=
  pattern ≠ [] ∧ subject ≠ [] ∧ Matches (Str.split '.' pattern) (Str.split '.' subject)

theorem matchSubject_true (p s : Str) : matchSubject p s = some true ↔ PatternMatches p s := by
  obtain ⟨b, h1, h2⟩ := C30_covers_all_strings p s
  unfold PatternMatches
  rw [h1, ← h2]
  simp

theorem matchSubject_false (p s : Str) : matchSubject p s = some false ↔ ¬ PatternMatches p s := by
  obtain ⟨b, h1, h2⟩ := C30_covers_all_strings p s
  unfold PatternMatches
  rw [h1, ← h2]
  simp

/-- **C31.** For every set of subscription patterns and every iteration order: a message is handed to a
subscription whose pattern matches its subject, or, exactly when none does, acknowledged and dropped. -/
theorem C31_routed_to_a_match (subject : Str) (patterns : List Str) :
    (∃ p ∈ patterns, PatternMatches p subject ∧ consume subject patterns = .handed p) ∨
    ((∀ p ∈ patterns, ¬ PatternMatches p subject) ∧ consume subject patterns = .ackedAndDropped) := by
  induction patterns with
  | nil => right; exact ⟨by simp, rfl⟩
  | cons p rest ih =>
    obtain ⟨b, h1, _⟩ := C30_covers_all_strings p subject
    cases b with
    | true =>
      left
      have hp := (matchSubject_true p subject).mp h1
      refine ⟨p, by simp, hp, ?_⟩
      simp [consume, h1, hp.1]
    | false =>
      have hn := (matchSubject_false p subject).mp h1
      have hc : consume subject (p :: rest) = consume subject rest := by simp [consume, h1]
      rw [hc]
      rcases ih with ⟨q, hq, h2, h3⟩ | ⟨h2, h3⟩
      · left; exact ⟨q, List.mem_cons_of_mem _ hq, h2, h3⟩
      · right
        refine ⟨?_, h3⟩
        intro q hq
        simp only [List.mem_cons] at hq
        rcases hq with rfl | hq
        · exact hn
        · exact h2 q hq

/-- **C31.** A message is never handed to a subscription that does not match or does not exist. -/
theorem C31_never_misrouted (subject : Str) (patterns : List Str) (p : Str)
    (h : consume subject patterns = .handed p) : p ∈ patterns ∧ PatternMatches p subject := by
  rcases C31_routed_to_a_match subject patterns with ⟨q, hq, h1, h2⟩ | ⟨_, h2⟩
  · rw [h] at h2; cases h2; exact ⟨hq, h1⟩
  · rw [h] at h2; cases h2

/-- **C31.** When exactly one pattern matches, the iteration order does not matter. -/
theorem C31_order_independent_without_overlap (subject : Str) (patterns patterns' : List Str)
    (hp : patterns.Perm patterns')
    (h1 : ∀ p ∈ patterns, ∀ q ∈ patterns, PatternMatches p subject → PatternMatches q subject → p = q) :
    consume subject patterns = consume subject patterns' := by
  rcases C31_routed_to_a_match subject patterns with ⟨p, hp1, hp2, hp3⟩ | ⟨hn, hc⟩
  · rcases C31_routed_to_a_match subject patterns' with ⟨q, hq1, hq2, hq3⟩ | ⟨hn', _⟩
    · rw [hp3, hq3, h1 p hp1 q (hp.mem_iff.mpr hq1) hp2 hq2]
    · exact absurd hp2 (hn' p (hp.mem_iff.mp hp1))
  · rcases C31_routed_to_a_match subject patterns' with ⟨q, hq1, hq2, _⟩ | ⟨_, hc'⟩
    · exact absurd hq2 (hn q (hp.mem_iff.mpr hq1))
    · rw [hc, hc']

/-- Finding: with overlapping patterns, which subscription gets a message depends on Go's map iteration
order. -/
theorem C31_overlap_depends_on_order :
    consume "a.b".toList ["a.*".toList, "a.>".toList] = .handed "a.*".toList ∧
    consume "a.b".toList ["a.>".toList, "a.*".toList] = .handed "a.>".toList := by decide

example : consume "x.y".toList ["a.*".toList, "x.*.z".toList] = .ackedAndDropped := by decide

/-- The calls of C32's partial theorem: starting to consume succeeds, and no channel is subscribed while
it already is. -/
def Fine (s : St) : Op → Prop
  | .subscribe ch ok => ok = true ∧ ∀ id, (id, ch) ∉ s.subs
  | .cancel _ => True

/-- Every call of the history is fine when it is made. -/
def AllFine (s : St) : List Op → Prop
  | [] => True
  | o :: os => Fine s o ∧ AllFine (step s o) os

structure Inv (s : St) : Prop where
  noCrash : s.crashed = false
  back : ∀ ch q, s.chans.get ch = some q → ∃ id, (id, ch) ∈ s.subs ∧ (id, q) ∈ s.readers
  served : ∀ id ch, (id, ch) ∈ s.subs → ∃ q, s.chans.get ch = some q ∧ (id, q) ∈ s.readers
  inj : ∀ a b q, s.chans.get a = some q → s.chans.get b = some q → a = b
  fresh : ∀ ch q, s.chans.get ch = some q → q < s.next
  freshS : ∀ id ch, (id, ch) ∈ s.subs → id < s.next
  func : ∀ id a b, (id, a) ∈ s.subs → (id, b) ∈ s.subs → a = b
  one : ∀ i j ch, (i, ch) ∈ s.subs → (j, ch) ∈ s.subs → i = j
  noOther : ∀ id q, (id, q) ∈ s.readers → ∃ ch, (id, ch) ∈ s.subs ∧ s.chans.get ch = some q
  consumes : s.consuming = true ↔ s.chans ≠ []

theorem inv_init : Inv init := by
  refine ⟨rfl, ?_, ?_, ?_, ?_, ?_, ?_, ?_, ?_, ?_⟩ <;> simp [init]

theorem inv_step {s : St} (h : Inv s) {o : Op} (hf : Fine s o) : Inv (step s o) := by
  unfold step
  rw [h.noCrash]
  simp only [Bool.false_eq_true, if_false]
  cases o with
  | subscribe ch ok =>
    obtain ⟨rfl, hnot⟩ := hf
    have hnone : s.chans.get ch = none := by
      cases hc : s.chans.get ch with
      | none => rfl
      | some q => obtain ⟨id, hid, _⟩ := h.back ch q hc; exact absurd hid (hnot id)
    simp only [subscribe, ensureQueue, hnone, Bool.not_true, Bool.and_false, Bool.false_eq_true, if_false]
    refine ⟨h.noCrash, ?_, ?_, ?_, ?_, ?_, ?_, ?_, ?_, ?_⟩
    · intro c q hq
      simp only [GoMap.get_put] at hq
      by_cases hc : ch = c
      · subst hc
        simp only [if_true, Option.some.injEq] at hq
        subst hq
        exact ⟨s.next + 1, by simp, by simp⟩
      · simp only [hc, if_false] at hq
        obtain ⟨id, h1, h2⟩ := h.back c q hq
        exact ⟨id, by simp [h1], by simp [h2]⟩
    · intro id c hm
      simp only [List.mem_append, List.mem_singleton, Prod.mk.injEq] at hm
      rcases hm with hm | ⟨rfl, rfl⟩
      · obtain ⟨q, h1, h2⟩ := h.served id c hm
        have hc : ch ≠ c := by rintro rfl; exact hnot id hm
        exact ⟨q, by simp [hc, h1], by simp [h2]⟩
      · exact ⟨s.next, by simp, by simp⟩
    · intro a b q ha hb
      simp only [GoMap.get_put] at ha hb
      by_cases h1 : ch = a <;> by_cases h2 : ch = b
      · rw [← h1, ← h2]
      · simp only [h1, if_true, Option.some.injEq] at ha
        simp only [h2, if_false] at hb
        have := h.fresh b q hb
        omega
      · simp only [h2, if_true, Option.some.injEq] at hb
        simp only [h1, if_false] at ha
        have := h.fresh a q ha
        omega
      · simp only [h1, h2, if_false] at ha hb
        exact h.inj a b q ha hb
    · intro c q hq
      simp only [GoMap.get_put] at hq
      by_cases hc : ch = c
      · simp only [hc, if_true, Option.some.injEq] at hq
        simp only; omega
      · simp only [hc, if_false] at hq
        have := h.fresh c q hq
        simp only; omega
    · intro id c hm
      simp only [List.mem_append, List.mem_singleton, Prod.mk.injEq] at hm
      rcases hm with hm | hm
      · have := h.freshS id c hm; simp only; omega
      · simp only; omega
    · intro id a b ha hb
      simp only [List.mem_append, List.mem_singleton, Prod.mk.injEq] at ha hb
      rcases ha with ha | ha <;> rcases hb with hb | hb
      · exact h.func id a b ha hb
      · have := h.freshS id a ha; omega
      · have := h.freshS id b hb; omega
      · rw [ha.2, hb.2]
    · intro i j c hi hj
      simp only [List.mem_append, List.mem_singleton, Prod.mk.injEq] at hi hj
      rcases hi with hi | hi <;> rcases hj with hj | hj
      · exact h.one i j c hi hj
      · rw [hj.2] at hi; exact absurd hi (hnot i)
      · rw [hi.2] at hj; exact absurd hj (hnot j)
      · rw [hi.1, hj.1]
    · intro id q hm
      simp only [List.mem_append, List.mem_singleton, Prod.mk.injEq] at hm
      rcases hm with hm | ⟨rfl, rfl⟩
      · obtain ⟨c, h1, h2⟩ := h.noOther id q hm
        have hc : ch ≠ c := by rintro rfl; exact hnot id h1
        exact ⟨c, by simp [h1], by simp [hc, h2]⟩
      · exact ⟨ch, by simp, by simp⟩
    · simp [GoMap.put]
  | cancel id =>
    simp only [cancel]
    cases hfnd : s.subs.find? (fun e => e.1 == id) with
    | none => exact h
    | some e =>
      obtain ⟨id', ch⟩ := e
      have hid : id' = id := by
        have := List.find?_some hfnd
        simpa using this
      subst hid
      have hmem := List.mem_of_find?_eq_some hfnd
      obtain ⟨q, hq, hrd⟩ := h.served id' ch hmem
      simp only [hq]
      have hother : ∀ i c, (i, c) ∈ s.subs → i ≠ id' → c ≠ ch := by
        rintro i c hm hne rfl
        exact hne (h.one i id' c hm hmem)
      refine ⟨h.noCrash, ?_, ?_, ?_, ?_, ?_, ?_, ?_, ?_, ?_⟩
      · intro c p hp
        simp only [GoMap.get_del] at hp
        by_cases hc : ch = c
        · simp [hc] at hp
        · simp only [hc, if_false] at hp
          obtain ⟨i, h1, h2⟩ := h.back c p hp
          have hi : i ≠ id' := by
            rintro rfl
            exact hc (h.func i ch c hmem h1)
          have hpq : p ≠ q := by
            rintro rfl
            exact hc (h.inj ch c p hq hp)
          exact ⟨i, by simp [h1, hi], by simp [h2, hpq]⟩
      · intro i c hm
        simp only [List.mem_filter, Bool.not_eq_true', decide_eq_false_iff_not] at hm
        obtain ⟨p, h1, h2⟩ := h.served i c hm.1
        have hc := hother i c hm.1 hm.2
        have hpq : p ≠ q := by
          rintro rfl
          exact hc (h.inj c ch p h1 hq)
        exact ⟨p, by simp [GoMap.get_del, Ne.symm hc, h1], by simp [h2, hpq]⟩
      · intro a b p ha hb
        simp only [GoMap.get_del] at ha hb
        split at ha
        · cases ha
        · split at hb
          · cases hb
          · exact h.inj a b p ha hb
      · intro c p hp
        simp only [GoMap.get_del] at hp
        split at hp
        · cases hp
        · exact h.fresh c p hp
      · intro i c hm
        exact h.freshS i c (List.mem_filter.mp hm).1
      · intro i a b ha hb
        exact h.func i a b (List.mem_filter.mp ha).1 (List.mem_filter.mp hb).1
      · intro i j c hi hj
        exact h.one i j c (List.mem_filter.mp hi).1 (List.mem_filter.mp hj).1
      · intro i p hm
        simp only [List.mem_filter, Bool.not_eq_true', decide_eq_false_iff_not] at hm
        obtain ⟨c, h1, h2⟩ := h.noOther i p hm.1
        have hc : ch ≠ c := by
          rintro rfl
          rw [hq] at h2; cases h2; exact hm.2 rfl
        have hi : i ≠ id' := by
          rintro rfl
          exact hc (h.func i ch c hmem h1)
        exact ⟨c, by simp [h1, hi], by simp [GoMap.get_del, hc, h2]⟩
      · have hne : s.chans ≠ [] := by intro e; rw [e] at hq; cases hq
        have ht := h.consumes.2 hne
        simp only [ht, List.length_eq_zero_iff]
        split <;> simp_all

/-- **C32 (partial: one subscription per channel at a time, and consuming never fails to start).** Opening
and cancelling in any order never crashes, leaves no queue without reader, and every subscription not
cancelled reads the queue of its channel. Missing: several subscriptions to one channel and failures,
for which it is false (below). -/
theorem C32_healthy_partial (os : List Op) (h : AllFine init os) : Healthy (run init os) := by
  have key : ∀ (os : List Op) (s : St), Inv s → AllFine s os → Inv (run s os) := by
    intro os
    induction os with
    | nil => intro s hi _; exact hi
    | cons o os ih => intro s hi hf; exact ih _ (inv_step hi hf.1) hf.2
  have hi := key os init inv_init h
  refine ⟨hi.noCrash, fun ch q hq => by obtain ⟨id, _, h2⟩ := hi.back ch q hq; exact ⟨id, h2⟩, hi.served, hi.noOther, ?_⟩
  rw [hi.consumes]
  constructor
  · intro hne e
    cases hc : (run init os).chans with
    | nil => exact hne hc
    | cons p ps =>
      obtain ⟨id, hid, _⟩ := hi.back p.1 p.2 (by rw [hc]; simp [GoMap.get])
      rw [e] at hid; cases hid
  · intro hne e
    cases hs : (run init os).subs with
    | nil => exact hne hs
    | cons p ps =>
      obtain ⟨q, hq, _⟩ := hi.served p.1 p.2 (by rw [hs]; simp)
      rw [e] at hq; cases hq

example : AllFine init [.subscribe ['a'] true, .subscribe ['b'] true, .cancel 1, .subscribe ['a'] true] := by
  refine ⟨⟨rfl, by simp [init]⟩, ⟨rfl, ?_⟩, trivial, ⟨rfl, ?_⟩, trivial⟩
  · intro id
    simp [init, step, subscribe, ensureQueue]
  · intro id
    simp [init, step, subscribe, cancel, ensureQueue, GoMap.put, GoMap.del]

/-- **C32 is violated** (1): when consuming fails to start, the queue of the channel stays behind without
reader; a message routed to it would block the consumer. -/
theorem C32_violated_orphan_queue :
    (run init [.subscribe ['a'] false]).chans.get ['a'] = some 0 ∧
    (run init [.subscribe ['a'] false]).readers = [] ∧ (run init [.subscribe ['a'] false]).subs = [] := by
  decide

/-- **C32 is violated** (2): two subscriptions to one channel; cancelling the first one stops the second,
cancelling the second one crashes. -/
theorem C32_violated_two_subscriptions :
    (run init [.subscribe ['a'] true, .subscribe ['a'] true, .cancel 1]).subs = [(2, ['a'])] ∧
    (run init [.subscribe ['a'] true, .subscribe ['a'] true, .cancel 1]).readers = [] ∧
    (run init [.subscribe ['a'] true, .subscribe ['a'] true, .cancel 1, .cancel 2]).crashed = true := by
  decide

end Verif.JetStream
