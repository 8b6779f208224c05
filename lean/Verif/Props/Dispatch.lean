import Verif.Model.Dispatch

/-! # C78: handlers do not wait for each other -/

namespace Verif.Dispatch

variable {M : Type}

/-- The messages for one subscription, in order. -/
def forLane (i : Nat) (msgs : List (Nat × M)) : List M := (msgs.filter (fun m => m.1 == i)).map (·.2)

/-! ## Invariant -/

/-- Everything the dispatcher took is at a subscription or in its hand; nothing is lost, repeated or overtaken. -/
structure Inv (cap : Nat) (msgs : List (Nat × M)) (s : St M) : Prop where
  source : ∃ taken, taken ++ s.hand.toList ++ s.pending = msgs ∧
    ∀ i, (s.lanes i).started ++ (s.lanes i).queue = forLane i taken
  bounded : ∀ i, (s.lanes i).queue.length ≤ cap

theorem forLane_append (i : Nat) (a b : List (Nat × M)) : forLane i (a ++ b) = forLane i a ++ forLane i b := by
  simp [forLane]

theorem inv_init (cap : Nat) (msgs : List (Nat × M)) : Inv cap msgs (init msgs) :=
  ⟨⟨[], rfl, fun _ => rfl⟩, fun _ => Nat.zero_le _⟩

theorem upd_same (f : Nat → Lane M) (i : Nat) (l : Lane M) : upd f i l i = l := if_pos rfl

theorem upd_ne (f : Nat → Lane M) {i j : Nat} (l : Lane M) (h : j ≠ i) : upd f i l j = f j := if_neg h

theorem inv_step {cap : Nat} {msgs : List (Nat × M)} {s s' : St M} (a : Act) (h : Inv cap msgs s)
    (hs : step cap s a = some s') : Inv cap msgs s' := by
  obtain ⟨⟨taken, h1, h2⟩, h3⟩ := h
  cases a with
  | fetch =>
    simp only [step] at hs
    split at hs
    · rename_i m rest hh hp
      cases hs
      refine ⟨⟨taken, ?_, h2⟩, h3⟩
      rw [hh, hp] at h1
      simpa using h1
    · cases hs
  | put =>
    simp only [step] at hs
    split at hs
    · rename_i i m hh
      split at hs
      · rename_i hlt
        cases hs
        refine ⟨⟨taken ++ [(i, m)], ?_, ?_⟩, ?_⟩
        · rw [hh] at h1; simpa using h1
        · intro j
          rw [forLane_append]
          by_cases hj : j = i
          · subst hj
            simp only [upd_same, ← List.append_assoc, h2]
            simp [forLane]
          · simp only [upd_ne _ _ hj, h2]
            have : (i == j) = false := by simpa using fun h => hj h.symm
            simp [forLane, this]
        · intro j
          by_cases hj : j = i
          · subst hj; simp only [upd_same, List.length_append, List.length_singleton]; omega
          · simp only [upd_ne _ _ hj]; exact h3 j
      · cases hs
    · cases hs
  | take i =>
    simp only [step] at hs
    split at hs
    · rename_i m rest hb hq
      cases hs
      refine ⟨⟨taken, h1, ?_⟩, ?_⟩
      · intro j
        by_cases hj : j = i
        · subst hj
          have := h2 j
          rw [hq] at this
          simp only [upd_same, List.append_assoc, List.cons_append, List.nil_append, this]
        · simp only [upd_ne _ _ hj]; exact h2 j
      · intro j
        by_cases hj : j = i
        · subst hj
          have := h3 j
          rw [hq] at this
          simp only [upd_same]
          simp only [List.length_cons] at this
          omega
        · simp only [upd_ne _ _ hj]; exact h3 j
    · cases hs
  | done i =>
    simp only [step] at hs
    split at hs
    · cases hs
      refine ⟨⟨taken, h1, ?_⟩, ?_⟩ <;> intro j <;> by_cases hj : j = i
      · subst hj; simp only [upd_same]; exact h2 j
      · simp only [upd_ne _ _ hj]; exact h2 j
      · subst hj; simp only [upd_same]; exact h3 j
      · simp only [upd_ne _ _ hj]; exact h3 j
    · cases hs

theorem inv_run {cap : Nat} {msgs : List (Nat × M)} {s s' : St M} {as : List Act} (hr : Run cap s as s')
    (h : Inv cap msgs s) : Inv cap msgs s' := by
  induction hr with
  | nil => exact h
  | cons hs _ ih => exact ih (inv_step _ h hs)

/-- A handler that is running was called. -/
theorem started_of_busy {cap : Nat} {msgs : List (Nat × M)} {s : St M} {as : List Act} (hr : Run cap (init msgs) as s)
    (i : Nat) (hb : (s.lanes i).busy = true) : 0 < (s.lanes i).started.length := by
  have key : ∀ {s s' : St M} {as : List Act}, Run cap s as s' →
      (∀ j, (s.lanes j).busy = true → 0 < (s.lanes j).started.length) →
      ∀ j, (s'.lanes j).busy = true → 0 < (s'.lanes j).started.length := by
    intro s s' as hr
    induction hr with
    | nil => exact fun h => h
    | @cons s s' s'' a as hs _ ih =>
      intro h
      apply ih
      intro j hj
      cases a with
      | fetch =>
        simp only [step] at hs
        split at hs
        · cases hs; exact h j hj
        · cases hs
      | put =>
        simp only [step] at hs
        split at hs
        · split at hs
          · rename_i k m _ _
            cases hs
            by_cases hk : j = k
            · subst hk; simp only [upd_same] at hj ⊢; exact h j hj
            · simp only [upd_ne _ _ hk] at hj ⊢; exact h j hj
          · cases hs
        · cases hs
      | take k =>
        simp only [step] at hs
        split at hs
        · cases hs
          by_cases hk : j = k
          · subst hk; simp only [upd_same]; simp
          · simp only [upd_ne _ _ hk] at hj ⊢; exact h j hj
        · cases hs
      | done k =>
        simp only [step] at hs
        split at hs
        · cases hs
          by_cases hk : j = k
          · subst hk; simp only [upd_same] at hj; cases hj
          · simp only [upd_ne _ _ hk] at hj ⊢; exact h j hj
        · cases hs
  exact key hr (by intro j hj; simp [init] at hj) i hb

/-- A handler that never returns was called at most once. -/
theorem started_le_one {cap : Nat} {s s' : St M} {as : List Act} (hr : Run cap s as s') (i : Nat) (hno : Act.done i ∉ as)
    (h : (s.lanes i).started.length ≤ (if (s.lanes i).busy then 1 else 0)) :
    (s'.lanes i).started.length ≤ (if (s'.lanes i).busy then 1 else 0) := by
  induction hr with
  | nil => exact h
  | @cons s s' s'' a as hs _ ih =>
    apply ih (fun hm => hno (List.mem_cons_of_mem _ hm))
    cases a with
    | fetch =>
      simp only [step] at hs
      split at hs
      · cases hs; exact h
      · cases hs
    | put =>
      simp only [step] at hs
      split at hs
      · split at hs
        · rename_i k m _ _
          cases hs
          by_cases hk : i = k
          · subst hk; simp only [upd_same]; exact h
          · simp only [upd_ne _ _ hk]; exact h
        · cases hs
      · cases hs
    | take k =>
      simp only [step] at hs
      split at hs
      · rename_i m rest hb hq
        cases hs
        by_cases hk : i = k
        · subst hk
          rw [hb] at h
          simp only [upd_same, if_true, List.length_append, List.length_singleton]
          simp only [Bool.false_eq_true, if_false] at h
          omega
        · simp only [upd_ne _ _ hk]; exact h
      · cases hs
    | done k =>
      simp only [step] at hs
      split at hs
      · cases hs
        by_cases hk : i = k
        · subst hk; exact absurd List.mem_cons_self hno
        · simp only [upd_ne _ _ hk]; exact h
      · cases hs

/-! ## How long it can take -/

/-- What is left to do at a subscription. -/
def laneWork (l : Lane M) : Nat := 2 * l.queue.length + (if l.busy then 1 else 0)

/-- What is left to do, at the first `n` subscriptions. -/
def work (n : Nat) (s : St M) : Nat :=
  4 * s.pending.length + 3 * s.hand.toList.length + ((List.range n).map (fun i => laneWork (s.lanes i))).sum

theorem sum_upd (f : Nat → Lane M) (i : Nat) (l : Lane M) : ∀ n, i < n →
    ((List.range n).map (fun j => laneWork (upd f i l j))).sum + laneWork (f i) =
    ((List.range n).map (fun j => laneWork (f j))).sum + laneWork l := by
  intro n
  induction n with
  | zero => intro h; omega
  | succ n ih =>
    intro h
    simp only [List.range_succ, List.map_append, List.map_cons, List.map_nil, List.sum_append, List.sum_cons, List.sum_nil]
    by_cases hi : i = n
    · subst hi
      rw [upd_same]
      have : ((List.range i).map (fun j => laneWork (upd f i l j))) = ((List.range i).map (fun j => laneWork (f j))) := by
        apply List.map_congr_left
        intro j hj
        rw [upd_ne _ _ (by have := List.mem_range.1 hj; omega)]
      rw [this]; omega
    · have := ih (by omega)
      rw [upd_ne _ _ (show n ≠ i from fun h => hi h.symm)]
      omega

theorem work_step {cap n : Nat} {s s' : St M} (a : Act) (hs : step cap s a = some s')
    (hn : (∀ p ∈ s.hand.toList, p.1 < n) ∧ ∀ i, ¬ i < n → s.lanes i = {}) : work n s' < work n s := by
  cases a with
  | fetch =>
    simp only [step] at hs
    split at hs
    · rename_i m rest hh hp
      cases hs
      simp only [work, hh, hp, Option.toList, List.length_cons, List.length_nil]
      omega
    · cases hs
  | put =>
    simp only [step] at hs
    split at hs
    · rename_i i m hh
      split at hs
      · cases hs
        have hi : i < n := hn.1 (i, m) (by rw [hh]; simp)
        have := sum_upd s.lanes i { s.lanes i with queue := (s.lanes i).queue ++ [m] } n hi
        simp only [laneWork, List.length_append, List.length_singleton] at this
        simp only [work, hh, Option.toList, List.length_cons, List.length_nil, laneWork]
        omega
      · cases hs
    · cases hs
  | take i =>
    simp only [step] at hs
    split at hs
    · rename_i m rest hb hq
      cases hs
      have hi : i < n := by
        rcases Nat.lt_or_ge i n with h | h
        · exact h
        · rw [hn.2 i (by omega)] at hq; cases hq
      have := sum_upd s.lanes i { queue := rest, busy := true, started := (s.lanes i).started ++ [m] } n hi
      simp only [laneWork, hb, hq, if_true, Bool.false_eq_true, if_false, List.length_cons] at this
      simp only [work, laneWork]
      omega
    · cases hs
  | done i =>
    simp only [step] at hs
    split at hs
    · rename_i hb
      cases hs
      have hi : i < n := by
        rcases Nat.lt_or_ge i n with h | h
        · exact h
        · rw [hn.2 i (by omega)] at hb; cases hb
      have := sum_upd s.lanes i { s.lanes i with busy := false } n hi
      simp only [laneWork, hb, if_true, Bool.false_eq_true, if_false] at this
      simp only [work, laneWork]
      omega
    · cases hs

theorem within_step {cap n : Nat} {s s' : St M} (a : Act) (hs : step cap s a = some s')
    (hn : (∀ p ∈ s.hand.toList ++ s.pending, p.1 < n) ∧ ∀ i, ¬ i < n → s.lanes i = {}) :
    (∀ p ∈ s'.hand.toList ++ s'.pending, p.1 < n) ∧ ∀ i, ¬ i < n → s'.lanes i = {} := by
  obtain ⟨h1, h2⟩ := hn
  cases a with
  | fetch =>
    simp only [step] at hs
    split at hs
    · rename_i m rest hh hp
      cases hs
      rw [hh, hp] at h1
      exact ⟨h1, h2⟩
    · cases hs
  | put =>
    simp only [step] at hs
    split at hs
    · rename_i i m hh
      split at hs
      · cases hs
        have hi : i < n := h1 (i, m) (by rw [hh]; simp)
        refine ⟨fun p hp => h1 p (List.mem_append_right _ hp), fun j hj => ?_⟩
        show upd s.lanes i _ j = _
        rw [upd_ne _ _ (show j ≠ i by omega)]
        exact h2 j hj
      · cases hs
    · cases hs
  | take i =>
    simp only [step] at hs
    split at hs
    · rename_i m rest hb hq
      cases hs
      refine ⟨h1, fun j hj => ?_⟩
      by_cases hji : j = i
      · subst hji; rw [h2 j hj] at hq; cases hq
      · simp only [upd_ne _ _ hji]; exact h2 j hj
    · cases hs
  | done i =>
    simp only [step] at hs
    split at hs
    · rename_i hb
      cases hs
      refine ⟨h1, fun j hj => ?_⟩
      by_cases hji : j = i
      · subst hji; rw [h2 j hj] at hb; cases hb
      · simp only [upd_ne _ _ hji]; exact h2 j hj
    · cases hs

theorem length_run {cap n : Nat} {s s' : St M} {as : List Act} (hr : Run cap s as s')
    (hn : (∀ p ∈ s.hand.toList ++ s.pending, p.1 < n) ∧ ∀ i, ¬ i < n → s.lanes i = {}) : as.length + work n s' ≤ work n s := by
  induction hr with
  | nil => simp
  | @cons s s' s'' a as hs _ ih =>
    have h1 := ih (within_step a hs hn)
    have h2 := work_step a hs ⟨fun p hp => hn.1 p (List.mem_append_left _ hp), hn.2⟩
    simp only [List.length_cons]
    omega

/-! ## The theorems -/

/-- **C78.** For every schedule, every handler is called with the messages of its subscription in the order of the source:
none is lost, repeated or overtaken. -/
theorem C78_in_order (cap : Nat) (msgs : List (Nat × M)) (as : List Act) (s : St M) (hr : Run cap (init msgs) as s) (i : Nat) :
    (s.lanes i).started <+: forLane i msgs := by
  obtain ⟨⟨taken, h1, h2⟩, _⟩ := inv_run hr (inv_init cap msgs)
  rw [← h1, forLane_append, forLane_append, ← h2 i]
  simp only [List.append_assoc]
  exact List.prefix_append _ _

/-- **C78.** Every schedule comes to an end: it has at most four actions per message. -/
theorem C78_ends (cap : Nat) (msgs : List (Nat × M)) (as : List Act) (s : St M) (hr : Run cap (init msgs) as s) :
    as.length ≤ 4 * msgs.length := by
  have hb : ∃ n, ∀ p ∈ msgs, p.1 < n := by
    clear hr
    induction msgs with
    | nil => exact ⟨0, by simp⟩
    | cons m rest ih =>
      obtain ⟨n, hn⟩ := ih
      refine ⟨n + m.1 + 1, fun p hp => ?_⟩
      rcases List.mem_cons.1 hp with rfl | hp
      · omega
      · have := hn p hp; omega
  obtain ⟨n, hn⟩ := hb
  have h := length_run hr (n := n) ⟨by simpa [init] using hn, fun _ _ => rfl⟩
  have hz : ((List.range n).map (fun i => laneWork ((init msgs).lanes i))).sum = 0 := by
    clear h hn
    induction n with
    | zero => rfl
    | succ n ih => rw [List.range_succ, List.map_append, List.sum_append, ih]; rfl
  have hw : work n (init msgs) = 4 * msgs.length := by
    unfold work
    rw [hz]
    simp [init]
  omega

/-- No action is possible any more, except that handlers of the subscriptions in `stalled` could still return. -/
def Quiescent (cap : Nat) (stalled : Nat → Prop) (s : St M) : Prop :=
  ∀ a s', step cap s a = some s' → ∃ i, stalled i ∧ a = .done i

/-- **C78 (partial: nobody stalls for too long).** When nothing is possible any more but the return of the handlers of
some subscriptions, and none of those has more messages than the one its handler runs on and those its buffer
holds, every message of the other subscriptions was handed to its handler. Missing: a stalled subscription with more
messages (below). With nobody stalled: once nothing is possible any more, every handler got everything. -/
theorem C78_isolated_partial (cap : Nat) (hcap : 0 < cap) (msgs : List (Nat × M)) (stalled : Nat → Prop)
    (hfew : ∀ i, stalled i → (forLane i msgs).length ≤ cap + 1) (as : List Act) (s : St M)
    (hr : Run cap (init msgs) as s) (hq : Quiescent cap stalled s) (i : Nat) (hi : ¬ stalled i) :
    (s.lanes i).started = forLane i msgs := by
  obtain ⟨⟨taken, h1, h2⟩, h3⟩ := inv_run hr (inv_init cap msgs)
  -- no handler that may return is running
  have hbusy : ∀ j, ¬ stalled j → (s.lanes j).busy = false := by
    intro j hj
    cases hb : (s.lanes j).busy with
    | false => rfl
    | true =>
      obtain ⟨k, hk, he⟩ := hq (.done j) _ (by simp only [step, hb, if_true]; rfl)
      cases he
      exact absurd hk hj
  have htake : ∀ j, (s.lanes j).busy = false → (s.lanes j).queue = [] := by
    intro j hb
    cases hqu : (s.lanes j).queue with
    | nil => rfl
    | cons m rest =>
      obtain ⟨k, _, he⟩ := hq (.take j) _ (by simp only [step, hb, hqu]; rfl)
      cases he
  have hhand : s.hand = none := by
    cases hh : s.hand with
    | none => rfl
    | some p =>
      obtain ⟨j, m⟩ := p
      exfalso
      by_cases hlt : (s.lanes j).queue.length < cap
      · obtain ⟨k, _, he⟩ := hq .put _ (by simp only [step, hh, if_pos hlt]; rfl)
        cases he
      · have hne : (s.lanes j).queue ≠ [] := by intro h; rw [h] at hlt; exact hlt hcap
        have hb : (s.lanes j).busy = true := by
          cases hb : (s.lanes j).busy with
          | true => rfl
          | false => exact absurd (htake j hb) hne
        have hst : stalled j := by
          by_cases hst : stalled j
          · exact hst
          · rw [hbusy j hst] at hb; cases hb
        have hlen : (forLane j msgs).length = (forLane j taken).length + 1 + (forLane j s.pending).length := by
          rw [← h1, hh, forLane_append, forLane_append, List.length_append, List.length_append]
          simp [forLane]
        have hstart : 0 < (s.lanes j).started.length := started_of_busy hr j hb
        have := congrArg List.length (h2 j)
        rw [List.length_append] at this
        have := hfew j hst
        omega
  have hpend : s.pending = [] := by
    cases hp : s.pending with
    | nil => rfl
    | cons m rest =>
      obtain ⟨k, _, he⟩ := hq .fetch _ (by simp only [step, hhand, hp]; rfl)
      cases he
  rw [hhand, hpend] at h1
  simp only [Option.toList, List.append_nil] at h1
  have := h2 i
  rw [htake i (hbusy i hi), List.append_nil, h1] at this
  exact this

/-- **C78 is violated by a handler that does not return.** Whatever the size of the buffers: when a subscription gets two
messages more than its buffer holds and its handler does not return from the first, a later message of another
subscription is never handed to its handler, whatever the schedule. -/
theorem C78_violated (cap : Nat) (m m' : M) (as : List Act) (s : St M)
    (hr : Run cap (init (List.replicate (cap + 2) (0, m) ++ [(1, m')])) as s) (hno : Act.done 0 ∉ as) :
    (s.lanes 1).started = [] := by
  obtain ⟨⟨taken, h1, h2⟩, h3⟩ := inv_run hr (inv_init cap _)
  have hle := started_le_one hr 0 hno (by simp [init])
  have hle' : (s.lanes 0).started.length ≤ 1 := by
    refine Nat.le_trans hle ?_
    split <;> omega
  have hq := h3 0
  have hlen := congrArg List.length (h2 0)
  rw [List.length_append] at hlen
  -- the dispatcher took fewer messages than the first subscription has
  have htaken : ∀ p ∈ taken, p.1 = 0 := by
    intro p hp
    have hpre : taken <+: List.replicate (cap + 2) (0, m) ++ [(1, m')] := ⟨s.hand.toList ++ s.pending, by rw [← h1]; simp⟩
    rcases List.prefix_concat_iff.1 hpre with hall | hpre
    · exfalso
      have : (forLane 0 taken).length = cap + 2 := by
        rw [hall, forLane_append]
        simp [forLane]
      omega
    · rw [List.eq_of_mem_replicate (hpre.subset hp)]
  have : forLane 1 taken = [] := by
    unfold forLane
    rw [List.map_eq_nil_iff, List.filter_eq_nil_iff]
    intro p hp
    simp [htaken p hp]
  have h := h2 1
  rw [this] at h
  exact (List.append_eq_nil_iff.1 h).1

/-! ## Concrete cases -/

/-- Two subscriptions, buffers of one message: the first handler never returns from its first message. -/
def exMsgs : List (Nat × String) := [(0, "a"), (1, "b"), (0, "c"), (1, "d")]

def exActs : List Act :=
  [.fetch, .put, .take 0, .fetch, .put, .take 1, .fetch, .put, .done 1, .fetch, .put, .take 1, .done 1]

/-- A schedule, as a function. -/
def runs (cap : Nat) : St M → List Act → Option (St M)
  | s, [] => some s
  | s, a :: as => (step cap s a).bind (fun s' => runs cap s' as)

theorem run_of_runs (cap : Nat) : ∀ (as : List Act) (s s' : St M), runs cap s as = some s' → Run cap s as s' := by
  intro as
  induction as with
  | nil => intro s s' h; cases h; exact .nil s
  | cons a as ih =>
    intro s s' h
    obtain ⟨s1, h1, h2⟩ := Option.bind_eq_some_iff.1 h
    exact .cons h1 (ih s1 s' h2)

/-- The isolation theorem is about states like this one: nothing is possible but the return of the first handler. -/
example : ∃ s, Run 1 (init exMsgs) exActs s ∧ Quiescent 1 (· = 0) s ∧ (∀ i, i = 0 → (forLane i exMsgs).length ≤ 1 + 1) ∧
    (s.lanes 1).started = ["b", "d"] := by
  have h : runs 1 (init exMsgs) exActs = some _ := rfl
  refine ⟨_, run_of_runs 1 _ _ _ h, ?_, ?_, rfl⟩
  · intro a s' hs
    cases a with
    | fetch => cases hs
    | put => cases hs
    | take i =>
      match i with
      | 0 => cases hs
      | 1 => cases hs
      | n + 2 => cases hs
    | done i =>
      match i with
      | 0 => exact ⟨0, rfl, rfl⟩
      | 1 => cases hs
      | n + 2 => cases hs
  · rintro i rfl; decide

/-- The blocked state is reached. -/
example : ∃ s, Run 1 (init (List.replicate (1 + 2) (0, "a") ++ [(1, "b")])) [.fetch, .put, .take 0, .fetch, .put, .fetch] s ∧
    step 1 s .put = none ∧ step 1 s .fetch = none ∧ s.pending = [(1, "b")] :=
  ⟨_, run_of_runs 1 _ _ _ rfl, rfl, rfl, rfl⟩

end Verif.Dispatch
