import Verif.Model.JetRace

/-! # C90: JetStream messages that arrive while subscriptions come and go -/

namespace Verif.JetRace

variable {K M : Type} [DecidableEq K]

/-- An action that is careful: one subscription to a channel at a time, and cancellation only of a subscription whose
reader waits, while the consumer has no message. -/
def Careful (s : St K M) : Act K M → Prop
  | .subscribe k => ∀ i, s.sub i = .live → s.key i ≠ some k
  | .cleanup i => s.con = .idle ∧ ∃ q, s.phase i = .waiting q
  | _ => True

/-- States reached by careful actions. -/
inductive Reach : St K M → Prop
  | init : Reach init
  | step {s s' : St K M} {a : Act K M} (h : Reach s) (ha : Careful s a) (hs : step s a = some s') : Reach s'

/-- The message the consumer has. -/
def inFlight (s : St K M) : List (K × M) :=
  match s.con with
  | .idle => []
  | .picked m => [m]
  | .sending _ m => [m]
  | .stuck m => [m]

/-- The message a reader has. -/
def inHand (p : Phase K M) : List (K × M) :=
  match p with
  | .handling _ m => [m]
  | _ => []

/-- What went to a subscription. -/
def ofSub (i : Nat) (l : List (Nat × K × M)) : List (K × M) := (l.filter (fun e => e.1 == i)).map (·.2)

/-- A reader in its subscription: its channel carries the number of the subscription. -/
def ReaderOk (i : Nat) (b : Sub) : Phase K M → Prop
  | .absent => b = .absent
  | .starting => b = .live
  | .waiting q => q = i ∧ b ≠ .absent
  | .handling q _ => q = i ∧ b = .live
  | .ended => b = .cleaned ∨ b = .closed
  | .stuck => False

/-- What careful actions keep. -/
structure Inv (s : St K M) : Prop where
  alive : s.panicked = false
  chans : ∀ k q, s.chans.get k = some q ↔ s.sub q = .live ∧ s.key q = some k
  closed : ∀ q, s.closed q = true ↔ s.sub q = .cleaned ∨ s.sub q = .closed
  fresh : ∀ i, s.next ≤ i → s.sub i = .absent
  reader : ∀ i, ReaderOk i (s.sub i) (s.phase i)
  keyed : ∀ i, s.sub i ≠ .absent → ∃ k, s.key i = some k
  picked : ∀ m, s.con = .picked m → ∃ q, s.chans.get m.1 = some q
  sending : ∀ q m, s.con = .sending q m → s.chans.get m.1 = some q
  unstuck : ∀ m, s.con ≠ .stuck m
  handedKey : ∀ e ∈ s.handed, s.key e.1 = some e.2.1
  handedLt : ∀ e ∈ s.handed, e.1 < s.next
  perm : s.arrived.Perm (s.dropped ++ (s.handed.map (·.2) ++ inFlight s))
  order : (s.handed.map (·.2) ++ inFlight s).Sublist s.arrived
  mail : ∀ i, ofSub i s.handed = ofSub i s.mail ++ inHand (s.phase i)

theorem upd_self {α : Type} (f : Nat → α) (i : Nat) (x : α) : upd f i x i = x := by simp [upd]

theorem upd_ne {α : Type} (f : Nat → α) {i j : Nat} (x : α) (h : j ≠ i) : upd f i x j = f j := by simp [upd, h]

theorem inv_init : Inv (init : St K M) := by
  refine ⟨rfl, ?_, ?_, fun _ _ => rfl, fun _ => rfl, ?_, ?_, ?_, ?_, ?_, ?_, ?_, ?_, fun _ => rfl⟩ <;>
    simp [init, inFlight]

theorem inv_subscribe {s : St K M} (h : Inv s) (k : K) (hk : ∀ i, s.sub i = .live → s.key i ≠ some k) :
    Inv (subscribe s k) := by
  have hn : s.chans.get k = none := by
    cases hg : s.chans.get k with
    | none => rfl
    | some q => exact absurd ((h.chans k q).1 hg).2 (hk q ((h.chans k q).1 hg).1)
  have hf := h.fresh s.next (Nat.le_refl _)
  have hph : s.phase s.next = .absent := by
    have := h.reader s.next
    rw [hf] at this
    cases hp : s.phase s.next <;> simp_all [ReaderOk]
  have hch : (subscribe s k).chans = s.chans.put k s.next := by simp [subscribe, hn]
  refine ⟨h.alive, ?_, ?_, ?_, ?_, ?_, ?_, ?_, h.unstuck, ?_, ?_, h.perm, h.order, ?_⟩
  · intro k' q
    rw [hch, GoMap.get_put]
    by_cases hq : q = s.next
    · subst hq
      simp only [subscribe, upd_self, Option.some.injEq, true_and]
      by_cases hkk : k = k'
      · simp [hkk]
      · simp only [hkk, if_false, iff_false]
        intro hg
        have := ((h.chans k' s.next).1 hg).1
        rw [hf] at this; cases this
    · simp only [subscribe, upd_ne _ _ hq]
      by_cases hkk : k = k'
      · subst hkk
        simp only [if_true, Option.some.injEq]
        constructor
        · intro e; exact absurd e.symm hq
        · intro e; exact absurd e.2 (hk q e.1)
      · simp only [hkk, if_false]; exact h.chans k' q
  · intro q
    by_cases hq : q = s.next
    · subst hq
      have := h.closed s.next
      rw [hf] at this
      simp only [subscribe, upd_self]
      simpa using this
    · simp only [subscribe, upd_ne _ _ hq]; exact h.closed q
  · intro i hi
    have hne : i ≠ s.next := by simp only [subscribe] at hi; omega
    simp only [subscribe, upd_ne _ _ hne]
    exact h.fresh i (by simp only [subscribe] at hi; omega)
  · intro i
    by_cases hi : i = s.next
    · subst hi; simp [subscribe, upd_self, ReaderOk]
    · simp only [subscribe, upd_ne _ _ hi]; exact h.reader i
  · intro i
    by_cases hi : i = s.next
    · subst hi; simp [subscribe, upd_self]
    · simp only [subscribe, upd_ne _ _ hi]; exact h.keyed i
  · intro m hm
    obtain ⟨q, hq⟩ := h.picked m hm
    rw [hch, GoMap.get_put]
    by_cases hkk : k = m.1
    · subst hkk; rw [hn] at hq; cases hq
    · exact ⟨q, by simp [hkk, hq]⟩
  · intro q m hm
    have hq := h.sending q m hm
    rw [hch, GoMap.get_put]
    by_cases hkk : k = m.1
    · subst hkk; rw [hn] at hq; cases hq
    · simp [hkk, hq]
  · intro e he
    have hne : e.1 ≠ s.next := by have := h.handedLt e he; omega
    simp only [subscribe, upd_ne _ _ hne]
    exact h.handedKey e he
  · intro e he
    have := h.handedLt e he
    simp only [subscribe]; omega
  · intro i
    by_cases hi : i = s.next
    · subst hi
      have := h.mail s.next
      rw [hph] at this
      simpa [subscribe, upd_self, inHand] using this
    · simp only [subscribe, upd_ne _ _ hi]; exact h.mail i

theorem inv_start {s : St K M} (h : Inv s) (i : Nat) (hi : s.phase i = .starting) : Inv (start s i) := by
  have hr := h.reader i
  rw [hi] at hr
  have hl : s.sub i = .live := hr
  obtain ⟨k, hk⟩ := h.keyed i (by rw [hl]; simp)
  have hq : queueOf s i = some i := by
    unfold queueOf; rw [hk]; exact (h.chans k i).2 ⟨hl, hk⟩
  have hst : start s i = { s with phase := upd s.phase i (.waiting i) } := by simp [start, hq]
  rw [hst]
  refine { h with reader := ?_, mail := ?_ }
  · intro j
    by_cases hj : j = i
    · subst hj; simp [upd_self, ReaderOk, hl]
    · simp only [upd_ne _ _ hj]; exact h.reader j
  · intro j
    by_cases hj : j = i
    · subst hj
      have := h.mail j
      rw [hi] at this
      simpa [upd_self, inHand] using this
    · simp only [upd_ne _ _ hj]; exact h.mail j

theorem inv_arrive {s : St K M} (h : Inv s) (m : K × M) (hc : s.con = .idle) : Inv (arrive s m) := by
  have hf : inFlight s = [] := by simp [inFlight, hc]
  have hp := h.perm
  have ho := h.order
  rw [hf, List.append_nil] at hp ho
  unfold arrive
  cases hg : s.chans.get m.1 with
  | some q =>
    simp only [Option.isSome_some, if_true]
    refine { h with picked := ?_, sending := ?_, unstuck := ?_, perm := ?_, order := ?_ }
    · intro m' hm; simp only [Con.picked.injEq] at hm; subst hm; exact ⟨q, hg⟩
    · intro q' m' hm; cases hm
    · intro m' hm; cases hm
    · simp only [inFlight]
      rw [← List.append_assoc]
      exact hp.append_right _
    · simp only [inFlight]
      exact List.Sublist.append ho (List.Sublist.refl _)
  | none =>
    simp only [Option.isSome_none, Bool.false_eq_true, if_false]
    refine { h with perm := ?_, order := ?_ }
    · simp only [inFlight, hc, List.append_nil]
      refine (hp.append_right [m]).trans ?_
      rw [List.append_assoc, List.append_assoc]
      exact List.Perm.append_left _ List.perm_append_comm
    · simp only [inFlight, hc, List.append_nil]
      exact ho.trans (List.sublist_append_left _ _)

theorem inv_cleanup {s : St K M} (h : Inv s) (i : Nat) (hl : s.sub i = .live) (hc : s.con = .idle)
    (hw : ∃ q, s.phase i = .waiting q) : Inv (cleanup s i) := by
  obtain ⟨k, hk⟩ := h.keyed i (by rw [hl]; simp)
  have hg : s.chans.get k = some i := (h.chans k i).2 ⟨hl, hk⟩
  have hq : queueOf s i = some i := by unfold queueOf; rw [hk]; exact hg
  have hcl : s.closed i = false := by
    cases hb : s.closed i with
    | false => rfl
    | true => have := (h.closed i).1 hb; rw [hl] at this; simp at this
  have hst : cleanup s i = { s with chans := s.chans.del k, closed := upd s.closed i true, sub := upd s.sub i .cleaned } := by
    simp [cleanup, hk, hq, hcl]
  rw [hst]
  refine { h with chans := ?_, closed := ?_, fresh := ?_, reader := ?_, keyed := ?_, picked := ?_, sending := ?_ }
  · intro k' q
    simp only [GoMap.get_del]
    by_cases hqi : q = i
    · subst hqi
      simp only [upd_self]
      by_cases hkk : k = k'
      · simp [hkk]
      · simp only [hkk, if_false]
        constructor
        · intro e
          have := ((h.chans k' q).1 e).2
          rw [hk] at this; cases this; exact absurd rfl hkk
        · intro e; cases e.1
    · simp only [upd_ne _ _ hqi]
      by_cases hkk : k = k'
      · subst hkk
        simp only [if_true]
        constructor
        · intro e; cases e
        · intro e
          have := (h.chans k q).2 e
          rw [hg] at this; cases this; exact absurd rfl hqi
      · simp only [hkk, if_false]; exact h.chans k' q
  · intro q
    by_cases hqi : q = i
    · subst hqi; simp [upd_self]
    · simp only [upd_ne _ _ hqi]; exact h.closed q
  · intro j hj
    have hne : j ≠ i := by
      intro e; subst e
      have := h.fresh j hj; rw [hl] at this; cases this
    simp only [upd_ne _ _ hne]; exact h.fresh j hj
  · intro j
    by_cases hj : j = i
    · subst hj
      obtain ⟨q, hq'⟩ := hw
      have := h.reader j
      rw [hq'] at this
      simp only [upd_self, hq']
      exact ⟨this.1, by simp⟩
    · simp only [upd_ne _ _ hj]; exact h.reader j
  · intro j
    by_cases hj : j = i
    · subst hj; exact fun _ => ⟨k, hk⟩
    · simp only [upd_ne _ _ hj]; exact h.keyed j
  · intro m hm; rw [hc] at hm; cases hm
  · intro q m hm; rw [hc] at hm; cases hm

omit [DecidableEq K] in
theorem ofSub_append (i : Nat) (a b : List (Nat × K × M)) : ofSub i (a ++ b) = ofSub i a ++ ofSub i b := by
  simp [ofSub]

theorem inv_hand {s : St K M} (h : Inv s) (i q : Nat) (m : K × M) (hc : s.con = .sending q m)
    (hp : s.phase i = .waiting q) (hcl : s.closed q = false) :
    Inv { s with con := .idle, phase := upd s.phase i (.handling q m), handed := s.handed ++ [(i, m)] } := by
  have hr := h.reader i
  rw [hp] at hr
  obtain ⟨rfl, hb⟩ := hr
  have hg := h.sending _ _ hc
  obtain ⟨hl, hk⟩ := (h.chans _ _).1 hg
  have hf : inFlight s = [m] := by simp [inFlight, hc]
  have hperm := h.perm
  have hord := h.order
  rw [hf] at hperm hord
  refine { h with reader := ?_, picked := ?_, sending := ?_, unstuck := ?_, handedKey := ?_, handedLt := ?_, perm := ?_, order := ?_, mail := ?_ }
  · intro j
    by_cases hj : j = q
    · subst hj; simp [upd_self, ReaderOk, hl]
    · simp only [upd_ne _ _ hj]; exact h.reader j
  · intro m' hm; cases hm
  · intro q' m' hm; cases hm
  · intro m' hm; cases hm
  · intro e he
    rw [List.mem_append, List.mem_singleton] at he
    rcases he with he | rfl
    · exact h.handedKey e he
    · exact hk
  · intro e he
    rw [List.mem_append, List.mem_singleton] at he
    rcases he with he | rfl
    · exact h.handedLt e he
    · simp only
      have := h.fresh q
      rw [hl] at this
      apply Nat.lt_of_not_le
      intro hle
      cases this hle
  · simpa [inFlight] using hperm
  · simpa [inFlight] using hord
  · intro j
    rw [ofSub_append]
    by_cases hj : j = q
    · subst hj
      have := h.mail j
      rw [hp] at this
      simp only [inHand, List.append_nil] at this
      rw [this]
      simp [upd_self, inHand, ofSub]
    · simp only [upd_ne _ _ hj]
      have : ofSub j [(q, m)] = [] := by simp [ofSub, Ne.symm hj]
      rw [this, List.append_nil]
      exact h.mail j

theorem inv_transmit {s : St K M} (h : Inv s) (i q : Nat) (m : K × M) (hp : s.phase i = .handling q m) :
    Inv { s with phase := upd s.phase i (.waiting q), mail := s.mail ++ [(i, m)] } := by
  have hr := h.reader i
  rw [hp] at hr
  obtain ⟨rfl, hb⟩ := hr
  refine { h with reader := ?_, mail := ?_ }
  · intro j
    by_cases hj : j = q
    · subst hj; simp [upd_self, ReaderOk, hb]
    · simp only [upd_ne _ _ hj]; exact h.reader j
  · intro j
    rw [ofSub_append]
    by_cases hj : j = q
    · subst hj
      have := h.mail j
      rw [hp] at this
      rw [this]
      simp [upd_self, inHand, ofSub]
    · simp only [upd_ne _ _ hj]
      have : ofSub j [(q, m)] = [] := by simp [ofSub, Ne.symm hj]
      rw [this, List.append_nil]
      exact h.mail j

theorem inv_finish {s : St K M} (h : Inv s) (i q : Nat) (hp : s.phase i = .waiting q) (hcl : s.closed q = true) :
    Inv { s with phase := upd s.phase i .ended } := by
  have hr := h.reader i
  rw [hp] at hr
  obtain ⟨rfl, hb⟩ := hr
  refine { h with reader := ?_, mail := ?_ }
  · intro j
    by_cases hj : j = q
    · subst hj; simp only [upd_self]; exact (h.closed j).1 hcl
    · simp only [upd_ne _ _ hj]; exact h.reader j
  · intro j
    by_cases hj : j = q
    · subst hj
      have := h.mail j
      rw [hp] at this
      simpa [upd_self, inHand] using this
    · simp only [upd_ne _ _ hj]; exact h.mail j

theorem inv_closeMsgs {s : St K M} (h : Inv s) (i : Nat) (hl : s.sub i = .cleaned) :
    Inv { s with sub := upd s.sub i .closed } := by
  refine { h with chans := ?_, closed := ?_, fresh := ?_, reader := ?_, keyed := ?_ }
  · intro k q
    by_cases hq : q = i
    · subst hq
      have := h.chans k q
      rw [hl] at this
      simpa [upd_self] using this
    · simp only [upd_ne _ _ hq]; exact h.chans k q
  · intro q
    by_cases hq : q = i
    · subst hq
      have := h.closed q
      rw [hl] at this
      simpa [upd_self] using this
    · simp only [upd_ne _ _ hq]; exact h.closed q
  · intro j hj
    have hne : j ≠ i := by
      intro e; subst e
      have := h.fresh j hj; rw [hl] at this; cases this
    simp only [upd_ne _ _ hne]; exact h.fresh j hj
  · intro j
    by_cases hj : j = i
    · subst hj
      have := h.reader j
      rw [hl] at this
      simp only [upd_self]
      cases hp : s.phase j <;> rw [hp] at this <;> simp_all [ReaderOk]
    · simp only [upd_ne _ _ hj]; exact h.reader j
  · intro j
    by_cases hj : j = i
    · subst hj; exact fun _ => h.keyed j (by rw [hl]; simp)
    · simp only [upd_ne _ _ hj]; exact h.keyed j

theorem inv_step {s s' : St K M} {a : Act K M} (h : Inv s) (ha : Careful s a) (hs : step s a = some s') : Inv s' := by
  unfold step at hs
  rw [if_neg (by simp [h.alive])] at hs
  cases a with
  | subscribe k => simp only [Option.some.injEq] at hs; subst hs; exact inv_subscribe h k ha
  | start i =>
    simp only at hs
    split at hs
    · rename_i hp; simp only [Option.some.injEq] at hs; subst hs; exact inv_start h i hp
    · cases hs
  | arrive m =>
    simp only at hs
    split at hs
    · rename_i hp; simp only [Option.some.injEq] at hs; subst hs; exact inv_arrive h m hp
    · cases hs
  | lookup =>
    simp only at hs
    split at hs
    · rename_i m hc
      obtain ⟨q, hq⟩ := h.picked m hc
      rw [hq] at hs
      simp only [Option.some.injEq] at hs
      subst hs
      have hf : inFlight s = [m] := by simp [inFlight, hc]
      have hp := h.perm
      have ho := h.order
      rw [hf] at hp ho
      refine { h with picked := ?_, sending := ?_, unstuck := ?_, perm := hp, order := ho }
      · intro m' hm; cases hm
      · intro q' m' hm; simp only [Con.sending.injEq] at hm; obtain ⟨rfl, rfl⟩ := hm; exact hq
      · intro m' hm; cases hm
    · cases hs
  | hand i =>
    simp only at hs
    split at hs
    · rename_i q m q' hc hp
      split at hs
      · rename_i hq
        obtain ⟨rfl, hcl⟩ := hq
        simp only [Option.some.injEq] at hs
        subst hs
        exact inv_hand h i q m hc hp hcl
      · cases hs
    · cases hs
  | sendClosed =>
    simp only at hs
    split at hs
    · rename_i q m hc
      split at hs
      · rename_i hcl
        have h1 := (h.chans _ _).1 (h.sending q m hc)
        have h2 := (h.closed q).1 hcl
        rw [h1.1] at h2; simp at h2
      · cases hs
    · cases hs
  | transmit i =>
    simp only at hs
    split at hs
    · rename_i q m hp
      have hr := h.reader i
      rw [hp] at hr
      rw [hr.2] at hs
      simp only [reduceCtorEq, if_false, Option.some.injEq] at hs
      subst hs
      exact inv_transmit h i q m hp
    · cases hs
  | finish i =>
    simp only at hs
    split at hs
    · rename_i q hp
      split at hs
      · rename_i hcl
        simp only [Option.some.injEq] at hs
        subst hs
        exact inv_finish h i q hp hcl
      · cases hs
    · cases hs
  | cleanup i =>
    simp only at hs
    split at hs
    · rename_i hl
      simp only [Option.some.injEq] at hs
      subst hs
      exact inv_cleanup h i hl ha.1 ha.2
    · cases hs
  | closeMsgs i =>
    simp only at hs
    split at hs
    · rename_i hl
      simp only [Option.some.injEq] at hs
      subst hs
      exact inv_closeMsgs h i hl
    · cases hs

theorem inv_reach {s : St K M} (h : Reach s) : Inv s := by
  induction h with
  | init => exact inv_init
  | step _ ha hs ih => exact inv_step ih ha hs

/-- **C90, partial (careful cancellations).** For every schedule in which a channel has one subscription at a time and
subscriptions are cancelled only while their reader waits and the consumer has no message: the process does not crash,
neither the consumer nor a reader blocks for ever, every message that arrived was dropped, is on its way, or was handed to a
subscription to its channel; messages are handed over in the order they arrived, and each subscription gets what was handed
to its reader, in that order. Missing: other cancellations, for which it is false (below). -/
theorem C90_careful_partial (s : St K M) (h : Reach s) :
    s.panicked = false ∧ (∀ m, s.con ≠ .stuck m) ∧ (∀ i, s.phase i ≠ .stuck) ∧
    s.arrived.Perm (s.dropped ++ (s.handed.map (·.2) ++ inFlight s)) ∧
    (s.handed.map (·.2) ++ inFlight s).Sublist s.arrived ∧
    (∀ e ∈ s.handed, s.key e.1 = some e.2.1) ∧
    ∀ i, ofSub i s.handed = ofSub i s.mail ++ inHand (s.phase i) := by
  have hi := inv_reach h
  refine ⟨hi.alive, hi.unstuck, ?_, hi.perm, hi.order, hi.handedKey, hi.mail⟩
  intro i hp
  have := hi.reader i
  rw [hp] at this
  exact this

/-- **C90, partial (careful cancellations).** A message that arrives is dropped exactly when its channel has no
subscription. -/
theorem C90_dropped_partial (s s' : St K M) (h : Reach s) (m : K × M) (hs : step s (.arrive m) = some s') :
    s'.dropped = s.dropped ++ [m] ↔ ∀ i, s.sub i = .live → s.key i ≠ some m.1 := by
  have hi := inv_reach h
  unfold step at hs
  rw [if_neg (by simp [hi.alive])] at hs
  simp only at hs
  split at hs
  · simp only [Option.some.injEq] at hs
    subst hs
    unfold arrive
    cases hg : s.chans.get m.1 with
    | some q =>
      simp only [Option.isSome_some, if_true]
      have := (hi.chans m.1 q).1 hg
      constructor
      · intro e
        have := congrArg List.length e
        simp at this
      · intro e; exact absurd this.2 (e q this.1)
    | none =>
      simp only [Option.isSome_none, Bool.false_eq_true, if_false, true_iff]
      intro i hl hk
      have := (hi.chans m.1 i).2 ⟨hl, hk⟩
      rw [hg] at this; cases this
  · cases hs

/-- Actions of the controller's own goroutines. -/
def Internal : Act K M → Prop
  | .start _ | .lookup | .hand _ | .transmit _ => True
  | _ => False

theorem hand_waiting {s : St K M} {q : Nat} {m : K × M} (hp : s.panicked = false) (hc : s.con = .sending q m)
    (hph : s.phase q = .waiting q) (hcl : s.closed q = false) :
    ∃ s', run s [.hand q] = some s' ∧ s'.con = .idle ∧ (q, m) ∈ s'.handed := by
  refine ⟨{ s with con := .idle, phase := upd s.phase q (.handling q m), handed := s.handed ++ [(q, m)] }, ?_, rfl, by simp⟩
  simp [run, step, hp, hph, hc, hcl]

theorem sending_progress {s : St K M} (h : Reach s) {q : Nat} {m : K × M} (hc : s.con = .sending q m) :
    ∃ as s', (∀ a ∈ as, Internal a) ∧ run s as = some s' ∧ s'.con = .idle ∧ (q, m) ∈ s'.handed := by
  have hi := inv_reach h
  obtain ⟨hl, hk⟩ := (hi.chans _ _).1 (hi.sending q m hc)
  have hq : queueOf s q = some q := by unfold queueOf; rw [hk]; exact hi.sending q m hc
  have hcl : s.closed q = false := by
    cases hb : s.closed q with
    | false => rfl
    | true => have := (hi.closed q).1 hb; rw [hl] at this; simp at this
  have hp := hi.alive
  have hr := hi.reader q
  rw [hl] at hr
  cases hph : s.phase q with
  | absent => rw [hph] at hr; cases hr
  | starting =>
    have hs : step s (.start q) = some { s with phase := upd s.phase q (.waiting q) } := by simp [step, hp, hph, start, hq]
    obtain ⟨s', h1, h2⟩ := hand_waiting (s := { s with phase := upd s.phase q (.waiting q) }) (q := q) (m := m) hp hc
      (upd_self _ _ _) hcl
    exact ⟨[.start q, .hand q], s', by simp [Internal], by rw [run, hs]; exact h1, h2⟩
  | waiting q' =>
    rw [hph] at hr
    obtain ⟨rfl, _⟩ := hr
    obtain ⟨s', h1, h2⟩ := hand_waiting hp hc hph hcl
    exact ⟨[.hand q'], s', by simp [Internal], h1, h2⟩
  | handling q' m' =>
    rw [hph] at hr
    obtain ⟨rfl, _⟩ := hr
    have hs : step s (.transmit q') = some { s with phase := upd s.phase q' (.waiting q'), mail := s.mail ++ [(q', m')] } := by
      simp [step, hp, hph, hl]
    obtain ⟨s', h1, h2⟩ := hand_waiting
      (s := { s with phase := upd s.phase q' (.waiting q'), mail := s.mail ++ [(q', m')] }) (q := q') (m := m) hp hc
      (upd_self _ _ _) hcl
    exact ⟨[.transmit q', .hand q'], s', by simp [Internal], by rw [run, hs]; exact h1, h2⟩
  | ended => rw [hph] at hr; simp [ReaderOk] at hr
  | stuck => rw [hph] at hr; exact absurd hr (by simp [ReaderOk])

/-- **C90, partial (careful cancellations).** The controller can always finish handing over the message it has, without
any help from subscribers. -/
theorem C90_progress_partial (s : St K M) (h : Reach s) :
    ∃ as s', (∀ a ∈ as, Internal a) ∧ run s as = some s' ∧ s'.con = .idle := by
  have hi := inv_reach h
  cases hc : s.con with
  | idle => exact ⟨[], s, by simp, rfl, hc⟩
  | picked m =>
    obtain ⟨q, hq⟩ := hi.picked m hc
    have hs : step s .lookup = some { s with con := .sending q m } := by
      simp only [step, hi.alive, hc, hq, Bool.false_eq_true, if_false]
    obtain ⟨as, s', h1, h2, h3, _⟩ := sending_progress (.step h (a := .lookup) trivial hs) (q := q) (m := m) rfl
    refine ⟨.lookup :: as, s', ?_, ?_, h3⟩
    · intro a ha
      rcases List.mem_cons.1 ha with rfl | ha
      · trivial
      · exact h1 a ha
    · rw [run, hs]; exact h2
  | sending q m =>
    obtain ⟨as, s', h1, h2, h3, _⟩ := sending_progress h hc
    exact ⟨as, s', h1, h2, h3⟩
  | stuck m => exact absurd hc (hi.unstuck m)

/-- **C90, partial (careful cancellations).** The goroutine of a cancelled subscription has ended or can end at once. -/
theorem C90_ends_partial (s : St K M) (h : Reach s) (i : Nat) (hc : s.sub i = .cleaned ∨ s.sub i = .closed) :
    s.phase i = .ended ∨ ∃ s', step s (.finish i) = some s' ∧ s'.phase i = .ended := by
  have hi := inv_reach h
  have hr := hi.reader i
  have hl : s.sub i ≠ .live := by rcases hc with hc | hc <;> rw [hc] <;> simp
  cases hp : s.phase i with
  | absent => rw [hp] at hr; rcases hc with hc | hc <;> rw [hc] at hr <;> cases hr
  | starting => rw [hp] at hr; exact absurd hr hl
  | waiting q =>
    rw [hp] at hr
    obtain ⟨rfl, _⟩ := hr
    right
    have hcl := (hi.closed q).2 hc
    exact ⟨{ s with phase := upd s.phase q .ended }, by simp [step, hi.alive, hp, hcl], upd_self _ _ _⟩
  | handling q m => rw [hp] at hr; exact absurd hr.2 hl
  | ended => exact .inl rfl
  | stuck => rw [hp] at hr; exact absurd hr (by simp [ReaderOk])

/-- **C90 is violated** (1): a subscription cancelled while the consumer has a message for it crashes the process. -/
theorem C90_violated_crash : (run (init : St Nat Nat)
    [.subscribe 0, .start 0, .arrive (0, 7), .lookup, .cleanup 0, .sendClosed]).map (·.panicked) = some true := by decide

/-- **C90 is violated** (2): cancelled a little earlier, it blocks the consumer, … -/
theorem C90_violated_stuck : (run (init : St Nat Nat)
    [.subscribe 0, .start 0, .subscribe 1, .start 1, .arrive (0, 7), .cleanup 0, .lookup]).map
      (fun s => (s.con, s.sub 1, s.panicked)) = some (.stuck (0, 7), .live, false) := by decide

/-- … and then no subscription of the controller ever gets a message that arrives, whatever happens. -/
theorem C90_violated_for_ever (s s' : St K M) (m : K × M) (as : List (Act K M)) (hc : s.con = .stuck m)
    (h : run s as = some s') : s'.con = .stuck m ∧ s'.arrived = s.arrived ∧ s'.handed = s.handed := by
  induction as generalizing s with
  | nil => simp only [run, Option.some.injEq] at h; subst h; exact ⟨hc, rfl, rfl⟩
  | cons a as ih =>
    rw [run] at h
    cases hs : step s a with
    | none => rw [hs] at h; cases h
    | some t =>
      rw [hs] at h
      have ht : t.con = .stuck m ∧ t.arrived = s.arrived ∧ t.handed = s.handed := by
        unfold step at hs
        split at hs
        · cases hs
        · cases a with
          | subscribe k => simp only [Option.some.injEq] at hs; subst hs; exact ⟨hc, rfl, rfl⟩
          | start i =>
            simp only at hs
            split at hs
            · simp only [Option.some.injEq] at hs; subst hs
              unfold start
              split <;> exact ⟨hc, rfl, rfl⟩
            · cases hs
          | arrive m => simp [hc] at hs
          | lookup => simp [hc] at hs
          | hand i => simp [hc] at hs
          | sendClosed => simp [hc] at hs
          | transmit i =>
            simp only at hs
            split at hs
            · split at hs <;> simp only [Option.some.injEq] at hs <;> subst hs <;> exact ⟨hc, rfl, rfl⟩
            · cases hs
          | finish i =>
            simp only at hs
            split at hs
            · split at hs
              · simp only [Option.some.injEq] at hs; subst hs; exact ⟨hc, rfl, rfl⟩
              · cases hs
            · cases hs
          | cleanup i =>
            simp only at hs
            split at hs
            · simp only [Option.some.injEq] at hs; subst hs
              unfold cleanup
              split
              · split <;> exact ⟨hc, rfl, rfl⟩
              · exact ⟨hc, rfl, rfl⟩
            · cases hs
          | closeMsgs i =>
            simp only at hs
            split at hs
            · simp only [Option.some.injEq] at hs; subst hs; exact ⟨hc, rfl, rfl⟩
            · cases hs
      obtain ⟨h1, h2, h3⟩ := ih t ht.1 h
      exact ⟨h1, h2.trans ht.2.1, h3.trans ht.2.2⟩

/-- **C90 is violated** (3): a subscription cancelled before its reader started leaves it blocked for ever. -/
theorem C90_violated_leak : (run (init : St Nat Nat) [.subscribe 0, .cleanup 0, .closeMsgs 0, .start 0]).map (·.phase 0) =
    some .stuck := by decide

/-- **C90 is violated** (4): a channel that is cancelled and subscribed to again before the first reader started. That
reader takes the first message of the new subscription and crashes the process, although no message was on its way when the
subscription was cancelled. -/
theorem C90_violated_again : (run (init : St Nat Nat) [.subscribe 0, .cleanup 0, .closeMsgs 0, .subscribe 0, .start 0,
    .start 1, .arrive (0, 7), .lookup, .hand 0, .transmit 0]).map (·.panicked) = some true := by decide

/-- **C90 is violated** (5): of two subscriptions to one channel, the second that is cancelled crashes the process. -/
theorem C90_violated_twice : (run (init : St Nat Nat) [.subscribe 0, .subscribe 0, .start 0, .start 1, .cleanup 0,
    .closeMsgs 0, .cleanup 1]).map (·.panicked) = some true := by decide

/-- … as both readers take from the same channel of Go: in any state with a subscription whose channel is in the map, a new
subscription to it, once started, waits where the readers of the first one wait. -/
theorem C90_violated_shared (s s' : St K M) (k : K) (q : Nat) (hq : s.chans.get k = some q)
    (h : run s [.subscribe k, .start s.next] = some s') : s'.phase s.next = .waiting q ∧ s'.chans = s.chans := by
  have hp : s.panicked = false := by
    cases hp : s.panicked with
    | false => rfl
    | true => simp [run, step, hp] at h
  simp [run, step, hp, subscribe, start, queueOf, upd_self, hq] at h
  subst h
  exact ⟨upd_self _ _ _, rfl⟩

example : ∃ s : St Nat Nat, run init [.subscribe 0, .start 0] = some s ∧ s.chans.get 0 = some 0 ∧ s.phase 0 = .waiting 0 ∧
    (run s [.subscribe 0, .start s.next]).isSome = true := ⟨_, rfl, by decide, by decide, by decide⟩

/-- A careful schedule with two subscriptions, one of them cancelled and opened again. -/
example : (run (init : St Nat Nat) [.subscribe 0, .subscribe 1, .start 1, .arrive (0, 7), .lookup, .start 0, .hand 0,
    .arrive (1, 8), .lookup, .hand 1, .transmit 1, .transmit 0, .cleanup 0, .closeMsgs 0, .finish 0, .arrive (0, 9),
    .subscribe 0, .start 2, .arrive (0, 10), .lookup, .hand 2, .transmit 2]).map
      (fun s => (s.mail, s.dropped, s.panicked)) =
    some ([(1, 1, 8), (0, 0, 7), (2, 0, 10)], [(0, 9)], false) := by decide

/-- Its cancellation is careful. -/
example : ∃ s : St Nat Nat, Reach s ∧ s.sub 0 = .live ∧ s.arrived = [(0, 7)] ∧ Careful s (.cleanup 0) := by
  have h0 : Reach (init : St Nat Nat) := .init
  have h1 := Reach.step h0 (a := .subscribe 0) (by simp [Careful, init]) rfl
  have h2 := Reach.step h1 (a := .start 0) trivial rfl
  have h3 := Reach.step h2 (a := .arrive (0, 7)) trivial rfl
  have h4 := Reach.step h3 (a := .lookup) trivial rfl
  have h5 := Reach.step h4 (a := .hand 0) trivial rfl
  have h6 := Reach.step h5 (a := .transmit 0) trivial rfl
  exact ⟨_, h6, rfl, rfl, rfl, 0, rfl⟩

end Verif.JetRace
