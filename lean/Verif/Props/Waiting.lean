import Verif.Model.Waiting

/-!
# C121: Waiting for a broker ends with the context, and holds up nobody else
-/

namespace Verif.Waiting

/-! ## Specification -/

/-- The call has returned. -/
def Call.done (c : Call) : Prop := ∃ e, c.phase = .returned e

/-- The call is at the broker. -/
def Call.busy (c : Call) : Prop := c.phase = .dial ∨ c.phase = .create ∨ c.phase = .read

/-- The broker makes connections, creates topics, and lists the topic at once. -/
def Kind (s : St) : Op → Prop
  | .move i a => ∀ c, s.calls[i]? = some c → (∀ e, a ≠ .fail e) ∧ (c.phase = .read → ∃ ts, a = .topics ts ∧ c.ch ∈ ts)
  | .ends _ => True

/-- Along a history. -/
def AllKind : St → List Op → Prop
  | _, [] => True
  | s, o :: os => Kind s o ∧ AllKind (step s o) os

/-- The number of events that changed something for a call. -/
def effective : St → List Op → Nat
  | _, [] => 0
  | s, o :: os => (if (step s o).calls = s.calls then 0 else 1) + effective (step s o) os

/-- Answers that never list a topic, and are no errors. -/
def Silent (ch : Str) : Op → Prop
  | .move _ (.fail _) => False
  | .move _ (.topics ts) => ch ∉ ts
  | _ => True

/-! ## Proofs -/

/-- The lock is held exactly by the call at the broker. -/
structure Inv (s : St) : Prop where
  held : ∀ i, s.holder = some i → ∃ c, s.calls[i]? = some c ∧ c.busy
  busy : ∀ i c, s.calls[i]? = some c → c.busy → s.holder = some i

theorem inv_start (cs : List (Nat × Str)) : Inv (start cs) := by
  constructor
  · intro i h; simp [start] at h
  · intro i c h hb
    simp only [start, List.getElem?_map, Option.map_eq_some_iff] at h
    obtain ⟨x, _, rfl⟩ := h
    rcases hb with h | h | h <;> cases h

theorem get_set {s : St} {i j : Nat} {c d : Call} (h : s.calls[i]? = some c) :
    (s.calls.set i d)[j]? = if i = j then some d else s.calls[j]? := by
  rw [List.getElem?_set]
  have hi : i < s.calls.length := by
    rcases Nat.lt_or_ge i s.calls.length with h' | h'
    · exact h'
    · rw [List.getElem?_eq_none h'] at h; cases h
  by_cases e : i = j
  · subst e; simp [hi]
  · simp [e]

theorem inv_at {s : St} (h : Inv s) {i : Nat} {c : Call} (hc : s.calls[i]? = some c) (hb : c.busy) {p : Phase}
    (hp : p = .dial ∨ p = .create ∨ p = .read) : Inv (s.at i c p) := by
  have hh := h.busy i c hc hb
  constructor
  · intro j hj
    have : j = i := by
      have hj' : s.holder = some j := hj
      rw [hh] at hj'; exact (Option.some.inj hj').symm
    subst this
    exact ⟨{ c with phase := p }, by simp [St.at, get_set hc], hp⟩
  · intro j d hd hdb
    simp only [St.at, get_set hc] at hd
    by_cases e : i = j
    · subst e; exact hh
    · rw [if_neg e] at hd; exact h.busy j d hd hdb

theorem inv_ret {s : St} (h : Inv s) {i : Nat} {c : Call} (hc : s.calls[i]? = some c)
    (hb : c.busy ∨ s.holder = none) (e : Option Nat) (chs : List Str) : Inv { s.ret i c e with channels := chs } := by
  constructor
  · intro j hj; cases hj
  · intro j d hd hdb
    simp only [St.ret, St.at, get_set hc] at hd
    by_cases e' : i = j
    · rw [if_pos e'] at hd
      cases hd
      rcases hdb with h | h | h <;> cases h
    · rw [if_neg e'] at hd
      have hj := h.busy j d hd hdb
      rcases hb with hb | hb
      · rw [h.busy i c hc hb] at hj; exact absurd (Option.some.inj hj) e'
      · rw [hb] at hj; cases hj

theorem inv_step {s : St} (h : Inv s) (o : Op) : Inv (step s o) := by
  cases o with
  | ends c => exact ⟨h.held, h.busy⟩
  | move i a =>
    simp only [step, move]
    split
    · exact h
    · rename_i c hc
      split
      · rename_i hp
        by_cases hl : s.holder.isSome
        · rw [if_pos hl]; exact h
        · rw [if_neg hl]
          have hn : s.holder = none := by simpa using hl
          by_cases hm : c.ch ∈ s.channels
          · rw [if_pos hm]; exact inv_ret h hc (Or.inr hn) none _
          · rw [if_neg hm]
            constructor
            · intro j hj
              have hj' : some i = some j := hj
              cases hj'
              exact ⟨{ c with phase := .dial }, by simp [St.at, get_set hc], Or.inl rfl⟩
            · intro j d hd hdb
              simp only [St.at, get_set hc] at hd
              by_cases e : i = j
              · subst e; rfl
              · rw [if_neg e] at hd
                have := h.busy j d hd hdb
                rw [hn] at this; cases this
      · rename_i hp
        have hb : c.busy := Or.inl hp
        split
        · exact inv_ret h hc (Or.inl hb) _ _
        · exact inv_at h hc hb (Or.inr (Or.inl rfl))
      · rename_i hp
        have hb : c.busy := Or.inr (Or.inl hp)
        split
        · exact inv_ret h hc (Or.inl hb) _ _
        · exact inv_at h hc hb (Or.inr (Or.inr rfl))
      · rename_i hp
        have hb : c.busy := Or.inr (Or.inr hp)
        split
        · exact inv_ret h hc (Or.inl hb) _ _
        · exact inv_at h hc hb (Or.inr (Or.inl rfl))
        · split
          · exact inv_ret h hc (Or.inl hb) _ _
          · exact inv_at h hc hb (Or.inr (Or.inl rfl))
      · exact h

theorem inv_run {s : St} (h : Inv s) (os : List Op) : Inv (run s os) := by
  induction os generalizing s with
  | nil => exact h
  | cons o os ih => exact ih (inv_step h o)

/-- What is left of a call. -/
def rank : Phase → Nat
  | .lock => 4
  | .dial => 3
  | .create => 2
  | .read => 1
  | .returned _ => 0

def total (cs : List Call) : Nat := (cs.map (fun c => rank c.phase)).sum

theorem total_set {cs : List Call} {i : Nat} {c d : Call} (h : cs[i]? = some c) :
    total (cs.set i d) + rank c.phase = total cs + rank d.phase := by
  induction cs generalizing i with
  | nil => simp at h
  | cons x xs ih =>
    cases i with
    | zero =>
      simp only [List.getElem?_cons_zero, Option.some.injEq] at h
      subst h
      simp only [total, List.set_cons_zero, List.map_cons, List.sum_cons]
      omega
    | succ i =>
      simp only [List.getElem?_cons_succ] at h
      have := ih h
      simp only [total, List.set_cons_succ, List.map_cons, List.sum_cons] at this ⊢
      omega

theorem kind_step (s : St) (o : Op) (h : Kind s o) :
    (if (step s o).calls = s.calls then 0 else 1) + total (step s o).calls ≤ total s.calls := by
  have stay : ∀ s' : St, s'.calls = s.calls →
      (if s'.calls = s.calls then 0 else 1) + total s'.calls ≤ total s.calls := by
    intro s' e; rw [if_pos e, e]; omega
  have go : ∀ (s' : St) (i : Nat) (c : Call) (p : Phase), s.calls[i]? = some c →
      s'.calls = s.calls.set i { c with phase := p } → rank p < rank c.phase →
      (if s'.calls = s.calls then 0 else 1) + total s'.calls ≤ total s.calls := by
    intro s' i c p hc e hr
    have ht := total_set (d := { c with phase := p }) hc
    rw [← e] at ht
    have : rank ({ c with phase := p } : Call).phase = rank p := rfl
    split <;> omega
  cases o with
  | ends c => exact stay _ rfl
  | move i a =>
    cases hc : s.calls[i]? with
    | none => exact stay _ (by simp only [step, move, hc])
    | some c =>
      obtain ⟨hf, hl⟩ := h c hc
      cases hp : c.phase with
      | lock =>
        by_cases h1 : s.holder.isSome
        · exact stay _ (by simp only [step, move, hc, hp, if_pos h1])
        · by_cases hm : c.ch ∈ s.channels
          · exact go _ i c (.returned none) hc (by simp only [step, move, hc, hp, if_neg h1, if_pos hm]; rfl)
              (by rw [hp]; simp [rank])
          · exact go _ i c .dial hc (by simp only [step, move, hc, hp, if_neg h1, if_neg hm]; rfl) (by rw [hp]; simp [rank])
      | dial =>
        refine go _ i c .create hc ?_ (by rw [hp]; simp [rank])
        cases a with
        | fail e => exact absurd rfl (hf e)
        | ok => simp only [step, move, hc, hp]; rfl
        | topics ts => simp only [step, move, hc, hp]; rfl
      | create =>
        refine go _ i c .read hc ?_ (by rw [hp]; simp [rank])
        cases a with
        | fail e => exact absurd rfl (hf e)
        | ok => simp only [step, move, hc, hp]; rfl
        | topics ts => simp only [step, move, hc, hp]; rfl
      | read =>
        obtain ⟨ts, ha, hm⟩ := hl hp
        subst ha
        exact go _ i c (.returned none) hc (by simp only [step, move, hc, hp, if_pos hm]; rfl) (by rw [hp]; simp [rank])
      | returned e => exact stay _ (by simp only [step, move, hc, hp])

theorem kind_run (s : St) (os : List Op) (h : AllKind s os) : effective s os + total (run s os).calls ≤ total s.calls := by
  induction os generalizing s with
  | nil => simp [effective, run]
  | cons o os ih =>
    have h1 := kind_step s o h.1
    have h2 := ih (step s o) h.2
    simp only [effective]
    have : run s (o :: os) = run (step s o) os := rfl
    rw [this]; omega

theorem total_start (cs : List (Nat × Str)) : total (start cs).calls = 4 * cs.length := by
  induction cs with
  | nil => rfl
  | cons c cs ih =>
    have : total (start (c :: cs)).calls = 4 + total (start cs).calls := rfl
    rw [this, ih, List.length_cons]; omega

/-- Nothing is in the way of all calls: if one has not returned, one can move on, whatever the broker answers. -/
theorem C121_no_deadlock (cs : List (Nat × Str)) (os : List Op) (h : ∃ c ∈ (run (start cs) os).calls, ¬ c.done) :
    ∃ i, ∀ a, (move (run (start cs) os) i a).calls ≠ (run (start cs) os).calls := by
  have inv := inv_run (inv_start cs) os
  generalize run (start cs) os = s at inv h
  have ne : ∀ (i : Nat) (c : Call) (p : Phase), s.calls[i]? = some c → p ≠ c.phase →
      s.calls.set i { c with phase := p } ≠ s.calls := by
    intro i c p hc hp e
    have := get_set (d := { c with phase := p }) (j := i) hc
    rw [e, hc, if_pos rfl] at this
    exact hp (by rw [Option.some.inj this])
  cases hh : s.holder with
  | some i =>
    obtain ⟨c, hc, hb⟩ := inv.held i hh
    refine ⟨i, fun a => ?_⟩
    rcases hb with hp | hp | hp
    · cases a <;> simp only [move, hc, hp] <;> exact ne i c _ hc (by rw [hp]; nofun)
    · cases a <;> simp only [move, hc, hp] <;> exact ne i c _ hc (by rw [hp]; nofun)
    · cases a with
      | topics ts =>
        by_cases hm : c.ch ∈ ts
        · simp only [move, hc, hp, if_pos hm]; exact ne i c _ hc (by rw [hp]; nofun)
        · simp only [move, hc, hp, if_neg hm]; exact ne i c _ hc (by rw [hp]; nofun)
      | ok => simp only [move, hc, hp]; exact ne i c _ hc (by rw [hp]; nofun)
      | fail e => simp only [move, hc, hp]; exact ne i c _ hc (by rw [hp]; nofun)
  | none =>
    obtain ⟨c, hm, hd⟩ := h
    obtain ⟨i, hi, he⟩ := List.getElem_of_mem hm
    have hc : s.calls[i]? = some c := by rw [List.getElem?_eq_getElem hi, he]
    have hp : c.phase = .lock := by
      cases hp : c.phase with
      | lock => rfl
      | returned e => exact absurd ⟨e, hp⟩ hd
      | dial => have := inv.busy i c hc (Or.inl hp); rw [hh] at this; cases this
      | create => have := inv.busy i c hc (Or.inr (Or.inl hp)); rw [hh] at this; cases this
      | read => have := inv.busy i c hc (Or.inr (Or.inr hp)); rw [hh] at this; cases this
    refine ⟨i, fun a => ?_⟩
    by_cases hm : c.ch ∈ s.channels
    · simp only [move, hc, hp, hh, Option.isSome_none, Bool.false_eq_true, if_false, if_pos hm]
      exact ne i c _ hc (by rw [hp]; nofun)
    · simp only [move, hc, hp, hh, Option.isSome_none, Bool.false_eq_true, if_false, if_neg hm]
      exact ne i c _ hc (by rw [hp]; nofun)

/-- With a broker that lists topics at once, all calls together make at most four steps each; and when none of them can move
any more, all have returned. -/
theorem C121_returns_partial (cs : List (Nat × Str)) (os : List Op) (h : AllKind (start cs) os) :
    effective (start cs) os ≤ 4 * cs.length ∧
    ((∀ i, ∃ a, (move (run (start cs) os) i a).calls = (run (start cs) os).calls) →
      ∀ c ∈ (run (start cs) os).calls, c.done) := by
  have := kind_run (start cs) os h
  rw [total_start] at this
  refine ⟨by omega, fun hm c hc => ?_⟩
  apply Classical.byContradiction
  intro hd
  obtain ⟨i, hi⟩ := C121_no_deadlock cs os ⟨c, hc, hd⟩
  obtain ⟨a, ha⟩ := hm i
  exact hi a ha

/-- A step while the call `k` is at a broker that does not list its topic. -/
theorem silent_step {s : St} (inv : Inv s) {k : Nat} {c : Call} (hk : s.calls[k]? = some c) (hb : c.busy)
    (o : Op) (ho : Silent c.ch o) :
    (∃ d, (step s o).calls[k]? = some d ∧ d.busy ∧ d.ch = c.ch) ∧ ∀ j, j ≠ k → (step s o).calls[j]? = s.calls[j]? := by
  have hh := inv.busy k c hk hb
  cases o with
  | ends x => exact ⟨⟨c, hk, hb, rfl⟩, fun _ _ => rfl⟩
  | move i a =>
    by_cases e : i = k
    · subst e
      have at_ : ∀ p, (p = .dial ∨ p = .create ∨ p = .read) →
          (∃ d, (s.at i c p).calls[i]? = some d ∧ d.busy ∧ d.ch = c.ch) ∧
          ∀ j, j ≠ i → (s.at i c p).calls[j]? = s.calls[j]? := by
        intro p hp
        refine ⟨⟨{ c with phase := p }, by simp [St.at, get_set hk], hp, rfl⟩, fun j hj => ?_⟩
        simp only [St.at, get_set hk, if_neg (Ne.symm hj)]
      rcases hb with hp | hp | hp
      · cases a with
        | fail x => exact absurd ho (by simp [Silent])
        | ok => simp only [step, move, hk, hp]; exact at_ _ (Or.inr (Or.inl rfl))
        | topics ts => simp only [step, move, hk, hp]; exact at_ _ (Or.inr (Or.inl rfl))
      · cases a with
        | fail x => exact absurd ho (by simp [Silent])
        | ok => simp only [step, move, hk, hp]; exact at_ _ (Or.inr (Or.inr rfl))
        | topics ts => simp only [step, move, hk, hp]; exact at_ _ (Or.inr (Or.inr rfl))
      · cases a with
        | fail x => exact absurd ho (by simp [Silent])
        | ok => simp only [step, move, hk, hp]; exact at_ _ (Or.inr (Or.inl rfl))
        | topics ts =>
          have : c.ch ∉ ts := ho
          simp only [step, move, hk, hp, if_neg this]; exact at_ _ (Or.inr (Or.inl rfl))
    · -- another call: it waits for the lock, or has returned
      have key : step s (.move i a) = s := by
        simp only [step, move]
        split
        · rfl
        · rename_i d hd
          have nb : ¬ d.busy := fun h => e (by
            have := inv.busy i d hd h
            rw [hh] at this
            exact (Option.some.inj this).symm)
          split
          · simp [hh]
          · rename_i hp; exact absurd (Or.inl hp) nb
          · rename_i hp; exact absurd (Or.inr (Or.inl hp)) nb
          · rename_i hp; exact absurd (Or.inr (Or.inr hp)) nb
          · rfl
      rw [key]
      exact ⟨⟨c, hk, hb, rfl⟩, fun _ _ => rfl⟩

theorem silent_run {s : St} (inv : Inv s) {k : Nat} {c : Call} (hk : s.calls[k]? = some c) (hb : c.busy)
    (os : List Op) (ho : ∀ o ∈ os, Silent c.ch o) :
    (∃ d, (run s os).calls[k]? = some d ∧ d.busy ∧ d.ch = c.ch) ∧ ∀ j, j ≠ k → (run s os).calls[j]? = s.calls[j]? := by
  induction os generalizing s c with
  | nil => exact ⟨⟨c, hk, hb, rfl⟩, fun _ _ => rfl⟩
  | cons o os ih =>
    obtain ⟨⟨d, hd, hdb, hdc⟩, h2⟩ := silent_step inv hk hb o (ho o (List.mem_cons_self ..))
    obtain ⟨⟨e, he, heb, hec⟩, h3⟩ := ih (inv_step inv o) hd hdb (fun o' h => by rw [hdc]; exact ho o' (List.mem_cons_of_mem _ h))
    exact ⟨⟨e, he, heb, hec.trans hdc⟩, fun j hj => (h3 j hj).trans (h2 j hj)⟩

theorem busy_not_done {c : Call} (h : c.busy) : ¬ c.done := by
  rintro ⟨e, he⟩
  rcases h with h | h | h <;> · rw [h] at he; cases he

/-- Violation: a call at a broker that accepts the topic and does not list it never returns, although its context may end at any
time; and as long as it does not return no other call returns, whatever its channel. -/
theorem C121_violated_forever (cs : List (Nat × Str)) (pre : List Op) (k : Nat) (c : Call)
    (hk : (run (start cs) pre).calls[k]? = some c) (hb : c.busy) (os : List Op) (ho : ∀ o ∈ os, Silent c.ch o) :
    (∃ d, (run (start cs) (pre ++ os)).calls[k]? = some d ∧ ¬ d.done) ∧
    ∀ (j : Nat) (d d' : Call), j ≠ k → (run (start cs) pre).calls[j]? = some d → ¬ d.done →
      (run (start cs) (pre ++ os)).calls[j]? = some d' → ¬ d'.done := by
  have e : run (start cs) (pre ++ os) = run (run (start cs) pre) os := by simp [run, List.foldl_append]
  obtain ⟨⟨d, hd, hdb, _⟩, h2⟩ := silent_run (inv_run (inv_start cs) pre) hk hb os ho
  rw [e]
  refine ⟨⟨d, hd, busy_not_done hdb⟩, fun j d d' hj h hn h' => ?_⟩
  rw [h2 j hj, h] at h'
  rw [← Option.some.inj h']; exact hn

/-- Violation, with two goroutines: the first one waits for a topic that is not listed, its context has ended; the second one
wants another channel, of which the broker would list the topic. After any number of further rounds neither has returned. -/
theorem C121_violated (n : Nat) : ∀ c ∈ (run (start [(0, "a".toList), (1, "b".toList)])
    ([.move 0 .ok, .move 0 .ok, .ends 0] ++
      (List.replicate n [Op.move 0 .ok, .move 0 (.topics ["b".toList]), .move 1 (.topics ["b".toList])]).flatten)).calls,
    ¬ c.done := by
  have hs : ∀ o ∈ (List.replicate n [Op.move 0 .ok, .move 0 (.topics ["b".toList]), .move 1 (.topics ["b".toList])]).flatten,
      Silent "a".toList o := by
    intro o ho
    obtain ⟨l, hl, hm⟩ := List.mem_flatten.1 ho
    rw [(List.mem_replicate.1 hl).2] at hm
    simp only [List.mem_cons, List.not_mem_nil, or_false] at hm
    rcases hm with rfl | rfl | rfl <;> simp [Silent]
  have h0 : (run (start [(0, "a".toList), (1, "b".toList)]) [.move 0 .ok, .move 0 .ok, .ends 0]).calls =
      [⟨0, "a".toList, .create⟩, ⟨1, "b".toList, .lock⟩] := by decide
  have inv := inv_run (inv_start [(0, "a".toList), (1, "b".toList)]) [.move 0 .ok, .move 0 .ok, .ends 0]
  have hk : (run (start [(0, "a".toList), (1, "b".toList)]) [.move 0 .ok, .move 0 .ok, .ends 0]).calls[0]? =
      some ⟨0, "a".toList, .create⟩ := by rw [h0]; rfl
  obtain ⟨⟨d, hd, hdb, _⟩, h2⟩ := silent_run inv hk (Or.inr (Or.inl rfl)) _ hs
  have e : ∀ (s : St) (a b : List Op), run s (a ++ b) = run (run s a) b := by intros; simp [run, List.foldl_append]
  rw [e]
  intro c hc
  obtain ⟨j, hj, he⟩ := List.getElem_of_mem hc
  have hj' := List.getElem?_eq_getElem hj
  rw [he] at hj'
  cases j with
  | zero =>
    rw [hd] at hj'
    rw [← Option.some.inj hj']; exact busy_not_done hdb
  | succ j =>
    rw [h2 _ (by omega), h0] at hj'
    cases j with
    | zero =>
      have : c = ⟨1, "b".toList, .lock⟩ := (Option.some.inj hj').symm
      rw [this]; rintro ⟨_, h⟩; cases h
    | succ j => cases hj'

/-- A publication returns at the first write after its context has ended, if not before; it then reports success only for a
write that was made, with success, before the context ended. -/
theorem C121_publish_partial (ended : Nat → Bool) (e : Nat) (script : List (Kafka.Write × Option Nat)) (k : Nat)
    (hk : k < script.length) (he : ended k = true) :
    (publish ended e script).ret ≠ none ∧ (publish ended e script).writes.length ≤ k + 1 ∧
    ((publish ended e script).ret = some none → ∃ j x, j < k ∧ ended j = false ∧ script[j]? = some (.ok, x)) := by
  unfold publish
  induction k generalizing ended script with
  | zero =>
    cases script with
    | nil => simp at hk
    | cons x xs => simp [List.mapIdx_cons, he, Kafka.publish]
  | succ k ih =>
    cases script with
    | nil => simp at hk
    | cons x xs =>
      obtain ⟨h1, h2, h3⟩ := ih (fun n => ended (n + 1)) xs (by simpa using hk) he
      have h4 : (Kafka.publish (xs.mapIdx fun n x => (if ended (n + 1) = true then .other e else x.1, x.2))).ret = some none →
          ∃ j y, j < k + 1 ∧ ended j = false ∧ (x :: xs)[j]? = some (.ok, y) := by
        intro h
        obtain ⟨j, y, hj, hf, hy⟩ := h3 h
        exact ⟨j + 1, y, by omega, hf, by simpa using hy⟩
      rw [List.mapIdx_cons]
      generalize (xs.mapIdx fun n x => (if ended (n + 1) = true then Kafka.Write.other e else x.1, x.2)) = rest at h1 h2 h4
      cases h0 : ended 0 with
      | true => simp [Kafka.publish]
      | false =>
        obtain ⟨w, c⟩ := x
        cases w with
        | ok => exact ⟨by simp [Kafka.publish], by simp [Kafka.publish], fun _ => ⟨0, c, by omega, h0, rfl⟩⟩
        | other e => simp [Kafka.publish]
        | unknownTopic =>
          cases c with
          | some e => simp [Kafka.publish]
          | none => exact ⟨by simpa [Kafka.publish] using h1, by simpa [Kafka.publish] using h2,
              fun h => h4 (by simpa [Kafka.publish] using h)⟩

/-! ## Examples -/

/-- Two goroutines subscribe to one channel, a third one to another; the broker lists topics at once. -/
example : AllKind (start [(0, "a".toList), (0, "a".toList), (1, "b".toList)])
    [.move 0 .ok, .move 1 .ok, .move 0 .ok, .move 0 .ok, .move 0 (.topics ["a".toList]), .move 1 .ok, .move 2 .ok] ∧
    effective (start [(0, "a".toList), (0, "a".toList), (1, "b".toList)])
      [.move 0 .ok, .move 1 .ok, .move 0 .ok, .move 0 .ok, .move 0 (.topics ["a".toList]), .move 1 .ok, .move 2 .ok] = 6 := by
  refine ⟨⟨?_, ?_, ?_, ?_, ?_, ?_, ?_, trivial⟩, by decide⟩
  all_goals
    intro c hc
    simp [start, step, move, St.at, St.ret] at hc
    subst hc
    simp

example : publish (fun n => decide (2 ≤ n)) 7 (List.replicate 5 (.unknownTopic, none)) =
    ⟨some (some 7), [.unknownTopic, .unknownTopic, .other 7], 2⟩ := by decide

end Verif.Waiting
