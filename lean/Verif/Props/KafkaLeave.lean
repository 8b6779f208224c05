import Verif.Model.KafkaLeave

/-!
# C126: cancelling a Kafka subscription and subscribing again loses no message and repeats none
-/

namespace Verif.KafkaLeave

open Verif.KafkaCrash (Cfg)

/-! ## Specification -/

/-- The offsets a subscription has queued and not handled. -/
def Sess.waiting (t : Sess) : List Nat := (List.range (t.read - t.handled)).map (t.base + t.handled + ·)

/-- The offsets waiting in any queue, of a cancelled subscription or not. -/
def waiting (s : St) : List Nat := s.sess.flatMap Sess.waiting

/-- Subscriptions are only cancelled when nothing waits in their queues. -/
def CancelsIdle (cfg : Cfg) (os : List Op) : Prop :=
  ∀ pre post i, os = pre ++ .cancel i :: post → waiting (run cfg init pre) = []

/-! ## Invariants -/

theorem run_snoc (cfg : Cfg) (s : St) (os : List Op) (o : Op) : run cfg s (os ++ [o]) = step cfg (run cfg s os) o := by
  unfold run; simp

/-- Induction on histories from the end. -/
theorem run_ind (cfg : Cfg) (P : List Op → St → Prop) (h0 : P [] init)
    (hs : ∀ os o, P os (run cfg init os) → P (os ++ [o]) (step cfg (run cfg init os) o)) (os : List Op) : P os (run cfg init os) := by
  have key : ∀ (rest pre : List Op), P pre (run cfg init pre) → P (pre ++ rest) (run cfg init (pre ++ rest)) := by
    intro rest
    induction rest with
    | nil => intro pre h; simpa using h
    | cons o rest ih =>
      intro pre h
      have := ih (pre ++ [o]) (by rw [run_snoc]; exact hs pre o h)
      simpa using this
  exact key os [] h0

/-- All but the last subscription are closed. -/
def LastOpen (s : St) : Prop := ∀ i t, s.sess[i]? = some t → t.closed = false → i + 1 = s.sess.length

theorem lastOpen_set {s : St} {i : Nat} {t t' : Sess} (h : LastOpen s) (hi : s.sess[i]? = some t)
    (hc : t'.closed = false → t.closed = false) (c : Nat) (l : List Nat) : LastOpen ⟨s.sess.set i t', c, l⟩ := by
  intro j u hj hu
  simp only [List.length_set]
  simp only at hj
  rw [List.getElem?_set] at hj
  split at hj
  · rename_i hij
    split at hj
    · cases hj
      subst hij
      exact h i t hi (hc hu)
    · cases hj
  · exact h j u hj hu

theorem lastOpen_step (cfg : Cfg) (s : St) (o : Op) (h : LastOpen s) : LastOpen (step cfg s o) := by
  cases o with
  | subscribe =>
    show LastOpen (doSubscribe cfg s)
    unfold doSubscribe
    split
    · rename_i ha
      intro i t hi ht
      simp only at hi ⊢
      rw [List.getElem?_append] at hi
      split at hi
      · have := List.all_eq_true.mp ha t (List.mem_of_getElem? hi)
        rw [ht] at this; cases this
      · rename_i hlt
        have hb := (List.getElem?_eq_some_iff.mp hi).1
        simp only [List.length_cons, List.length_nil, List.length_append] at hb ⊢
        omega
    · exact h
  | read i =>
    show LastOpen (doRead cfg s i)
    unfold doRead
    split
    · exact h
    · rename_i t ht
      split
      · exact h
      · refine lastOpen_set h ht ?_ _ _
        exact fun h => h
  | handle i =>
    show LastOpen (doHandle cfg s i)
    unfold doHandle
    split
    · exact h
    · rename_i t ht
      split
      · refine lastOpen_set h ht ?_ _ _
        exact fun h => h
      · exact h
  | cancel i =>
    show LastOpen (doCancel s i)
    unfold doCancel
    split
    · exact h
    · rename_i t ht
      exact lastOpen_set h ht (fun h => by cases h) _ _

/-! ## Automatic commits -/

/-- What is handled and what waits are, together, the messages below the stored offset; the open subscription reads on
from there. -/
structure AutoInv (s : St) : Prop where
  all : (s.log ++ waiting s).Perm (List.range s.committed)
  cur : ∀ t ∈ s.sess, t.closed = false → t.base + t.read = s.committed
  le : ∀ t ∈ s.sess, t.handled ≤ t.read

theorem waiting_set (l : List Sess) (i : Nat) (t t' : Sess) (hi : l[i]? = some t) :
    ∃ a b, l = a ++ t :: b ∧ l.set i t' = a ++ t' :: b := by
  induction l generalizing i with
  | nil => simp at hi
  | cons x l ih =>
    cases i with
    | zero =>
      simp only [List.getElem?_cons_zero, Option.some.injEq] at hi
      subst hi
      exact ⟨[], l, rfl, rfl⟩
    | succ i =>
      simp only [List.getElem?_cons_succ] at hi
      obtain ⟨a, b, h1, h2⟩ := ih i hi
      exact ⟨x :: a, b, by rw [h1]; rfl, by rw [List.set_cons_succ, h2]; rfl⟩

theorem sess_waiting_read (t : Sess) (h : t.handled ≤ t.read) :
    Sess.waiting { t with read := t.read + 1 } = t.waiting ++ [t.base + t.read] := by
  unfold Sess.waiting
  simp only
  rw [show t.read + 1 - t.handled = t.read - t.handled + 1 from by omega, List.range_succ, List.map_append]
  simp only [List.map_cons, List.map_nil]
  congr 2
  omega

theorem sess_waiting_handle (t : Sess) (h : t.handled < t.read) :
    t.waiting = (t.base + t.handled) :: Sess.waiting { t with handled := t.handled + 1 } := by
  unfold Sess.waiting
  simp only
  rw [show t.read - t.handled = (t.read - (t.handled + 1)) + 1 from by omega, List.range_succ_eq_map, List.map_cons,
    List.map_map]
  simp only [Nat.add_zero]
  congr 1
  apply List.map_congr_left
  intro a _
  simp only [Function.comp_apply]
  omega

theorem sess_waiting_closed (t : Sess) : Sess.waiting { t with closed := true } = t.waiting := rfl

theorem autoInv_step (cfg : Cfg) (ha : cfg.auto = true) (hg : cfg.group = true) (s : St) (o : Op) (hl : LastOpen s)
    (h : AutoInv s) : AutoInv (step cfg s o) := by
  cases o with
  | subscribe =>
    show AutoInv (doSubscribe cfg s)
    unfold doSubscribe
    split
    · rename_i hall
      refine ⟨?_, ?_, ?_⟩
      · show (s.log ++ waiting _).Perm (List.range s.committed)
        have : waiting { s with sess := s.sess ++ [{ base := start cfg s }] } = waiting s := by
          unfold waiting; simp [Sess.waiting]
        rw [this]; exact h.all
      · intro t ht hc
        rcases List.mem_append.mp ht with ht | ht
        · have := List.all_eq_true.mp hall t ht
          rw [hc] at this; cases this
        · simp only [List.mem_cons, List.not_mem_nil, or_false] at ht
          subst ht
          simp [start, hg]
      · intro t ht
        rcases List.mem_append.mp ht with ht | ht
        · exact h.le t ht
        · simp only [List.mem_cons, List.not_mem_nil, or_false] at ht
          subst ht
          exact Nat.le_refl _
    · exact h
  | read i =>
    show AutoInv (doRead cfg s i)
    unfold doRead
    split
    · exact h
    · rename_i t ht
      split
      · exact h
      · rename_i hc
        have hc : t.closed = false := by simpa using hc
        have hm := List.mem_of_getElem? ht
        have hcur := h.cur t hm hc
        have hle := h.le t hm
        obtain ⟨a, b, h1, h2⟩ := waiting_set s.sess i t { t with read := t.read + 1 } ht
        have hcm : (if (cfg.auto && cfg.group) = true then t.base + t.read + 1 else s.committed) = s.committed + 1 := by
          rw [ha, hg]; simp [hcur]
        rw [hcm]
        refine ⟨?_, ?_, ?_⟩
        · show (s.log ++ List.flatMap Sess.waiting (s.sess.set i _)).Perm (List.range (s.committed + 1))
          rw [h2, List.range_succ]
          have hp := h.all
          unfold waiting at hp
          rw [h1] at hp
          simp only [List.flatMap_append, List.flatMap_cons, sess_waiting_read t hle, hcur] at hp ⊢
          rw [List.perm_iff_count] at hp ⊢
          intro x
          have := hp x
          simp only [List.count_append] at this ⊢
          omega
        · intro u hu huc
          show u.base + u.read = s.committed + 1
          simp only at hu
          have hub : LastOpen ⟨s.sess.set i { t with read := t.read + 1 }, 0, []⟩ := by
            refine lastOpen_set hl ht ?_ _ _
            exact fun h => h
          obtain ⟨j, hj⟩ := List.mem_iff_getElem?.mp hu
          have e1 := hub j u hj huc
          have e2 := hl i t ht hc
          simp only [List.length_set] at e1
          have : j = i := by omega
          subst this
          rw [List.getElem?_set_self (by omega)] at hj
          cases hj
          simp only
          omega
        · intro u hu
          simp only at hu
          rcases List.mem_or_eq_of_mem_set hu with hu | hu
          · exact h.le u hu
          · subst hu
            simp only
            omega
  | handle i =>
    show AutoInv (doHandle cfg s i)
    unfold doHandle
    split
    · exact h
    · rename_i t ht
      split
      · rename_i hlt
        have hm := List.mem_of_getElem? ht
        obtain ⟨a, b, h1, h2⟩ := waiting_set s.sess i t { t with handled := t.handled + 1 } ht
        have hcm : (if (!cfg.auto && cfg.group && !t.closed) = true then t.base + t.handled + 1 else s.committed) = s.committed := by
          rw [ha]; simp
        rw [hcm]
        refine ⟨?_, ?_, ?_⟩
        · show (s.log ++ [t.base + t.handled] ++ List.flatMap Sess.waiting (s.sess.set i _)).Perm (List.range s.committed)
          rw [h2]
          have hp := h.all
          unfold waiting at hp
          rw [h1] at hp
          simp only [List.flatMap_append, List.flatMap_cons, sess_waiting_handle t hlt] at hp ⊢
          rw [List.perm_iff_count] at hp ⊢
          intro x
          have := hp x
          simp only [List.count_append, List.cons_append, List.count_cons, List.count_nil] at this ⊢
          omega
        · intro u hu huc
          show u.base + u.read = s.committed
          simp only at hu
          rcases List.mem_or_eq_of_mem_set hu with hu | hu
          · exact h.cur u hu huc
          · subst hu
            exact h.cur t hm huc
        · intro u hu
          simp only at hu
          rcases List.mem_or_eq_of_mem_set hu with hu | hu
          · exact h.le u hu
          · subst hu
            simp only
            omega
      · exact h
  | cancel i =>
    show AutoInv (doCancel s i)
    unfold doCancel
    split
    · exact h
    · rename_i t ht
      have hm := List.mem_of_getElem? ht
      obtain ⟨a, b, h1, h2⟩ := waiting_set s.sess i t { t with closed := true } ht
      refine ⟨?_, ?_, ?_⟩
      · show (s.log ++ List.flatMap Sess.waiting (s.sess.set i _)).Perm (List.range s.committed)
        rw [h2]
        have hp := h.all
        unfold waiting at hp
        rw [h1] at hp
        simpa only [List.flatMap_append, List.flatMap_cons, sess_waiting_closed] using hp
      · intro u hu huc
        simp only at hu
        rcases List.mem_or_eq_of_mem_set hu with hu | hu
        · exact h.cur u hu huc
        · subst hu
          cases huc
      · intro u hu
        simp only at hu
        rcases List.mem_or_eq_of_mem_set hu with hu | hu
        · exact h.le u hu
        · subst hu
          exact h.le t hm

/-- With automatic commits and a group, whenever subscriptions are cancelled and made again: every message below the offset
the next subscription starts from is handled or waits in the queue of some listener, once; none is handled twice. -/
theorem C126_auto_partial (cfg : Cfg) (ha : cfg.auto = true) (hg : cfg.group = true) (os : List Op) :
    ((run cfg init os).log ++ waiting (run cfg init os)).Perm (List.range (run cfg init os).committed) ∧
    (run cfg init os).log.Nodup := by
  have key : LastOpen (run cfg init os) ∧ AutoInv (run cfg init os) := by
    refine run_ind cfg (fun _ s => LastOpen s ∧ AutoInv s) ?_ ?_ os
    · exact ⟨fun i t h => by simp [init] at h, ⟨by decide, fun t h => by simp [init] at h, fun t h => by simp [init] at h⟩⟩
    · intro os o h
      exact ⟨lastOpen_step cfg _ o h.1, autoInv_step cfg ha hg _ o h.1 h.2⟩
  refine ⟨key.2.all, ?_⟩
  have : ((run cfg init os).log ++ waiting (run cfg init os)).Nodup := (key.2.all.nodup_iff).mpr List.nodup_range
  exact (List.nodup_append.mp this).1

/-! ## Manual commits -/

/-- All messages below the stored offset were handled; the open subscription goes on from there. -/
structure ManualInv (s : St) : Prop where
  all : ∀ n, n < s.committed → n ∈ s.log
  cur : ∀ t ∈ s.sess, t.closed = false → t.base + t.handled = s.committed

theorem manualInv_step (cfg : Cfg) (ha : cfg.auto = false) (hg : cfg.group = true) (s : St) (o : Op) (hl : LastOpen s)
    (h : ManualInv s) : ManualInv (step cfg s o) := by
  cases o with
  | subscribe =>
    show ManualInv (doSubscribe cfg s)
    unfold doSubscribe
    split
    · rename_i hall
      refine ⟨h.all, ?_⟩
      intro t ht hc
      rcases List.mem_append.mp ht with ht | ht
      · have := List.all_eq_true.mp hall t ht
        rw [hc] at this; cases this
      · simp only [List.mem_cons, List.not_mem_nil, or_false] at ht
        subst ht
        simp [start, hg]
    · exact h
  | read i =>
    show ManualInv (doRead cfg s i)
    unfold doRead
    split
    · exact h
    · rename_i t ht
      split
      · exact h
      · have hcm : (if (cfg.auto && cfg.group) = true then t.base + t.read + 1 else s.committed) = s.committed := by
          rw [ha]; simp
        rw [hcm]
        refine ⟨h.all, ?_⟩
        intro u hu huc
        simp only at hu
        rcases List.mem_or_eq_of_mem_set hu with hu | hu
        · exact h.cur u hu huc
        · subst hu
          exact h.cur t (List.mem_of_getElem? ht) huc
  | handle i =>
    show ManualInv (doHandle cfg s i)
    unfold doHandle
    split
    · exact h
    · rename_i t ht
      split
      · have hm := List.mem_of_getElem? ht
        cases hc : t.closed with
        | true =>
          have hcm : (if (!cfg.auto && cfg.group && !true) = true then t.base + t.handled + 1 else s.committed) = s.committed := by
            simp
          rw [hcm]
          refine ⟨fun n hn => List.mem_append.mpr (.inl (h.all n hn)), ?_⟩
          intro u hu huc
          simp only at hu
          rcases List.mem_or_eq_of_mem_set hu with hu | hu
          · exact h.cur u hu huc
          · subst hu
            cases huc
        | false =>
          have hcur := h.cur t hm hc
          have hcm : (if (!cfg.auto && cfg.group && !false) = true then t.base + t.handled + 1 else s.committed) = s.committed + 1 := by
            rw [ha, hg]; simp [hcur]
          rw [hcm]
          constructor
          · intro n hn
            simp only at hn ⊢
            by_cases e : n < s.committed
            · exact List.mem_append.mpr (.inl (h.all n e))
            · refine List.mem_append.mpr (.inr ?_)
              simp only [List.mem_cons, List.not_mem_nil, or_false]
              omega
          · intro u hu huc
            show u.base + u.handled = s.committed + 1
            simp only at hu
            obtain ⟨j, hj⟩ := List.mem_iff_getElem?.mp hu
            have hub : LastOpen ⟨s.sess.set i { t with handled := t.handled + 1, closed := false }, 0, []⟩ := by
              refine lastOpen_set hl ht ?_ _ _
              exact fun _ => hc
            have e1 := hub j u hj huc
            have e2 := hl i t ht hc
            simp only [List.length_set] at e1
            have : j = i := by omega
            subst this
            rw [List.getElem?_set_self (by omega)] at hj
            cases hj
            simp only
            omega
      · exact h
  | cancel i =>
    show ManualInv (doCancel s i)
    unfold doCancel
    split
    · exact h
    · rename_i t ht
      refine ⟨h.all, ?_⟩
      intro u hu huc
      simp only at hu
      rcases List.mem_or_eq_of_mem_set hu with hu | hu
      · exact h.cur u hu huc
      · subst hu
        cases huc

/-- With manual commits and a group, no message is lost: every message below the offset the next subscription starts from
was handled. -/
theorem C126_none_lost_partial (cfg : Cfg) (ha : cfg.auto = false) (hg : cfg.group = true) (os : List Op) (n : Nat)
    (hn : n < (run cfg init os).committed) : n ∈ (run cfg init os).log := by
  have key : LastOpen (run cfg init os) ∧ ManualInv (run cfg init os) := by
    refine run_ind cfg (fun _ s => LastOpen s ∧ ManualInv s) ?_ ?_ os
    · exact ⟨fun i t h => by simp [init] at h, ⟨fun n h => by simp [init] at h, fun t h => by simp [init] at h⟩⟩
    · intro os o h
      exact ⟨lastOpen_step cfg _ o h.1, manualInv_step cfg ha hg _ o h.1 h.2⟩
  exact key.2.all n hn

theorem waiting_nil_of {s : St} (h : waiting s = []) {t : Sess} (ht : t ∈ s.sess) : t.waiting = [] := by
  unfold waiting at h
  exact List.flatMap_eq_nil_iff.mp h t ht

theorem not_lt_of_waiting {t : Sess} (h : t.waiting = []) : ¬ t.handled < t.read := by
  intro hlt
  rw [sess_waiting_handle t hlt] at h
  cases h

/-- Nothing was handled but the messages below the stored offset, and cancelled subscriptions have nothing left. -/
structure IdleInv (s : St) : Prop where
  log : s.log = List.range s.committed
  cur : ∀ t ∈ s.sess, t.closed = false → t.base + t.handled = s.committed
  done : ∀ t ∈ s.sess, t.closed = true → t.waiting = []

theorem idleInv_step (cfg : Cfg) (ha : cfg.auto = false) (hg : cfg.group = true) (s : St) (o : Op) (hl : LastOpen s)
    (h : IdleInv s) (hi : ∀ i, o = .cancel i → waiting s = []) : IdleInv (step cfg s o) := by
  cases o with
  | subscribe =>
    show IdleInv (doSubscribe cfg s)
    unfold doSubscribe
    split
    · rename_i hall
      refine ⟨h.log, ?_, ?_⟩
      · intro t ht hc
        rcases List.mem_append.mp ht with ht | ht
        · have := List.all_eq_true.mp hall t ht
          rw [hc] at this; cases this
        · simp only [List.mem_cons, List.not_mem_nil, or_false] at ht
          subst ht
          simp [start, hg]
      · intro t ht hc
        rcases List.mem_append.mp ht with ht | ht
        · exact h.done t ht hc
        · simp only [List.mem_cons, List.not_mem_nil, or_false] at ht
          subst ht
          rfl
    · exact h
  | read i =>
    show IdleInv (doRead cfg s i)
    unfold doRead
    split
    · exact h
    · rename_i t ht
      split
      · exact h
      · rename_i hc
        have hcm : (if (cfg.auto && cfg.group) = true then t.base + t.read + 1 else s.committed) = s.committed := by
          rw [ha]; simp
        rw [hcm]
        refine ⟨h.log, ?_, ?_⟩
        · intro u hu huc
          simp only at hu
          rcases List.mem_or_eq_of_mem_set hu with hu | hu
          · exact h.cur u hu huc
          · subst hu
            exact h.cur t (List.mem_of_getElem? ht) huc
        · intro u hu huc
          simp only at hu
          rcases List.mem_or_eq_of_mem_set hu with hu | hu
          · exact h.done u hu huc
          · subst hu
            exact absurd huc hc
  | handle i =>
    show IdleInv (doHandle cfg s i)
    unfold doHandle
    split
    · exact h
    · rename_i t ht
      split
      · rename_i hlt
        have hm := List.mem_of_getElem? ht
        cases hc : t.closed with
        | true => exact absurd hlt (not_lt_of_waiting (h.done t hm hc))
        | false =>
          have hcur := h.cur t hm hc
          have hcm : (if (!cfg.auto && cfg.group && !false) = true then t.base + t.handled + 1 else s.committed) = s.committed + 1 := by
            rw [ha, hg]; simp [hcur]
          rw [hcm]
          refine ⟨?_, ?_, ?_⟩
          · show s.log ++ [t.base + t.handled] = List.range (s.committed + 1)
            rw [h.log, hcur, List.range_succ]
          · intro u hu huc
            show u.base + u.handled = s.committed + 1
            simp only at hu
            obtain ⟨j, hj⟩ := List.mem_iff_getElem?.mp hu
            have hub : LastOpen ⟨s.sess.set i { t with handled := t.handled + 1, closed := false }, 0, []⟩ := by
              refine lastOpen_set hl ht ?_ _ _
              exact fun _ => hc
            have e1 := hub j u hj huc
            have e2 := hl i t ht hc
            simp only [List.length_set] at e1
            have : j = i := by omega
            subst this
            rw [List.getElem?_set_self (by omega)] at hj
            cases hj
            simp only
            omega
          · intro u hu huc
            simp only at hu
            rcases List.mem_or_eq_of_mem_set hu with hu | hu
            · exact h.done u hu huc
            · subst hu
              cases huc
      · exact h
  | cancel i =>
    have hw := hi i rfl
    show IdleInv (doCancel s i)
    unfold doCancel
    split
    · exact h
    · rename_i t ht
      refine ⟨h.log, ?_, ?_⟩
      · intro u hu huc
        simp only at hu
        rcases List.mem_or_eq_of_mem_set hu with hu | hu
        · exact h.cur u hu huc
        · subst hu
          cases huc
      · intro u hu huc
        simp only at hu
        rcases List.mem_or_eq_of_mem_set hu with hu | hu
        · exact h.done u hu huc
        · subst hu
          exact (sess_waiting_closed t).trans (waiting_nil_of hw (List.mem_of_getElem? ht))

/-- With manual commits and a group, when subscriptions are cancelled with nothing in their queues, every message is handled
once and in order: those below the offset the next subscription starts from, and no others. -/
theorem C126_idle_partial (cfg : Cfg) (ha : cfg.auto = false) (hg : cfg.group = true) (os : List Op) (hi : CancelsIdle cfg os) :
    (run cfg init os).log = List.range (run cfg init os).committed := by
  have key : CancelsIdle cfg os → LastOpen (run cfg init os) ∧ IdleInv (run cfg init os) := by
    refine run_ind cfg (fun os s => CancelsIdle cfg os → LastOpen s ∧ IdleInv s) ?_ ?_ os
    · intro _
      exact ⟨fun i t h => by simp [init] at h, ⟨rfl, fun t h => by simp [init] at h, fun t h => by simp [init] at h⟩⟩
    · intro os o ih hc
      have h := ih (fun pre post i e => hc pre (post ++ [o]) i (by rw [e]; simp))
      exact ⟨lastOpen_step cfg _ o h.1, idleInv_step cfg ha hg _ o h.1 h.2 (fun i e => hc os [] i (by rw [e]))⟩
  exact (key hi).2.log

/-! ## Violations -/

theorem run_append (cfg : Cfg) (s : St) (a b : List Op) : run cfg s (a ++ b) = run cfg (run cfg s a) b := by
  unfold run; rw [List.foldl_append]

theorem get_last (pre : List Sess) (t : Sess) : (pre ++ [t])[pre.length]? = some t := by simp

theorem set_last (pre : List Sess) (t t' : Sess) : (pre ++ [t]).set pre.length t' = pre ++ [t'] := by simp

theorem run_reads (group : Bool) (pre : List Sess) (n : Nat) : ∀ (t : Sess) (c : Nat) (l : List Nat), t.closed = false →
    run ⟨false, group⟩ ⟨pre ++ [t], c, l⟩ (List.replicate n (.read pre.length)) = ⟨pre ++ [{ t with read := t.read + n }], c, l⟩ := by
  induction n with
  | zero => intro t c l _; rfl
  | succ n ih =>
    intro t c l hc
    have h1 : step ⟨false, group⟩ ⟨pre ++ [t], c, l⟩ (.read pre.length) = ⟨pre ++ [{ t with read := t.read + 1 }], c, l⟩ := by
      show doRead _ _ _ = _
      unfold doRead
      simp only [get_last, set_last, hc, Bool.false_and]
      rfl
    rw [List.replicate_succ]
    show run _ (step _ _ _) _ = _
    rw [h1, ih { t with read := t.read + 1 } c l hc]
    simp only [Nat.add_assoc, Nat.add_comm 1 n]

theorem run_handles (group : Bool) (pre : List Sess) (n : Nat) : ∀ (t : Sess) (c : Nat) (l : List Nat), t.handled + n ≤ t.read →
    ∃ c', (t.closed = true → c' = c) ∧ run ⟨false, group⟩ ⟨pre ++ [t], c, l⟩ (List.replicate n (.handle pre.length)) =
      ⟨pre ++ [{ t with handled := t.handled + n }], c', l ++ (List.range n).map (t.base + t.handled + ·)⟩ := by
  induction n with
  | zero => intro t c l _; exact ⟨c, fun _ => rfl, by simp [run]⟩
  | succ n ih =>
    intro t c l hle
    obtain ⟨c1, hc1, h1⟩ : ∃ c1, (t.closed = true → c1 = c) ∧ step ⟨false, group⟩ ⟨pre ++ [t], c, l⟩ (.handle pre.length) =
        ⟨pre ++ [{ t with handled := t.handled + 1 }], c1, l ++ [t.base + t.handled]⟩ := by
      refine ⟨if (!false && group && !t.closed) = true then t.base + t.handled + 1 else c, ?_, ?_⟩
      · intro h; rw [h]; simp
      · show doHandle _ _ _ = _
        unfold doHandle
        simp only [get_last, set_last]
        rw [if_pos (by omega)]
    obtain ⟨c2, hc2, h2⟩ := ih { t with handled := t.handled + 1 } c1 (l ++ [t.base + t.handled]) (by simp only; omega)
    refine ⟨c2, fun h => (hc2 h).trans (hc1 h), ?_⟩
    rw [List.replicate_succ]
    show run _ (step _ _ _) _ = _
    rw [h1, h2]
    simp only [List.append_assoc, List.range_succ_eq_map, List.map_cons, List.map_map, Nat.add_zero, List.cons_append, List.nil_append]
    congr 1
    · simp only [Nat.add_assoc, Nat.add_comm 1 n]
    · congr 2
      apply List.map_congr_left
      intro a _
      simp only [Function.comp_apply]
      omega

/-- **Violated**: with manual commits, all messages that wait in the queue when the subscription is cancelled are handled
and acknowledged by its listener, and handled again by the next subscription. -/
theorem C126_violated_manual (n : Nat) :
    ∃ os, (run ⟨false, true⟩ init os).log = List.range n ++ List.range n ∧ .cancel 0 ∈ os := by
  refine ⟨[.subscribe] ++ (List.replicate n (.read 0) ++ ([.cancel 0] ++ (List.replicate n (.handle 0) ++ ([.subscribe] ++
    (List.replicate n (.read 1) ++ List.replicate n (.handle 1)))))), ?_, by simp⟩
  have r0 := run_reads true [] n { base := 0 } 0 [] rfl
  obtain ⟨c1, hc1, d0⟩ := run_handles true [] n { base := 0, read := n, closed := true } 0 [] (by simp)
  have hc1 := hc1 rfl
  subst hc1
  have r1 := run_reads true [{ base := 0, read := n, handled := n, closed := true }] n { base := 0 } 0 (List.range n) rfl
  obtain ⟨c2, _, d1⟩ := run_handles true [{ base := 0, read := n, handled := n, closed := true }] n { base := 0, read := n } 0
    (List.range n) (by simp)
  simp only [List.nil_append, List.length_nil, List.length_cons, Nat.zero_add, List.map_id', List.cons_append] at r0 d0 r1 d1
  rw [run_append, run_append, run_append, run_append, run_append, run_append]
  have e1 : run ⟨false, true⟩ init [.subscribe] = ⟨[{ base := 0 }], 0, []⟩ := rfl
  rw [e1, r0]
  have e2 : run ⟨false, true⟩ ⟨[{ base := 0, read := n }], 0, []⟩ [.cancel 0] =
      ⟨[{ base := 0, read := n, closed := true }], 0, []⟩ := rfl
  rw [e2, d0]
  have e3 : run ⟨false, true⟩ ⟨[{ base := 0, read := n, handled := n, closed := true }], 0, List.range n⟩ [.subscribe] =
      ⟨[{ base := 0, read := n, handled := n, closed := true }, { base := 0 }], 0, List.range n⟩ := rfl
  rw [e3, r1, d1]

/-- **Violated**: without a group (the default), all messages are read again, even when nothing waits. -/
theorem C126_violated_group (auto : Bool) :
    (run ⟨auto, false⟩ init [.subscribe, .read 0, .handle 0, .cancel 0, .subscribe, .read 1, .handle 1]).log = [0, 0] ∧
    CancelsIdle ⟨auto, false⟩ [.subscribe, .read 0, .handle 0, .cancel 0, .subscribe, .read 1, .handle 1] := by
  constructor
  · cases auto <;> decide
  · intro pre post i e
    match pre, e with
    | [_, _, _], e =>
      simp only [List.cons_append, List.nil_append, List.cons.injEq] at e
      obtain ⟨e1, e2, e3, e4, _⟩ := e
      rw [← e1, ← e2, ← e3]
      cases auto <;> decide
    | [], e => cases e
    | [_], e => cases e
    | [_, _], e => cases e
    | [_, _, _, _], e => cases e
    | [_, _, _, _, _], e => cases e
    | [_, _, _, _, _, _], e => cases e
    | _ :: _ :: _ :: _ :: _ :: _ :: _ :: r, e => cases r <;> cases e

/-! ## Non-vacuity -/

example : (run ⟨false, true⟩ init [.subscribe, .read 0, .handle 0, .cancel 0, .subscribe, .read 1, .handle 1]).log = [0, 1] := by
  decide

example : (run ⟨true, true⟩ init [.subscribe, .read 0, .read 0, .cancel 0, .subscribe, .read 1, .handle 1, .handle 0]).log = [2, 0] ∧
    waiting (run ⟨true, true⟩ init [.subscribe, .read 0, .read 0, .cancel 0, .subscribe, .read 1, .handle 1, .handle 0]) = [1] := by
  decide

end Verif.KafkaLeave
