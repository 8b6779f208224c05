import Verif.Model.Feed

/-! # C98: messages that arrive while their subscription is cancelled -/

namespace Verif.Feed

variable {M : Type} {cap : Nat} {late : Bool}

theorem run_append (s : St M) : ∀ (as bs : List Act), run cap late s (as ++ bs) = (run cap late s as).bind (fun t => run cap late t bs)
  | [], bs => rfl
  | a :: as, bs => by
    rw [List.cons_append, run, run]
    cases step cap late s a with
    | none => rfl
    | some t => exact run_append t as bs

/-- An invariant of single actions holds after every schedule. -/
theorem run_ind {P : St M → Prop} (hs : ∀ s a s', P s → step cap late s a = some s' → P s') :
    ∀ (as : List Act) (s s' : St M), P s → run cap late s as = some s' → P s'
  | [], s, s', h, e => by cases e; exact h
  | a :: as, s, s', h, e => by
    rw [run] at e
    cases e1 : step cap late s a with
    | none => rw [e1] at e; cases e
    | some t => rw [e1] at e; exact run_ind hs as t s' (hs s a t h e1) e

/-- What a subscription has, in order: received, in the channel, on its way, at the source. -/
def all (s : St M) : List M := s.got ++ s.buf ++ s.hand.toList ++ s.source

theorem step_all (s s' : St M) (a : Act) (h : step cap late s a = some s') : all s' = all s := by
  unfold step at h
  split at h
  · cases h
  · cases a <;> simp only at h
    · split at h
      · rename_i hh hs
        split at h
        · cases h; simp [all, hh, hs]
        · cases h
      · cases h
    · split at h
      · cases h
      · rename_i m hm
        split at h
        · cases h; rfl
        · split at h
          · cases h; simp [all, hm]
          · cases h
    · split at h
      · cases h
      · rename_i hb
        cases h; simp [all, hb]
    · split at h
      · cases h; rfl
      · cases h
    · split at h
      · cases h; rfl
      · cases h

/-- **C98** (part that holds): whatever the size of the channel and the schedule, the user receives the messages of the
source in their order, each at most once and none skipped; what is in the channel stays to be received after it is closed. -/
theorem C98_order_partial (msgs : List M) (as : List Act) (s : St M) (h : run cap late (init msgs) as = some s) :
    s.got ++ s.buf <+: msgs ∧ (s.panicked = false → ∃ s', run cap late s (List.replicate s.buf.length .take) = some s' ∧
      s'.got = s.got ++ s.buf ∧ s'.panicked = false) := by
  have ha : all s = msgs := run_ind (P := fun s => all s = msgs) (fun s a s' hp hs => (step_all s s' a hs).trans hp) as _ _
    (by simp [all, init]) h
  refine ⟨⟨s.hand.toList ++ s.source, by rw [← ha]; simp [all]⟩, ?_⟩
  have key : ∀ (n : Nat) (t : St M), t.buf.length = n → t.panicked = false →
      ∃ s', run cap late t (List.replicate n .take) = some s' ∧ s'.got = t.got ++ t.buf ∧ s'.panicked = false := by
    intro n
    induction n with
    | zero =>
      intro t hn hp
      exact ⟨t, rfl, by rw [List.length_eq_zero_iff.1 hn, List.append_nil], hp⟩
    | succ n ih =>
      intro t hn hp
      obtain ⟨m, rest, hb⟩ := List.exists_cons_of_length_eq_add_one hn
      have hstep : step cap late t .take = some { t with buf := rest, got := t.got ++ [m] } := by
        simp [step, hp, hb]
      obtain ⟨s', h1, h2, h3⟩ := ih { t with buf := rest, got := t.got ++ [m] } (by simpa [hb] using hn) hp
      refine ⟨s', ?_, ?_, h3⟩
      · rw [List.replicate_succ, run, hstep]; exact h1
      · rw [h2, hb]; simp
  exact key _ s rfl

/-- A message is on its way, or will still be: the sender holds one, or the source gives one after the cleanup. -/
def OnItsWay (late : Bool) (s : St M) : Prop := s.hand ≠ none ∨ (late = true ∧ s.source ≠ [])

theorem step_quiet (s s' : St M) (a : Act) (hp : s.panicked = false) (hc : s.phase = .closed) (hq : ¬ OnItsWay late s)
    (h : step cap late s a = some s') : s'.panicked = false ∧ s'.phase = .closed ∧ ¬ OnItsWay late s' := by
  unfold OnItsWay at hq
  have hh : s.hand = none := by
    cases e : s.hand with
    | none => rfl
    | some m => exact (hq (.inl (by simp [e]))).elim
  unfold step at h
  rw [if_neg (by simp [hp])] at h
  cases a <;> simp only at h
  · rw [hh] at h
    split at h
    · rename_i m rest _ hs
      split at h
      · rename_i hl
        rcases hl with hl | hl
        · rw [hc] at hl; cases hl
        · exact (hq (.inr ⟨hl, by simp [hs]⟩)).elim
      · cases h
    · cases h
  · rw [hh] at h; cases h
  · split at h
    · cases h
    · cases h; exact ⟨hp, hc, hq⟩
  · rw [if_neg (by simp [hc])] at h; cases h
  · rw [if_neg (by simp [hc])] at h; cases h

theorem step_open (s s' : St M) (a : Act) (hp : s.panicked = false) (hc : s.phase ≠ .closed) (h : step cap late s a = some s') :
    s'.panicked = false ∧ (s'.phase = .closed → a = .close) := by
  unfold step at h
  rw [if_neg (by simp [hp])] at h
  cases a <;> simp only at h
  · split at h
    · split at h
      · cases h; exact ⟨hp, fun e => (hc e).elim⟩
      · cases h
    · cases h
  · split at h
    · cases h
    · rw [if_neg hc] at h
      split at h
      · cases h; exact ⟨hp, fun e => (hc e).elim⟩
      · cases h
  · split at h
    · cases h
    · cases h; exact ⟨hp, fun e => (hc e).elim⟩
  · split at h
    · cases h; exact ⟨hp, fun e => (nomatch e)⟩
    · cases h
  · split at h
    · cases h; exact ⟨hp, fun _ => rfl⟩
    · cases h

/-- Until the channel is closed nothing panics. -/
theorem run_open : ∀ (as : List Act) (s s' : St M), s.panicked = false → s.phase ≠ .closed → .close ∉ as →
    run cap late s as = some s' → s'.panicked = false ∧ s'.phase ≠ .closed
  | [], s, s', hp, hc, _, h => by cases h; exact ⟨hp, hc⟩
  | a :: as, s, s', hp, hc, hn, h => by
    rw [run] at h
    cases e : step cap late s a with
    | none => rw [e] at h; cases h
    | some t =>
      rw [e] at h
      obtain ⟨h1, h2⟩ := step_open s t a hp hc e
      refine run_open as t s' h1 (fun hcl => ?_) (fun hm => hn (.tail _ hm)) h
      exact hn (h2 hcl ▸ .head _)

/-- **C98** (part that holds): without a cancellation nothing panics; and a cancellation during which no message is on its
way when the channel is closed is safe, whatever happens before and after. -/
theorem C98_quiet_partial (msgs : List M) (as : List Act) (hn : .close ∉ as) (s : St M)
    (h : run cap late (init msgs) as = some s) :
    s.panicked = false ∧ ∀ bs s', ¬ OnItsWay late s → run cap late s (.close :: bs) = some s' → s'.panicked = false := by
  obtain ⟨hp, hc⟩ := run_open as _ s rfl (by simp [init]) hn h
  refine ⟨hp, fun bs s' hq hr => ?_⟩
  rw [run] at hr
  cases e : step cap late s .close with
  | none => rw [e] at hr; cases hr
  | some t =>
    rw [e] at hr
    have ht : t = { s with phase := .closed } := by
      unfold step at e
      rw [if_neg (by simp [hp])] at e
      simp only at e
      split at e
      · cases e; rfl
      · cases e
    have := run_ind (P := fun t => t.panicked = false ∧ t.phase = .closed ∧ ¬ OnItsWay late t)
      (fun s a s' hP hs => step_quiet s s' a hP.1 hP.2.1 hP.2.2 hs) bs t s' (by rw [ht]; exact ⟨hp, rfl, hq⟩) hr
    exact this.1

example : ∃ s, run 64 true (init [1, 2]) [.fetch, .put, .fetch, .put, .cleanup] = some s ∧ ¬ OnItsWay true s ∧
    ∃ s', run 64 true s [.close, .take, .take] = some s' ∧ s'.got = [1, 2] :=
  ⟨_, rfl, by rintro (h | ⟨-, h⟩) <;> exact h rfl, _, rfl, rfl⟩

theorem step_stopped (s s' : St M) (a : Act) (hc : s.phase ≠ .live) (h : step cap false s a = some s') :
    s'.phase ≠ .live ∧ s'.source = s.source := by
  unfold step at h
  split at h
  · cases h
  · cases a <;> simp only at h
    · split at h
      · rw [if_neg (by simp [hc])] at h; cases h
      · cases h
    · split at h
      · cases h
      · split at h
        · cases h; exact ⟨hc, rfl⟩
        · split at h
          · cases h; exact ⟨hc, rfl⟩
          · cases h
    · split at h
      · cases h
      · cases h; exact ⟨hc, rfl⟩
    · simp at h
    · split at h
      · cases h; exact ⟨by simp, rfl⟩
      · cases h

/-- **C98** (part that holds): except with NATS, once the cleanup is done nothing more is taken from the source: it is
left to other subscribers, and the user receives at most the messages that were in the channel or on their way. -/
theorem C98_stopped_partial (s s1 s' : St M) (as : List Act) (h1 : step cap false s .cleanup = some s1)
    (h : run cap false s1 as = some s') :
    s'.source = s.source ∧ s'.got <+: s.got ++ s.buf ++ s.hand.toList := by
  have e1 : s1 = { s with phase := .cleaned } := by
    unfold step at h1
    split at h1
    · cases h1
    · simp only at h1
      split at h1
      · cases h1; rfl
      · cases h1
  have hP := run_ind (P := fun t => (t.phase ≠ .live ∧ t.source = s.source) ∧ all t = all s)
    (fun t a t' hp hs => ⟨⟨(step_stopped t t' a hp.1.1 hs).1, (step_stopped t t' a hp.1.1 hs).2.trans hp.1.2⟩,
      (step_all t t' a hs).trans hp.2⟩) as s1 s' (by rw [e1]; exact ⟨⟨by simp, rfl⟩, rfl⟩) h
  refine ⟨hP.1.2, s'.buf ++ s'.hand.toList, ?_⟩
  have h2 := hP.2
  unfold all at h2
  rw [hP.1.2] at h2
  rw [← List.append_assoc]
  exact List.append_cancel_right h2

example : ∃ s1 s', step 2 false { source := [3], hand := some 2, buf := [1] } .cleanup = some s1 ∧
    run 2 false s1 [.put, .close, .take, .take] = some s' ∧ s'.got = [1, 2] ∧ s'.source = [3] :=
  ⟨_, _, rfl, rfl, rfl, rfl⟩

/-- **C98** violated: when a message is on its way as the channel is closed, the process panics or the message is never
received: the sender can do nothing else. -/
theorem C98_violated (s : St M) (hp : s.panicked = false) (hc : s.phase = .closed) :
    ((∃ as s', run cap late s as = some s' ∧ s'.panicked = true) ↔ OnItsWay late s) ∧
    (∀ m, s.hand = some m → step cap late s .fetch = none ∧
      ∃ s', step cap late s .put = some s' ∧ s'.panicked = true ∧ ∀ a, step cap late s' a = none) := by
  have hput : ∀ (t : St M) (m : M), t.panicked = false → t.phase = .closed → t.hand = some m →
      step cap late t .put = some { t with panicked := true } := by
    intro t m h1 h2 h3
    simp [step, h1, h2, h3]
  refine ⟨⟨?_, ?_⟩, fun m hm => ⟨by simp [step, hp, hm], _, hput s m hp hc hm, rfl, fun a => by simp [step]⟩⟩
  · rintro ⟨as, s', hr, hp'⟩
    apply Classical.byContradiction
    intro hq
    have := run_ind (P := fun t => t.panicked = false ∧ t.phase = .closed ∧ ¬ OnItsWay late t)
      (fun s a s' hP hs => step_quiet s s' a hP.1 hP.2.1 hP.2.2 hs) as s s' ⟨hp, hc, hq⟩ hr
    rw [this.1] at hp'; cases hp'
  · intro hw
    cases hh : s.hand with
    | some m => exact ⟨[.put], _, by rw [run, hput s m hp hc hh]; rfl, rfl⟩
    | none =>
      rcases hw with hw | ⟨hl, hs⟩
      · exact (hw hh).elim
      · cases e : s.source with
        | nil => exact (hs e).elim
        | cons m rest =>
          have hf : step cap late s .fetch = some { s with hand := some m, source := rest } := by
            simp [step, hp, hh, e, hl]
          exact ⟨[.fetch, .put], { s with hand := some m, source := rest, panicked := true }, by
            rw [run, hf]; simp only
            rw [run, hput { s with hand := some m, source := rest } m hp hc rfl]; rfl, rfl⟩

theorem fill : ∀ (msgs rest got : List M) (buf : List M), buf.length + msgs.length ≤ cap →
    run cap late { source := msgs ++ rest, buf := buf, got := got } ((List.replicate msgs.length [Act.fetch, .put]).flatten) =
      some { source := rest, buf := buf ++ msgs, got := got }
  | [], rest, got, buf, _ => by simp [run]
  | m :: msgs, rest, got, buf, h => by
    rw [List.length_cons, List.replicate_succ, List.flatten_cons]
    have h1 : buf.length < cap := by simp at h; omega
    simp only [run, step, List.cons_append, List.nil_append, Bool.false_eq_true, if_false, true_or, if_true, h1, reduceCtorEq]
    rw [fill msgs rest got (buf ++ [m]) (by simp at h ⊢; omega)]
    simp

/-- **C98** violated, without any race: a user that is slow to receive, so that the channel is full and the sender waits
for room, cannot cancel its subscription: the process panics. For every size of the channel; with any source. -/
theorem C98_violated_full (msgs : List M) (m : M) (rest : List M) (h : msgs.length = cap) :
    ∃ as s, .cleanup ∉ as ∧ .take ∉ as ∧ run cap late (init (msgs ++ m :: rest)) as = some s ∧
      s.buf = msgs ∧ s.hand = some m ∧ step cap late s .put = none ∧
      ∃ s', run cap late s [.cleanup, .close, .put] = some s' ∧ s'.panicked = true := by
  have hf := fill (cap := cap) (late := late) msgs (m :: rest) [] [] (by simp [h])
  refine ⟨(List.replicate msgs.length [Act.fetch, .put]).flatten ++ [.fetch],
    { source := rest, hand := some m, buf := msgs }, ?_, ?_, ?_, rfl, rfl, ?_, { source := rest, hand := some m, buf := msgs, phase := .closed, panicked := true }, ?_, rfl⟩
  · simp
  · simp
  · rw [run_append]
    show (run cap late { source := msgs ++ m :: rest, buf := [], got := [] } _).bind _ = _
    rw [hf]
    simp [run, step]
  · simp [step, h]
  · simp [run, step]

example : ∃ s, run 1 false (init [1, 2, 3]) [.fetch, .put, .fetch, .cleanup, .close, .put] = some s ∧ s.panicked = true ∧
    s.got = [] := ⟨_, rfl, rfl, rfl⟩

end Verif.Feed
