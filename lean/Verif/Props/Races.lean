import Verif.Model.Races

/-! # C109: objects shared by goroutines are used without data races -/

namespace Verif.Races

/-- The variable that an event accesses, and whether it writes it. -/
def Ev.access : Ev → Option (Var × Bool)
  | .read v => some (v, false)
  | .write v => some (v, true)
  | _ => none

/-- Two goroutines are about to access the same variable, and one of them writes it. -/
def Race (s : St) : Prop :=
  ∃ i j v w w', i ≠ j ∧ s.started i = true ∧ s.started j = true ∧ (s.todo i).head?.bind Ev.access = some (v, w) ∧
    (s.todo j).head?.bind Ev.access = some (v, w') ∧ (w = true ∨ w' = true)

/-- However the goroutines are scheduled, there is never a race. -/
def RaceFree (prog : Nat → List Ev) (started : Nat → Bool) : Prop :=
  ∀ sched s, run (start prog started) sched = some s → ¬ Race s

/-! ## Disciplines that exclude races -/

/-- How a variable is protected. -/
inductive Guard
  | lock (m : Mutex)      -- accessed with this mutex
  | owner (i : Nat)       -- accessed by this goroutine
  | constant              -- never written
  | early                 -- written only before any other goroutine has started

/-- Whether an access of goroutine `i` with the mutexes `h` is allowed; `alone`: no other goroutine has started. -/
def Guard.allows (i : Nat) (h : Mutex → Prop) (alone : Bool) (write : Bool) : Guard → Prop
  | .lock m => h m
  | .owner k => i = k
  | .constant => write = false
  | .early => write = true → alone = true

/-- A goroutine that holds the mutexes `h` follows the discipline. -/
def Disc (g : Var → Guard) (i : Nat) : (Mutex → Prop) → Bool → List Ev → Prop
  | _, _, [] => True
  | h, a, .lock m :: r => Disc g i (fun m' => h m' ∨ m' = m) a r
  | h, a, .unlock m :: r => h m ∧ Disc g i (fun m' => h m' ∧ m' ≠ m) a r
  | h, a, .read v :: r => (g v).allows i h a false ∧ Disc g i h a r
  | h, a, .write v :: r => (g v).allows i h a true ∧ Disc g i h a r
  | h, _, .spawn _ :: r => Disc g i h false r

theorem Disc.mono (g : Var → Guard) (i : Nat) : ∀ (es : List Ev) (h h' : Mutex → Prop) (a : Bool), (∀ m, h m → h' m) →
    Disc g i h a es → Disc g i h' a es := by
  intro es
  induction es with
  | nil => intros; trivial
  | cons e es ih =>
    intro h h' a hh hd
    have hall : ∀ v w, (g v).allows i h a w → (g v).allows i h' a w := by
      intro v w
      cases g v <;> simp only [Guard.allows]
      · exact hh _
      all_goals exact id
    cases e with
    | lock m => exact ih _ _ a (fun m' hm => hm.imp (hh m') id) hd
    | unlock m => exact ⟨hh m hd.1, ih _ _ a (fun m' hm => ⟨hh m' hm.1, hm.2⟩) hd.2⟩
    | read v => exact ⟨hall v false hd.1, ih _ _ a hh hd.2⟩
    | write v => exact ⟨hall v true hd.1, ih _ _ a hh hd.2⟩
    | spawn j => exact ih _ _ false hh hd

/-- The invariant. -/
def Inv (g : Var → Guard) (s : St) : Prop :=
  ∃ alone : Nat → Bool, (∀ i, alone i = true → ∀ j, j ≠ i → s.started j = false) ∧
    ∀ i, Disc g i (fun m => s.holder m = some i) (alone i) (s.todo i)

theorem inv_step (g : Var → Guard) (s s' : St) (i : Nat) (h : Inv g s) (hs : step s i = some s') : Inv g s' := by
  obtain ⟨alone, h1, h2⟩ := h
  unfold step at hs
  split at hs
  rotate_left
  · cases hs
  rename_i hst
  have hi := h2 i
  -- goroutine `i` advances over an event that is no `lock`, `unlock` or `spawn`
  have adv : ∀ rest, Disc g i (fun m => s.holder m = some i) (alone i) rest → Inv g (s.advance i rest) := by
    intro rest hr
    refine ⟨alone, h1, fun j => ?_⟩
    show Disc g j (fun m => s.holder m = some j) (alone j) (if j = i then rest else s.todo j)
    by_cases hj : j = i
    · subst hj; rw [if_pos rfl]; exact hr
    · rw [if_neg hj]; exact h2 j
  cases ht : s.todo i with
  | nil => rw [ht] at hs; cases hs
  | cons e rest =>
    rw [ht] at hs hi
    cases e with
    | read v => cases hs; exact adv rest hi.2
    | write v => cases hs; exact adv rest hi.2
    | lock m =>
      simp only at hs
      cases hm : s.holder m with
      | some k => rw [hm] at hs; cases hs
      | none =>
        rw [hm] at hs
        cases hs
        refine ⟨alone, h1, fun j => ?_⟩
        show Disc g j (fun m' => (if m' = m then some i else s.holder m') = some j) (alone j)
          (if j = i then rest else s.todo j)
        by_cases hj : j = i
        · subst hj
          rw [if_pos rfl]
          refine Disc.mono g j rest _ _ _ (fun m' h => ?_) hi
          by_cases he : m' = m
          · rw [if_pos he]
          · rw [if_neg he]; exact h.resolve_right he
        · rw [if_neg hj]
          refine Disc.mono g j _ _ _ _ (fun m' h => ?_) (h2 j)
          by_cases he : m' = m
          · subst he; rw [hm] at h; cases h
          · rw [if_neg he]; exact h
    | unlock m =>
      cases hs
      refine ⟨alone, h1, fun j => ?_⟩
      show Disc g j (fun m' => (if m' = m then none else s.holder m') = some j) (alone j)
        (if j = i then rest else s.todo j)
      by_cases hj : j = i
      · subst hj
        rw [if_pos rfl]
        exact Disc.mono g j rest _ _ _ (fun m' h => by rw [if_neg h.2]; exact h.1) hi.2
      · rw [if_neg hj]
        refine Disc.mono g j _ _ _ _ (fun m' h => ?_) (h2 j)
        have hhi : s.holder m = some i := hi.1
        by_cases he : m' = m
        · subst he
          rw [hhi] at h
          exact absurd (Option.some.inj h).symm hj
        · rw [if_neg he]; exact h
    | spawn k =>
      cases hs
      refine ⟨fun j => if j = i then false else alone j, fun j hj l hl => ?_, fun j => ?_⟩
      · have hj : (if j = i then false else alone j) = true := hj
        by_cases hji : j = i
        · rw [if_pos hji] at hj; cases hj
        · rw [if_neg hji] at hj
          -- another goroutine cannot be alone, for `i` has started
          have := h1 j hj i (fun e => hji e.symm)
          rw [hst] at this
          cases this
      · show Disc g j (fun m => s.holder m = some j) (if j = i then false else alone j) (if j = i then rest else s.todo j)
        by_cases hj : j = i
        · subst hj; rw [if_pos rfl, if_pos rfl]; exact hi
        · rw [if_neg hj, if_neg hj]; exact h2 j

theorem inv_run (g : Var → Guard) : ∀ (sched : List Nat) (s s' : St), Inv g s → run s sched = some s' → Inv g s' := by
  intro sched
  induction sched with
  | nil => intro s s' h hr; cases hr; exact h
  | cons i is ih =>
    intro s s' h hr
    unfold run at hr
    cases hs : step s i with
    | none => rw [hs] at hr; cases hr
    | some t =>
      rw [hs] at hr
      exact ih t s' (inv_step g s t i h hs) hr

theorem no_race (g : Var → Guard) (s : St) (h : Inv g s) : ¬ Race s := by
  rintro ⟨i, j, v, w, w', hij, hsi, hsj, hi, hj, hw⟩
  obtain ⟨alone, h1, h2⟩ := h
  have key : ∀ k u, (s.todo k).head?.bind Ev.access = some (v, u) →
      (g v).allows k (fun m => s.holder m = some k) (alone k) u := by
    intro k u hk
    have hd := h2 k
    cases ht : s.todo k with
    | nil => rw [ht] at hk; cases hk
    | cons e es =>
      rw [ht] at hk hd
      cases e <;> cases hk
      · exact hd.1
      · exact hd.1
  have ai := key i w hi
  have aj := key j w' hj
  cases hg : g v with
  | lock m =>
    rw [hg] at ai aj
    have e : some i = some j := (show s.holder m = some i from ai).symm.trans aj
    exact hij (Option.some.inj e)
  | owner k =>
    rw [hg] at ai aj
    exact hij ((show i = k from ai).trans (show j = k from aj).symm)
  | constant =>
    rw [hg] at ai aj
    have ai : w = false := ai
    have aj : w' = false := aj
    rcases hw with hw | hw
    · rw [ai] at hw; cases hw
    · rw [aj] at hw; cases hw
  | early =>
    rw [hg] at ai aj
    rcases hw with hw | hw
    · have := h1 i (ai hw) j (fun e => hij e.symm)
      rw [hsj] at this; cases this
    · have := h1 j (aj hw) i hij
      rw [hsi] at this; cases this

/-- Goroutines that follow a discipline do not race, however they are scheduled. -/
theorem raceFree_of_disc (g : Var → Guard) (prog : Nat → List Ev) (started : Nat → Bool)
    (h : ∀ i, Disc g i (fun _ => False) false (prog i)) : RaceFree prog started := by
  intro sched s hr
  refine no_race g s (inv_run g sched _ s ⟨fun _ => false, fun _ h => by simp at h, fun i => ?_⟩ hr)
  exact Disc.mono g i _ _ _ _ (fun _ h => h.elim) (h i)

/-- The same for a program that begins with goroutine 0 alone. -/
theorem raceFree_of_disc_alone (g : Var → Guard) (prog : Nat → List Ev)
    (h0 : Disc g 0 (fun _ => False) true (prog 0)) (h : ∀ i, i ≠ 0 → Disc g i (fun _ => False) false (prog i)) :
    RaceFree prog (fun i => i == 0) := by
  intro sched s hr
  refine no_race g s (inv_run g sched _ s ⟨fun i => i == 0, fun i hi j hj => ?_, fun i => ?_⟩ hr)
  · have : i = 0 := by simpa using hi
    subst this
    show (j == 0) = false
    simpa using hj
  · show Disc g i _ (i == 0) (prog i)
    by_cases hi : i = 0
    · subst hi
      exact Disc.mono g 0 _ _ _ _ (fun _ h => h.elim) h0
    · rw [show (i == 0) = false by simpa using hi]
      exact Disc.mono g i _ _ _ _ (fun _ h => h.elim) (h i hi)

/-- The accesses of calls made one after the other. -/
def seq {α : Type} (trace : α → List Ev) (calls : List α) : List Ev := calls.flatMap trace

/-- Calls that follow the discipline whatever is held before, and whatever comes after. -/
theorem disc_seq {α : Type} (g : Var → Guard) (i : Nat) (trace : α → List Ev) (calls : List α)
    (h : ∀ c ∈ calls, ∀ held rest, (∀ held', Disc g i held' false rest) → Disc g i held false (trace c ++ rest)) :
    ∀ held, Disc g i held false (seq trace calls) := by
  induction calls with
  | nil => intro _; trivial
  | cons c cs ih =>
    intro held
    show Disc g i held false (trace c ++ seq trace cs)
    exact h c List.mem_cons_self held _ (ih (fun c' hc => h c' (List.mem_cons_of_mem _ hc)))

/-! ## The versioning wrapper -/

/-- The mutexes that protect the maps of the wrapper; headers belong to the goroutine that publishes them. -/
def wrapGuard (own : Nat → Nat) : Var → Guard
  | .wrapChannels => .lock .channels
  | .wrapVersions bs => .lock (.versions bs)
  | .headers n => .owner (own n)
  | _ => .constant

/-- The message that a call publishes. -/
def Wrap.message : Wrap → Option Nat
  | .publish n => some n
  | .publishNoVersion n => some n
  | _ => none

/-- **C109 for the versioning wrapper**: any number of goroutines, each making any calls of the wrapper one after the
other, among them its own goroutines, never race, if no two of them publish the same message. -/
theorem C109_versioning (calls : Nat → List Wrap) (started : Nat → Bool)
    (hmsg : ∃ own : Nat → Nat, ∀ i, ∀ c ∈ calls i, ∀ n, c.message = some n → own n = i) :
    RaceFree (fun i => seq Wrap.trace (calls i)) started := by
  obtain ⟨own, hown⟩ := hmsg
  refine raceFree_of_disc (wrapGuard own) _ _ (fun i => disc_seq _ i _ _ (fun c hc held rest hr => ?_) _)
  have hn := hown i c hc
  cases c with
  | publish n =>
    have := hn n rfl
    exact ⟨rfl, this.symm, rfl, this.symm, hr _⟩
  | publishNoVersion n => exact ⟨rfl, (hn n rfl).symm, hr _⟩
  | subscribeNew bs w l =>
    refine ⟨?_, rfl, ?_, ?_, ?_, ?_, ?_, hr _⟩ <;> simp [wrapGuard, Guard.allows]
  | subscribe bs w => refine ⟨?_, ?_, ?_, ?_, ?_, hr _⟩ <;> simp [wrapGuard, Guard.allows]
  | subscribeTwice bs => refine ⟨?_, ?_, ?_, ?_, hr _⟩ <;> simp [wrapGuard, Guard.allows]
  | subscribeFails => refine ⟨?_, rfl, ?_, hr _⟩ <;> simp [wrapGuard, Guard.allows]
  | subscribeNoVersion => exact hr _
  | remove bs => refine ⟨?_, ?_, ?_, ?_, hr _⟩ <;> simp [wrapGuard, Guard.allows]
  | removeLast bs => refine ⟨?_, ?_, ?_, ?_, ?_, hr _⟩ <;> simp [wrapGuard, Guard.allows]
  | deliver bs => refine ⟨rfl, ?_, ?_, hr _⟩ <;> simp [wrapGuard, Guard.allows]
  | deliverUnknown bs => refine ⟨rfl, ?_, rfl, hr _⟩; simp [wrapGuard, Guard.allows]
  | deliverNoVersion bs => exact ⟨rfl, hr _⟩

/-! ## The generated controllers -/

/-- The calls that use the map of subscriptions. -/
def Gen.managing : Gen → Bool
  | .subscribe _ | .subscribeTwice | .subscribeFails | .unsubscribe | .unsubscribeNone => true
  | _ => false

/-- **C109 for the generated controllers, partial**: no races when one goroutine does all subscribing and unsubscribing,
whatever the others send, request and listen to. -/
theorem C109_generated_partial (calls : Nat → List Gen) (started : Nat → Bool) (manager : Nat)
    (h : ∀ i, i ≠ manager → ∀ c ∈ calls i, c.managing = false) :
    RaceFree (fun i => seq Gen.trace (calls i)) started := by
  refine raceFree_of_disc (fun v => if v = .genSubs then .owner manager else .constant) _ _
    (fun i => disc_seq _ i _ _ (fun c hc held rest hr => ?_) _)
  by_cases hi : i = manager
  · subst hi
    cases c <;> simp [Gen.trace, Disc, Guard.allows, hr]
  · have := h i hi c hc
    cases c <;> simp [Gen.managing] at this <;> simp [Gen.trace, Disc, Guard.allows, hr]

/-! ## Brokers -/

/-- **C109 for NATS**: never a race (messages are only read). -/
theorem C109_nats (calls : Nat → List Nats) (started : Nat → Bool) : RaceFree (fun i => seq Nats.trace (calls i)) started := by
  refine raceFree_of_disc (fun _ => .constant) _ _ (fun i => disc_seq _ i _ _ (fun c _ held rest hr => ?_) _)
  cases c <;> simp [Nats.trace, Disc, Guard.allows, hr]

/-- Controllers made with TLS or SASL. -/
def Kafka.securing : Kafka → Bool
  | .newSecured _ => true
  | _ => false

/-- **C109 for Kafka, partial**: no races when no controller is made with TLS or SASL meanwhile. -/
theorem C109_kafka_partial (calls : Nat → List Kafka) (started : Nat → Bool)
    (h : ∀ i, ∀ c ∈ calls i, c.securing = false) : RaceFree (fun i => seq Kafka.trace (calls i)) started := by
  refine raceFree_of_disc (fun _ => .constant) _ _ (fun i => disc_seq _ i _ _ (fun c hc held rest hr => ?_) _)
  have := h i c hc
  cases c <;> simp [Kafka.securing] at this <;> simp [Kafka.trace, Disc, Guard.allows, hr]

/-- The calls that do not subscribe or unsubscribe. -/
def Jet.reading : Jet → Bool
  | .publish _ | .reader | .consume => true
  | _ => false

/-- **C109 for JetStream, partial**: no races for a program that subscribes once, before everything else, and never
unsubscribes, however many messages arrive and are published. -/
theorem C109_jetstream_partial (c r k : Nat) (calls : Nat → List Jet) (h : ∀ i, ∀ e ∈ calls i, e.reading = true) :
    RaceFree (fun i => if i = 0 then Jet.trace (.subscribeFirst c r k) ++ seq Jet.trace (calls 0) else seq Jet.trace (calls i))
      (fun i => i == 0) := by
  have hseq : ∀ i held, Disc (fun v => if v = .jetConsume then .owner 0 else .early) i held false (seq Jet.trace (calls i)) := by
    intro i
    refine disc_seq _ i _ _ (fun e he held rest hr => ?_)
    have := h i e he
    cases e <;> simp [Jet.reading] at this <;> simp [Jet.trace, Disc, Guard.allows, hr]
  refine raceFree_of_disc_alone (fun v => if v = .jetConsume then .owner 0 else .early) _ ?_ (fun i hi => ?_)
  · simp only [if_true]
    simp [Jet.trace, Disc, Guard.allows, hseq]
  · simp only [if_neg hi]
    exact hseq i _

/-! ## Races -/

/-- Neither locks nor unlocks. -/
def Ev.free : Ev → Bool
  | .lock _ => false
  | .unlock _ => false
  | _ => true

theorem step_free (s : St) (i : Nat) (e : Ev) (rest : List Ev) (hs : s.started i = true) (ht : s.todo i = e :: rest)
    (hf : e.free = true) : ∃ s', step s i = some s' ∧ s'.todo = (fun j => if j = i then rest else s.todo j) ∧
      ∀ j, s.started j = true → s'.started j = true := by
  unfold step
  rw [if_pos hs, ht]
  cases e with
  | lock m => cases hf
  | unlock m => cases hf
  | read v => exact ⟨_, rfl, rfl, fun j h => h⟩
  | write v => exact ⟨_, rfl, rfl, fun j h => h⟩
  | spawn k =>
    refine ⟨_, rfl, rfl, fun j h => ?_⟩
    show (if j = k then true else s.started j) = true
    rw [h]; simp

theorem run_free (i : Nat) : ∀ (a rest : List Ev) (s : St), s.started i = true → s.todo i = a ++ rest →
    (∀ e ∈ a, e.free = true) → ∃ sched s', run s sched = some s' ∧ s'.todo = (fun j => if j = i then rest else s.todo j) ∧
      ∀ j, s.started j = true → s'.started j = true := by
  intro a
  induction a with
  | nil =>
    intro rest s hs ht _
    refine ⟨[], s, rfl, ?_, fun j h => h⟩
    funext j
    by_cases hj : j = i
    · subst hj; rw [if_pos rfl]; exact ht
    · rw [if_neg hj]
  | cons e a ih =>
    intro rest s hs ht hf
    obtain ⟨s1, h1, h2, h3⟩ := step_free s i e (a ++ rest) hs ht (hf e List.mem_cons_self)
    obtain ⟨sched, s', h4, h5, h6⟩ := ih rest s1 (h3 i hs) (by rw [h2]; simp) (fun e he => hf e (List.mem_cons_of_mem _ he))
    refine ⟨i :: sched, s', by simp [run, h1, h4], ?_, fun j h => h6 j (h3 j h)⟩
    rw [h5, h2]
    funext j
    by_cases hj : j = i <;> simp [hj]

theorem run_append (s s1 s2 : St) : ∀ (a b : List Nat), run s a = some s1 → run s1 b = some s2 → run s (a ++ b) = some s2 := by
  intro a
  induction a generalizing s with
  | nil => intro b h1 h2; cases h1; exact h2
  | cons i a ih =>
    intro b h1 h2
    simp only [List.cons_append, run] at h1 ⊢
    cases hs : step s i with
    | none => rw [hs] at h1; cases h1
    | some t => rw [hs] at h1; exact ih t b h1 h2

/-- Two started goroutines that come to conflicting accesses without locking race. -/
theorem race_of_free (prog : Nat → List Ev) (started : Nat → Bool) (i j : Nat) (hij : i ≠ j) (hi : started i = true)
    (hj : started j = true) (a b r r' : List Ev) (e e' : Ev) (v : Var) (w w' : Bool) (ha : prog i = a ++ e :: r)
    (hb : prog j = b ++ e' :: r') (hfa : ∀ x ∈ a, x.free = true) (hfb : ∀ x ∈ b, x.free = true)
    (he : e.access = some (v, w)) (he' : e'.access = some (v, w')) (hw : w = true ∨ w' = true) :
    ∃ sched s, run (start prog started) sched = some s ∧ Race s := by
  obtain ⟨p, s1, h1, h2, h3⟩ := run_free i a (e :: r) (start prog started) hi ha hfa
  have hj1 : s1.todo j = b ++ e' :: r' := by rw [h2]; simp [Ne.symm hij]; exact hb
  obtain ⟨q, s2, h4, h5, h6⟩ := run_free j b (e' :: r') s1 (h3 j hj) hj1 hfb
  refine ⟨p ++ q, s2, run_append _ s1 s2 p q h1 h4, i, j, v, w, w', hij, h6 i (h3 i hi), h6 j (h3 j hj), ?_, ?_, hw⟩
  · rw [h5, h2]; simp [hij, he]
  · rw [h5]; simp [he']

theorem gen_free (calls : List Gen) : ∀ e ∈ seq Gen.trace calls, e.free = true := by
  intro e he
  simp only [seq, List.mem_flatMap] at he
  obtain ⟨c, _, hc⟩ := he
  revert e
  cases c <;> simp [Gen.trace, Ev.free]

/-- **C109 is violated** (1): whenever a goroutine subscribes or unsubscribes and another one does so too, on whatever
channels and after whatever calls, there is a schedule in which they race on the map of the controller. -/
theorem C109_violated_generated (calls : Nat → List Gen) (started : Nat → Bool) (i j : Nat) (hij : i ≠ j)
    (hi : started i = true) (hj : started j = true) (c d : Gen) (hc : c ∈ calls i) (hd : d ∈ calls j)
    (hc' : (∃ l, c = .subscribe l) ∨ c = .unsubscribe) (hd' : d.managing = true) :
    ∃ sched s, run (start (fun i => seq Gen.trace (calls i)) started) sched = some s ∧ Race s := by
  obtain ⟨p, q, hp⟩ := List.append_of_mem hc
  obtain ⟨p', q', hp'⟩ := List.append_of_mem hd
  have h1 : ∃ a r, seq Gen.trace (calls i) = a ++ Ev.write .genSubs :: r ∧ ∀ x ∈ a, x.free = true := by
    rcases hc' with ⟨l, rfl⟩ | rfl
    · refine ⟨seq Gen.trace p ++ [.read .genFields, .read .genSubs, .read .genFields, .spawn l, .read .genFields],
        seq Gen.trace q, by rw [hp]; simp [seq, Gen.trace], fun x hx => ?_⟩
      rw [List.mem_append] at hx
      rcases hx with hx | hx
      · exact gen_free p x hx
      · simp at hx; rcases hx with h | h | h | h | h <;> simp [h, Ev.free]
    · refine ⟨seq Gen.trace p ++ [.read .genFields, .read .genSubs], .read .genFields :: seq Gen.trace q,
        by rw [hp]; simp [seq, Gen.trace], fun x hx => ?_⟩
      rw [List.mem_append] at hx
      rcases hx with hx | hx
      · exact gen_free p x hx
      · simp at hx; rcases hx with h | h <;> simp [h, Ev.free]
  have h2 : ∃ b r, seq Gen.trace (calls j) = b ++ Ev.read .genSubs :: r ∧ ∀ x ∈ b, x.free = true := by
    have key : ∃ r, d.trace = Ev.read .genFields :: Ev.read .genSubs :: r := by
      cases d <;> simp [Gen.managing] at hd' <;> exact ⟨_, rfl⟩
    obtain ⟨r, hr⟩ := key
    refine ⟨seq Gen.trace p' ++ [.read .genFields], r ++ seq Gen.trace q', by rw [hp']; simp [seq, hr], fun x hx => ?_⟩
    rw [List.mem_append] at hx
    rcases hx with hx | hx
    · exact gen_free p' x hx
    · simp at hx; simp [hx, Ev.free]
  obtain ⟨a, r, ha, hfa⟩ := h1
  obtain ⟨b, r', hb, hfb⟩ := h2
  exact race_of_free _ started i j hij hi hj a b r r' _ _ .genSubs true false ha hb hfa hfb rfl rfl (Or.inl rfl)

/-- The calls that change the map of subscriptions. -/
def Gen.changing : Gen → Bool
  | .subscribe _ | .unsubscribe => true
  | _ => false

/-- **C109 for the generated controllers, exactly** (for goroutines the program starts itself, all at once): they never race
if and only if no two of them are such that one subscribes or unsubscribes with success and the other subscribes or
unsubscribes, with success or not. -/
theorem C109_generated_exactly (calls : Nat → List Gen) (started : Nat → Bool) (hs : ∀ i, started i = true) :
    RaceFree (fun i => seq Gen.trace (calls i)) started ↔
      ∀ i j, i ≠ j → ∀ c ∈ calls i, ∀ d ∈ calls j, ¬ (c.changing = true ∧ d.managing = true) := by
  constructor
  · rintro h i j hij c hc d hd ⟨h1, h2⟩
    have hc' : (∃ l, c = .subscribe l) ∨ c = .unsubscribe := by cases c <;> simp [Gen.changing] at h1 ⊢
    obtain ⟨sched, s, hr, hrace⟩ := C109_violated_generated calls started i j hij (hs i) (hs j) c d hc hd hc' h2
    exact h sched s hr hrace
  · intro h
    by_cases hex : ∃ i, ∃ c ∈ calls i, c.changing = true
    · obtain ⟨i, c, hc, h1⟩ := hex
      refine C109_generated_partial calls started i (fun j hj d hd => ?_)
      cases hm : d.managing with
      | false => rfl
      | true => exact absurd ⟨h1, hm⟩ (h i j (fun e => hj e.symm) c hc d hd)
    · refine raceFree_of_disc (fun _ => .constant) _ _ (fun i => disc_seq _ i _ _ (fun c hc held rest hr => ?_) _)
      have hn : c.changing = false := by
        cases hb : c.changing with
        | false => rfl
        | true => exact absurd ⟨i, c, hc, hb⟩ hex
      cases c <;> simp [Gen.changing] at hn <;> simp [Gen.trace, Disc, Guard.allows, hr]

/-- Non-vacuity: two goroutines that unsubscribe from what is not subscribed, a third that sends. -/
example : RaceFree (fun i => seq Gen.trace (if i = 0 then [.unsubscribeNone] else if i = 1 then [.subscribeTwice] else [.send])) (fun _ => true) := by
  refine (C109_generated_exactly _ _ (fun _ => rfl)).2 (fun i j _ c hc d _ h => ?_)
  have : c.changing = false := by
    by_cases h0 : i = 0
    · simp [h0] at hc; subst hc; rfl
    · by_cases h1 : i = 1
      · simp [h1] at hc; subst hc; rfl
      · simp [h0, h1] at hc; subst hc; rfl
  rw [this] at h
  cases h.1

/-- **C109 is violated** (2): a program whose only goroutine subscribes to two JetStream channels, one after the other. A
message that arrives in between is routed while the second subscription is entered into the map. -/
theorem C109_violated_jetstream_subscribe :
    ∃ sched s, run (start (fun i => match i with
        | 0 => seq Jet.trace [.subscribeFirst 1 2 3, .subscribe 4 5]
        | 1 => seq Jet.trace [.consume]
        | 2 => seq Jet.trace [.reader]
        | 4 => seq Jet.trace [.reader]
        | _ => []) (fun i => i == 0)) sched = some s ∧ Race s :=
  ⟨[0, 0, 0, 0, 0, 0, 0, 0, 0], _, rfl, 0, 1, .jetChannels, true, false, by decide, rfl, rfl, rfl, rfl, Or.inl rfl⟩

/-- **C109 is violated** (3): a program that subscribes once and cancels this subscription, when a message arrives
meanwhile. -/
theorem C109_violated_jetstream_cancel :
    ∃ sched s, run (start (fun i => match i with
        | 0 => seq Jet.trace [.subscribeFirst 1 2 3]
        | 1 => seq Jet.trace [.consume]
        | 2 => seq Jet.trace [.reader]
        | 3 => seq Jet.trace [.cleanupLast]
        | _ => []) (fun i => i == 0)) sched = some s ∧ Race s :=
  ⟨[0, 0, 0, 0, 0, 0, 0, 0, 3], _, rfl, 3, 1, .jetChannels, true, false, by decide, rfl, rfl, rfl, rfl, Or.inl rfl⟩

/-- **C109 is violated** (4): a Kafka controller is made with TLS or SASL while another controller, made without, publishes. -/
theorem C109_violated_kafka (c c' n : Nat) : ∃ sched s, run (start (fun i => match i with
        | 0 => seq Kafka.trace [.publish c n]
        | 1 => seq Kafka.trace [.newSecured c']
        | _ => []) (fun i => i == 0 || i == 1)) sched = some s ∧ Race s :=
  ⟨[0], _, rfl, 0, 1, .dialer, false, true, by decide, rfl, rfl, rfl, rfl, Or.inr rfl⟩

/-- … and so does every other call that makes a connection, of any controller. -/
theorem C109_violated_kafka_any (call : Kafka) (c' : Nat)
    (h : (∃ c, call = .new c) ∨ (∃ c n, call = .publish c n) ∨ ∃ c r k, call = .subscribe c r k) :
    ∃ sched s, run (start (fun i => match i with
        | 0 => seq Kafka.trace [call]
        | 1 => seq Kafka.trace [.newSecured c']
        | _ => []) (fun i => i == 0 || i == 1)) sched = some s ∧ Race s := by
  rcases h with ⟨c, rfl⟩ | ⟨c, n, rfl⟩ | ⟨c, r, k, rfl⟩
  · exact ⟨[], _, rfl, 0, 1, .dialer, false, true, by decide, rfl, rfl, rfl, rfl, Or.inr rfl⟩
  · exact ⟨[0], _, rfl, 0, 1, .dialer, false, true, by decide, rfl, rfl, rfl, rfl, Or.inr rfl⟩
  · exact ⟨[0], _, rfl, 0, 1, .dialer, false, true, by decide, rfl, rfl, rfl, rfl, Or.inr rfl⟩

/-- **C109 is violated** (5): the versioning wrapper writes into the headers of the message it is given: two goroutines that
publish the same message race. -/
theorem C109_violated_headers (n : Nat) : ∃ sched s, run (start (fun i => match i with
        | 0 => seq Wrap.trace [.publish n]
        | 1 => seq Wrap.trace [.publish n]
        | _ => []) (fun i => i == 0 || i == 1)) sched = some s ∧ Race s :=
  ⟨[0, 1], _, rfl, 0, 1, .headers n, true, true, by decide, rfl, rfl, rfl, rfl, Or.inl rfl⟩

/-! ## Examples -/

/-- Two goroutines subscribe to versions of a channel while a third one delivers and a fourth one cancels. -/
example : RaceFree (fun i => seq Wrap.trace (match i with
    | 0 => [.subscribeNew 7 4 2, .publish 1]
    | 1 => [.subscribe 7 3, .publish 2, .publish 3]
    | 2 => [.deliver 7, .deliverUnknown 7, .deliver 7]
    | 3 => [.removeLast 7]
    | _ => [])) (fun i => i == 0 || i == 1) :=
  C109_versioning _ _ ⟨fun n => if n = 1 then 0 else 1, fun i c hc n hn => by
    match i with
    | 0 => simp at hc; rcases hc with rfl | rfl <;> cases hn; rfl
    | 1 => simp at hc; rcases hc with rfl | rfl | rfl <;> cases hn <;> rfl
    | 2 => simp at hc; rcases hc with rfl | rfl | rfl <;> cases hn
    | 3 => simp at hc; subst hc; cases hn
    | n + 4 => simp at hc⟩

/-- It runs: the first subscription, then a delivery. -/
example : (run (start (fun i => seq Wrap.trace (match i with
    | 0 => [.subscribeNew 7 4 2]
    | 2 => [.deliver 7]
    | _ => [])) (fun i => i == 0)) [0, 0, 0, 0, 0, 0, 0, 0, 0, 0, 0, 2, 2, 2, 2]).isSome = true := rfl

/-- One goroutine subscribes, and unsubscribes, while others send and listen. -/
example : RaceFree (fun i => seq Gen.trace (match i with
    | 0 => [.subscribe 1, .send, .unsubscribe]
    | 1 => [.listen, .listen]
    | 2 => [.request]
    | _ => [])) (fun i => i == 0 || i == 2) :=
  C109_generated_partial _ _ 0 (fun i hi c hc => by
    match i with
    | 0 => exact absurd rfl hi
    | 1 => simp at hc; subst hc; rfl
    | 2 => simp at hc; subst hc; rfl
    | n + 3 => simp at hc)

/-- Two Kafka controllers publish and subscribe. -/
example : RaceFree (fun i => seq Kafka.trace (match i with
    | 0 => [.new 0, .subscribe 0 2 3, .publish 0 1]
    | 1 => [.new 1, .publish 1 1]
    | 2 => [.reader 0]
    | _ => [])) (fun i => i == 0 || i == 1) :=
  C109_kafka_partial _ _ (fun i c hc => by
    match i with
    | 0 => simp at hc; rcases hc with rfl | rfl | rfl <;> rfl
    | 1 => simp at hc; rcases hc with rfl | rfl <;> rfl
    | 2 => simp at hc; subst hc; rfl
    | n + 3 => simp at hc)

/-- A JetStream subscription that receives two messages while others are published; the program runs that far. -/
def jetCalls : Nat → List Jet
  | 0 => [.publish 1]
  | 1 => [.consume, .consume]
  | 2 => [.reader]
  | _ => []

example : RaceFree (fun i => if i = 0 then Jet.trace (.subscribeFirst 1 2 3) ++ seq Jet.trace (jetCalls 0)
      else seq Jet.trace (jetCalls i)) (fun i => i == 0) :=
  C109_jetstream_partial 1 2 3 jetCalls (fun i c hc => by
    match i with
    | 0 => simp [jetCalls] at hc; subst hc; rfl
    | 1 => simp [jetCalls] at hc; subst hc; rfl
    | 2 => simp [jetCalls] at hc; subst hc; rfl
    | n + 3 => simp [jetCalls] at hc)

example : (run (start (fun i => if i = 0 then Jet.trace (.subscribeFirst 1 2 3) ++ seq Jet.trace (jetCalls 0)
      else seq Jet.trace (jetCalls i)) (fun i => i == 0)) [0, 0, 0, 0, 0, 1, 1, 0, 0, 2, 2, 0, 0, 1, 1, 0]).isSome = true := rfl

end Verif.Races
