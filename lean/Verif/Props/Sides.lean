import Verif.Model.Sides

/-! # C53, C54: the two sides -/

namespace Verif.Sides

/-- Keeping the entries of a map that satisfy a condition. -/
def sel {α : Type} (f : α → Bool) : Option α → Option α
  | some a => if f a then some a else none
  | none => none

namespace V2

theorem loop_get (side : Side) (spec : List (Str × Chan)) (hw : GoMap.WF spec) : ∀ (acc : GoMap Str Chan × GoMap Str Chan) (k : Str),
    (∀ e ∈ spec, acc.1.get e.1 = none ∧ acc.2.get e.1 = none) →
    (loop side spec acc).1.get k = (match GoMap.get spec k with
      | some c => sel (isSubscribeChannel side) (some c)
      | none => acc.1.get k) ∧
    (loop side spec acc).2.get k = (match GoMap.get spec k with
      | some c => sel (isPublishChannel side) (some c)
      | none => acc.2.get k) := by
  induction spec with
  | nil => intro acc k _; exact ⟨rfl, rfl⟩
  | cons e spec ih =>
    obtain ⟨a, c⟩ := e
    intro acc k h
    obtain ⟨sub, pub⟩ := acc
    have hw' : a ∉ GoMap.keys spec ∧ GoMap.WF spec := by
      have : (a :: GoMap.keys spec).Nodup := hw
      exact List.nodup_cons.mp this
    have ha := h (a, c) (by simp)
    simp only [loop, GoMap.get_cons]
    have hpre : ∀ e ∈ spec, (if isSubscribeChannel side c then sub.put a c else sub).get e.1 = none ∧
        (if isPublishChannel side c then pub.put a c else pub).get e.1 = none := by
      intro e he
      have hne : a ≠ e.1 := fun hc => hw'.1 (by rw [hc]; exact List.mem_map_of_mem he)
      have := h e (List.mem_cons_of_mem _ he)
      constructor
      · split
        · rw [GoMap.get_put_of_ne _ _ hne]; exact this.1
        · exact this.1
      · split
        · rw [GoMap.get_put_of_ne _ _ hne]; exact this.2
        · exact this.2
    have := ih hw'.2 (if isSubscribeChannel side c then sub.put a c else sub, if isPublishChannel side c then pub.put a c else pub) k hpre
    rw [this.1, this.2]
    by_cases hak : a = k
    · subst hak
      have hn : GoMap.get spec a = none := (GoMap.get_eq_none_iff _ _).mpr hw'.1
      rw [hn]
      simp only [if_true, sel]
      constructor
      · split
        · simp
        · exact ha.1
      · split
        · simp
        · exact ha.2
    · simp only [hak, if_false]
      cases GoMap.get spec k with
      | some c' => exact ⟨rfl, rfl⟩
      | none =>
        simp only
        constructor
        · cases isSubscribeChannel side c <;> simp [hak]
        · cases isPublishChannel side c <;> simp [hak]

/-- **C53 (v2).** For every document: what the application subscribes to is what the user publishes to, and
conversely; both are the declared operations. -/
theorem C53_v2 (spec : List (Str × Chan)) (hw : GoMap.WF spec) (k : Str) :
    (newController .app spec).subscribe.get k = sel (·.publish) (GoMap.get spec k) ∧
    (newController .user spec).publish.get k = sel (·.publish) (GoMap.get spec k) ∧
    (newController .user spec).subscribe.get k = sel (·.subscribe) (GoMap.get spec k) ∧
    (newController .app spec).publish.get k = sel (·.subscribe) (GoMap.get spec k) := by
  have happ := loop_get .app spec hw ([], []) k (by simp)
  have huser := loop_get .user spec hw ([], []) k (by simp)
  unfold newController
  simp only
  rw [happ.1, happ.2, huser.1, huser.2]
  cases GoMap.get spec k <;> exact ⟨rfl, rfl, rfl, rfl⟩

theorem count_spec (spec : List (Str × Chan)) : count spec = (spec.countP (·.2.publish), spec.countP (·.2.subscribe)) := by
  induction spec with
  | nil => rfl
  | cons e spec ih =>
    obtain ⟨a, c⟩ := e
    simp only [count, ih, List.countP_cons]
    cases c.publish <;> cases c.subscribe <;> simp <;> omega

theorem loop_length (side : Side) (spec : List (Str × Chan)) (hw : GoMap.WF spec) : ∀ (acc : GoMap Str Chan × GoMap Str Chan),
    (∀ e ∈ spec, acc.1.get e.1 = none) →
    (loop side spec acc).1.length = acc.1.length + spec.countP (fun e => isSubscribeChannel side e.2) := by
  induction spec with
  | nil => intro acc _; rfl
  | cons e spec ih =>
    obtain ⟨a, c⟩ := e
    intro acc h
    obtain ⟨sub, pub⟩ := acc
    have hw' : a ∉ GoMap.keys spec ∧ GoMap.WF spec := by
      have : (a :: GoMap.keys spec).Nodup := hw
      exact List.nodup_cons.mp this
    simp only [loop, List.countP_cons]
    rw [ih hw'.2]
    · have ha : sub.get a = none := h (a, c) (by simp)
      have hdel : GoMap.del sub a = sub := by
        unfold GoMap.del
        rw [List.filter_eq_self]
        intro e he
        have : a ∉ GoMap.keys sub := (GoMap.get_eq_none_iff _ _).mp ha
        have hne : e.1 ≠ a := fun hc => this (hc ▸ List.mem_map_of_mem he)
        simp [hne]
      cases isSubscribeChannel side c
      · simp
      · simp only [if_true, GoMap.put, hdel, List.length_cons]; omega
    · intro e he
      have hne : a ≠ e.1 := fun hc => hw'.1 (by rw [hc]; exact List.mem_map_of_mem he)
      have := h e (List.mem_cons_of_mem _ he)
      simp only
      split
      · rw [GoMap.get_put_of_ne _ _ hne]; exact this
      · exact this

/-- **C53 (v2, count).** The number of methods announced is the number of channels subscribed to, for every
document and both sides. -/
theorem C53_v2_count (side : Side) (spec : List (Str × Chan)) (hw : GoMap.WF spec) :
    (newController side spec).methodCount = (newController side spec).subscribe.length := by
  have h := loop_length side spec hw ([], []) (by simp)
  unfold newController
  simp only
  rw [h, count_spec]
  cases side <;> simp <;> rfl

/-- The subscriber interface covers exactly the channels the controller subscribes to, for every document and
both sides. -/
theorem C53_v2_subscriber (side : Side) (spec : List (Str × Chan)) :
    subscriberLoop side spec [] = (newController side spec).subscribe := by
  have h : ∀ (spec : List (Str × Chan)) (sub pub : GoMap Str Chan),
      subscriberLoop side spec sub = (loop side spec (sub, pub)).1 := by
    intro spec
    induction spec with
    | nil => intros; rfl
    | cons e spec ih =>
      obtain ⟨a, c⟩ := e
      intro sub pub
      simp only [subscriberLoop, loop]
      rw [← ih]
      cases side <;> simp [isSubscribeChannel] <;> rfl
  exact h spec [] []

example : GoMap.WF [("a".toList, (⟨true, false⟩ : Chan)), ("b".toList, ⟨true, true⟩)] := by unfold GoMap.WF; decide

end V2

namespace V3

/-- Reply channels are not named like operations. -/
def NoClash (spec : List (Str × Op)) : Prop :=
  ∀ e ∈ spec, ∀ ch, e.2.reply = some ch → GoMap.get spec ch = none

/-- Two operations that get a reply function do not reply on the same channel. -/
def DistinctReplies (side : Side) (spec : List (Str × Op)) : Prop :=
  ∀ e ∈ spec, ∀ e' ∈ spec, ∀ ch, e.2.reply = some ch → e'.2.reply = some ch →
    isReceive side e.2 = true → isReceive side e'.2 = true → e.2 = e'.2

theorem foldl_receive (side : Side) (spec : List (Str × Op)) (hw : GoMap.WF spec) :
    ∀ (acc : GoMap Str Op × GoMap Str SendOp) (k : Str), (∀ e ∈ spec, acc.1.get e.1 = none) →
    (spec.foldl (step side) acc).1.get k = (match GoMap.get spec k with
      | some op => sel (isReceive side) (some op)
      | none => acc.1.get k) := by
  induction spec with
  | nil => intros; rfl
  | cons e spec ih =>
    obtain ⟨a, op⟩ := e
    intro acc k h
    have hw' : a ∉ GoMap.keys spec ∧ GoMap.WF spec := by
      have : (a :: GoMap.keys spec).Nodup := hw
      exact List.nodup_cons.mp this
    have ha := h (a, op) (by simp)
    rw [List.foldl_cons, ih hw'.2]
    · rw [GoMap.get_cons]
      by_cases hak : a = k
      · subst hak
        rw [(GoMap.get_eq_none_iff _ _).mpr hw'.1]
        simp only [if_true, step, sel]
        split
        · simp
        · exact ha
      · simp only [hak, if_false]
        cases GoMap.get spec k with
        | some c => rfl
        | none =>
          simp only [step]
          split
          · simp [hak]
          · rfl
    · intro e he
      have hne : a ≠ e.1 := fun hc => hw'.1 (by rw [hc]; exact List.mem_map_of_mem he)
      have := h e (List.mem_cons_of_mem _ he)
      simp only [step]
      split
      · rw [GoMap.get_put_of_ne _ _ hne]; exact this
      · exact this

/-- **C53 (v3, receiving).** For every document: what a side receives is exactly the operations declared for
it. -/
theorem C53_v3_receive (side : Side) (spec : List (Str × Op)) (hw : GoMap.WF spec) (k : Str) :
    (newActionOperations side spec).receive.get k = sel (isReceive side) (GoMap.get spec k) := by
  have := foldl_receive side spec hw ([], []) k (by simp)
  unfold newActionOperations
  simp only
  rw [this]
  cases GoMap.get spec k <;> rfl

/-- What a step does to the operations sent, at a name that is no reply channel. -/
theorem step_send (side : Side) (acc : GoMap Str Op × GoMap Str SendOp) (a : Str) (op : Op) (k : Str)
    (hk : op.reply ≠ some k) :
    (step side acc (a, op)).2.get k = if isSend side op = true ∧ a = k then some (.declared op) else acc.2.get k := by
  simp only [step]
  have hbase : (if isSend side op = true then acc.2.put a (SendOp.declared op) else acc.2).get k =
      if isSend side op = true ∧ a = k then some (.declared op) else acc.2.get k := by
    by_cases hs : isSend side op = true
    · simp only [hs, if_true, true_and, GoMap.get_put]
    · simp [hs]
  cases hr : op.reply with
  | none => exact hbase
  | some ch =>
    have hne : ch ≠ k := fun h => hk (by rw [hr, h])
    simp only
    split
    · rw [GoMap.get_put_of_ne _ _ hne]; exact hbase
    · exact hbase

theorem foldl_send (side : Side) (spec : List (Str × Op)) (hw : GoMap.WF spec) :
    ∀ (acc : GoMap Str Op × GoMap Str SendOp) (k : Str), (∀ e ∈ spec, e.2.reply ≠ some k) →
    (spec.foldl (step side) acc).2.get k = (match GoMap.get spec k with
      | some op => if isSend side op then some (.declared op) else acc.2.get k
      | none => acc.2.get k) := by
  induction spec with
  | nil => intros; rfl
  | cons e spec ih =>
    obtain ⟨a, op⟩ := e
    intro acc k h
    have hw' : a ∉ GoMap.keys spec ∧ GoMap.WF spec := by
      have : (a :: GoMap.keys spec).Nodup := hw
      exact List.nodup_cons.mp this
    rw [List.foldl_cons, ih hw'.2 _ k (fun e he => h e (List.mem_cons_of_mem _ he)), step_send side acc a op k (h (a, op) (by simp)),
      GoMap.get_cons]
    by_cases hak : a = k
    · subst hak
      rw [(GoMap.get_eq_none_iff _ _).mpr hw'.1]
      simp
    · simp [hak]

/-- **C53 (v3, duality; partial: no reply channel has the name of an operation).** For every such document:
what a side receives is exactly what the other side sends, under the name of the operation. Missing: documents
with such a clash, for which an operation is lost (below). -/
theorem C53_v3_dual_partial (spec : List (Str × Op)) (hw : GoMap.WF spec) (hc : NoClash spec) (k : Str) (op : Op)
    (hk : GoMap.get spec k = some op) :
    ((newActionOperations .app spec).receive.get k = some op ↔ (newActionOperations .user spec).send.get k = some (.declared op)) ∧
    ((newActionOperations .user spec).receive.get k = some op ↔ (newActionOperations .app spec).send.get k = some (.declared op)) := by
  have hno : ∀ e ∈ spec, e.2.reply ≠ some k := by
    intro e he hr
    rw [hc e he k hr] at hk
    cases hk
  have h1 := C53_v3_receive .app spec hw k
  have h2 := C53_v3_receive .user spec hw k
  have h3 := foldl_send .app spec hw ([], []) k hno
  have h4 := foldl_send .user spec hw ([], []) k hno
  rw [h1, h2, hk]
  unfold newActionOperations
  simp only
  rw [h3, h4, hk]
  simp only [sel, isReceive, isSend]
  by_cases ha : op.action = .receive
  · simp [ha]
  · by_cases hb : op.action = .send
    · simp [hb]
    · simp [ha, hb]

/-- Each declared operation appears on both sides: one receives it, the other sends it. -/
theorem C53_v3_both_sides_partial (spec : List (Str × Op)) (hw : GoMap.WF spec) (hc : NoClash spec) (k : Str) (op : Op)
    (hk : GoMap.get spec k = some op) (ha : op.action ≠ .other) :
    ((newActionOperations .app spec).receive.get k = some op ∧ (newActionOperations .user spec).send.get k = some (.declared op)) ∨
    ((newActionOperations .user spec).receive.get k = some op ∧ (newActionOperations .app spec).send.get k = some (.declared op)) := by
  have hd := C53_v3_dual_partial spec hw hc k op hk
  have h1 := C53_v3_receive .app spec hw k
  have h2 := C53_v3_receive .user spec hw k
  rw [hk] at h1 h2
  cases hact : op.action with
  | send => right; simp [sel, isReceive, hact] at h2; exact ⟨h2, hd.2.mp h2⟩
  | receive => left; simp [sel, isReceive, hact] at h1; exact ⟨h1, hd.1.mp h1⟩
  | other => exact absurd hact ha

/-- **C53 is violated**: an operation named like the reply channel of another is not sent by anyone. -/
theorem C53_violated_clash : ∃ (spec : List (Str × Op)) (k : Str) (op : Op), GoMap.WF spec ∧ GoMap.get spec k = some op ∧
    op.action = .send ∧ (newActionOperations .user spec).receive.get k = some op ∧
    (newActionOperations .app spec).send.get k ≠ some (.declared op) := by
  refine ⟨[("Pong".toList, ⟨0, .send, none⟩), ("ping".toList, ⟨1, .receive, some "Pong".toList⟩)], "Pong".toList, ⟨0, .send, none⟩, ?_, ?_, ?_, ?_, ?_⟩
  · unfold GoMap.WF; decide
  · decide
  · decide
  · decide
  · decide

theorem foldl_reply (side : Side) (spec : List (Str × Op)) :
    ∀ (acc : GoMap Str Op × GoMap Str SendOp) (ch : Str) (op : Op), GoMap.get spec ch = none →
    (∀ e ∈ spec, e.2.reply = some ch → isReceive side e.2 = true → e.2 = op) →
    (acc.2.get ch = some (.replyTo op) ∨ ∃ e ∈ spec, e.2 = op ∧ op.reply = some ch ∧ isReceive side op = true) →
    (spec.foldl (step side) acc).2.get ch = some (.replyTo op) := by
  induction spec with
  | nil =>
    intro acc ch op _ _ h
    rcases h with h | ⟨e, he, _⟩
    · exact h
    · cases he
  | cons e spec ih =>
    obtain ⟨a, o⟩ := e
    intro acc ch op hn hu h
    rw [GoMap.get_cons] at hn
    have hach : a ≠ ch := by intro hc; rw [if_pos hc] at hn; cases hn
    rw [if_neg hach] at hn
    rw [List.foldl_cons]
    refine ih _ ch op hn (fun e he => hu e (List.mem_cons_of_mem _ he)) ?_
    have hkeep : acc.2.get ch = some (.replyTo op) → (step side acc (a, o)).2.get ch = some (.replyTo op) := by
      intro hacc
      by_cases hr : o.reply = some ch
      · by_cases hrecv : isReceive side o = true
        · have : o = op := hu (a, o) (by simp) hr hrecv
          subst this
          simp [step, hr, shouldRespond, hrecv]
        · simp only [step, hr, shouldRespond, hrecv]
          simp only [Bool.false_eq_true, if_false]
          split
          · rw [GoMap.get_put_of_ne _ _ hach]; exact hacc
          · exact hacc
      · rw [step_send side acc a o ch hr, if_neg (fun h => hach h.2)]; exact hacc
    rcases h with h | ⟨e, he, h1, h2, h3⟩
    · exact Or.inl (hkeep h)
    · rcases List.mem_cons.mp he with rfl | he
      · left
        have : o = op := h1
        subst this
        simp [step, h2, shouldRespond, h3]
      · exact Or.inr ⟨e, he, h1, h2, h3⟩

/-- **C54 (partial: reply channels distinct, and not named like operations).** For every such document and
whatever the iteration order: every operation received with a reply has the function that sends the reply.
Missing: documents where two operations reply on the same channel, for which one function is lost (below). -/
theorem C54_reply_partial (side : Side) (spec : List (Str × Op)) (hc : NoClash spec) (hd : DistinctReplies side spec)
    (e : Str × Op) (he : e ∈ spec) (ch : Str) (hr : e.2.reply = some ch) (hs : isReceive side e.2 = true) :
    (newActionOperations side spec).send.get ch = some (.replyTo e.2) := by
  unfold newActionOperations
  simp only
  exact foldl_reply side spec _ ch e.2 (hc e he ch hr)
    (fun e' he' hr' hs' => hd e' he' e he ch hr' hr hs' hs)
    (Or.inr ⟨e, he, rfl, hr, hs⟩)

/-- **C54 is violated**: two operations that reply on the same channel, for both sides' controllers one of the
reply functions is missing, which one depending on the iteration order. -/
theorem C54_violated_shared_channel : ∃ (o1 o2 : Op) (s1 s2 : List (Str × Op)), s1.Perm s2 ∧ o1 ≠ o2 ∧
    (∀ o, o = o1 ∨ o = o2 → isReceive .app o = true ∧ o.reply = some "Pong".toList ∧ ∃ e ∈ s1, e.2 = o) ∧
    (∀ k, (newActionOperations .app s1).send.get k ≠ some (.replyTo o1)) ∧
    (∀ k, (newActionOperations .app s2).send.get k ≠ some (.replyTo o2)) := by
  refine ⟨⟨0, .receive, some "Pong".toList⟩, ⟨1, .receive, some "Pong".toList⟩,
    [("a".toList, ⟨0, .receive, some "Pong".toList⟩), ("b".toList, ⟨1, .receive, some "Pong".toList⟩)],
    [("b".toList, ⟨1, .receive, some "Pong".toList⟩), ("a".toList, ⟨0, .receive, some "Pong".toList⟩)],
    List.Perm.swap _ _ _, by decide, ?_, ?_, ?_⟩
  · rintro o (rfl | rfl)
    · exact ⟨by decide, rfl, _, List.mem_cons_self, rfl⟩
    · exact ⟨by decide, rfl, _, List.mem_cons_of_mem _ List.mem_cons_self, rfl⟩
  · intro k
    have : (newActionOperations .app [("a".toList, ⟨0, .receive, some "Pong".toList⟩), ("b".toList, ⟨1, .receive, some "Pong".toList⟩)]).send =
        [("Pong".toList, .replyTo ⟨1, .receive, some "Pong".toList⟩)] := by decide
    rw [this, GoMap.get_cons]
    split <;> simp
  · intro k
    have : (newActionOperations .app [("b".toList, ⟨1, .receive, some "Pong".toList⟩), ("a".toList, ⟨0, .receive, some "Pong".toList⟩)]).send =
        [("Pong".toList, .replyTo ⟨0, .receive, some "Pong".toList⟩)] := by decide
    rw [this, GoMap.get_cons]
    split <;> simp

/-- **C53 (v3, counts).** What is counted as sent and received is what the other side receives and sends, for
every document. -/
theorem C53_v3_counts (spec : List (Str × Op)) :
    (newActionOperations .app spec).sendCount = (newActionOperations .user spec).receiveCount ∧
    (newActionOperations .app spec).receiveCount = (newActionOperations .user spec).sendCount ∧
    (newActionOperations .app spec).receiveCount = spec.countP (fun e => isReceive .app e.2) ∧
    (newActionOperations .user spec).receiveCount = spec.countP (fun e => isReceive .user e.2) := by
  have hcount : count spec = (spec.countP (fun e => isReceive .user e.2), spec.countP (fun e => isReceive .app e.2)) := by
    induction spec with
    | nil => rfl
    | cons e spec ih =>
      obtain ⟨a, o⟩ := e
      simp only [count, ih, List.countP_cons, isReceive, decide_eq_true_eq]
      rw [Nat.add_comm, Nat.add_comm (if o.action = .receive then 1 else 0)]
  refine ⟨rfl, rfl, ?_, ?_⟩
  · show (count spec).2 = _; rw [hcount]
  · show (count spec).1 = _; rw [hcount]

/-- Non-vacuity: a request, its reply channel, and an event. -/
example : let spec : List (Str × Op) := [("ping".toList, ⟨0, .receive, some "PongChannel".toList⟩), ("event".toList, ⟨1, .send, none⟩)]
    GoMap.WF spec ∧ NoClash spec ∧ DistinctReplies .app spec := by
  intro spec
  refine ⟨by unfold GoMap.WF; decide, ?_, ?_⟩
  · intro e he ch hr
    simp only [spec, List.mem_cons, List.not_mem_nil, or_false] at he
    rcases he with rfl | rfl
    · cases hr; decide
    · cases hr
  · intro e he e' he' ch hr hr' _ _
    simp only [spec, List.mem_cons, List.not_mem_nil, or_false] at he he'
    rcases he with rfl | rfl <;> rcases he' with rfl | rfl <;> simp_all

/-- Nobody responds to an operation without a reply. -/
example (side : Side) (op : Op) (h : op.reply = none) : shouldRespond side op = false := by simp [shouldRespond, h]

/-! ### Operations given by reference -/

/-- What an entry stands for: itself, or the operation of the components it refers to. -/
def Entry.meaning (comps : GoMap Str Op) (e : Entry) : Option Op :=
  match e.ref with
  | none => some e.own
  | some r => comps.get r

/-- A side has an operation under a name. -/
def Ops.Has (o : Ops) (k : Str) (op : Op) : Prop := o.receive.get k = some op ∨ o.send.get k = some (.declared op)

theorem get_map_own (spec : List (Str × Entry)) (k : Str) :
    GoMap.get (spec.map (fun e => (e.1, e.2.own))) k = (GoMap.get spec k).map Entry.own := by
  induction spec with
  | nil => rfl
  | cons e spec ih =>
    obtain ⟨a, d⟩ := e
    rw [List.map_cons, GoMap.get_cons, GoMap.get_cons, ih]
    split <;> rfl

theorem wf_map_own {spec : List (Str × Entry)} (hw : GoMap.WF spec) : GoMap.WF (spec.map (fun e => (e.1, e.2.own))) := by
  unfold GoMap.WF GoMap.keys at *
  rw [List.map_map]
  exact hw

/-- Written in place, every operation is on both sides under its name. -/
theorem C53_v3_entries_partial (comps : GoMap Str Op) (spec : List (Str × Entry)) (hw : GoMap.WF spec)
    (hc : NoClash (spec.map (fun e => (e.1, e.2.own)))) (k : Str) (e : Entry) (hk : GoMap.get spec k = some e)
    (hr : e.ref = none) (op : Op) (hm : e.meaning comps = some op) (ha : op.action ≠ .other) :
    (entryOperations .app spec).Has k op ∧ (entryOperations .user spec).Has k op := by
  unfold Entry.meaning at hm
  rw [hr] at hm
  cases hm
  have := C53_v3_both_sides_partial _ (wf_map_own hw) hc k e.own (by rw [get_map_own, hk]; rfl) ha
  rcases this with ⟨h1, h2⟩ | ⟨h1, h2⟩
  · exact ⟨Or.inl h1, Or.inr h2⟩
  · exact ⟨Or.inr h2, Or.inl h1⟩

/-- **C53 is violated by references**: in every document, an operation given by a reference alone, whatever it refers to,
is on neither side: under its name nothing is received or sent. -/
theorem C53_violated_reference (comps : GoMap Str Op) (spec : List (Str × Entry)) (hw : GoMap.WF spec)
    (hc : NoClash (spec.map (fun e => (e.1, e.2.own)))) (k : Str) (e : Entry) (hk : GoMap.get spec k = some e)
    (r : Str) (op : Op) (hr : e.ref = some r) (ht : comps.get r = some op) (ho : e.own.action = .other) :
    e.meaning comps = some op ∧ ∀ side, (entryOperations side spec).receive.get k = none ∧
      (entryOperations side spec).send.get k = none := by
  refine ⟨by unfold Entry.meaning; rw [hr]; exact ht, fun side => ?_⟩
  have hg : GoMap.get (spec.map (fun e => (e.1, e.2.own))) k = some e.own := by rw [get_map_own, hk]; rfl
  have hno : ∀ x ∈ spec.map (fun e => (e.1, e.2.own)), x.2.reply ≠ some k := by
    intro x hx hrep
    rw [hc x hx k hrep] at hg
    cases hg
  constructor
  · unfold entryOperations
    rw [C53_v3_receive side _ (wf_map_own hw) k, hg]
    cases side <;> simp [sel, isReceive, ho]
  · have := foldl_send side _ (wf_map_own hw) ([], []) k hno
    unfold entryOperations newActionOperations
    simp only
    rw [this, hg]
    cases side <;> simp [isSend, ho]

/-- A document with one operation, given by reference: no side has anything, and no subscriber is generated. -/
example :
    let comps : GoMap Str Op := [("ping".toList, ⟨0, .receive, none⟩)]
    let spec : List (Str × Entry) := [("ping".toList, ⟨⟨1, .other, none⟩, some "ping".toList⟩)]
    GoMap.WF spec ∧ (spec.map (fun e => e.2.meaning comps)) = [some ⟨0, .receive, none⟩] ∧
      entryOperations .app spec = ⟨0, 0, [], []⟩ ∧ entryOperations .user spec = ⟨0, 0, [], []⟩ := by
  refine ⟨by unfold GoMap.WF; decide, by decide, by decide, by decide⟩

end V3

end Verif.Sides
