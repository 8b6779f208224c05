import Verif.Model.KafkaConns

/-!
# C129: the connections a Kafka controller dials are closed

Subscribing and publishing close what they dial, however they end. Making a controller does not when the brokers cannot be
listed: such attempts leave one connection each.
-/

namespace Verif.KafkaConns

/-- The call leaves its connection: a controller with a connection test that dials but cannot list the brokers. -/
def Leaves : Call → Bool
  | .new true .noBrokers => true
  | _ => false

/-- Numbers of open connections are below the next one. -/
def Sane (n : Net) : Prop := ∀ c ∈ n.opened, c < n.next

theorem dial_close (n : Net) (h : Sane n) : (n.dial.2.close n.dial.1).opened = n.opened := by
  simp only [Net.dial, Net.close, List.filter_cons, ne_eq, not_true_eq_false, decide_false, Bool.false_eq_true, if_false]
  exact List.filter_eq_self.2 fun c hc => decide_eq_true (Nat.ne_of_lt (h c hc))

theorem sane_dial {n : Net} (h : Sane n) : Sane n.dial.2 := by
  intro c hc
  rcases List.mem_cons.1 hc with rfl | hc
  · exact Nat.lt_succ_self _
  · exact Nat.lt_succ_of_lt (h c hc)

theorem sane_close {n : Net} (h : Sane n) (c : Nat) : Sane (n.close c) := fun d hd => h d (List.mem_filter.1 hd).1

theorem checkTopic_done (dials : Bool) (rs : List Round) (n : Net) (h : Sane n) :
    Sane (checkTopic dials rs n).2 ∧ ((checkTopic dials rs n).1 ≠ none → (checkTopic dials rs n).2.opened = n.opened) := by
  unfold checkTopic
  cases dials with
  | false => exact ⟨h, fun _ => rfl⟩
  | true =>
    simp only [if_true]
    cases rounds rs with
    | none => exact ⟨sane_dial h, fun e => absurd rfl e⟩
    | some ok => exact ⟨sane_close (sane_dial h) _, fun _ => dial_close n h⟩

theorem publish_done (ws : List Write) (n : Net) (h : Sane n) :
    Sane (publish n ws).2 ∧ ((publish n ws).1 ≠ none → (publish n ws).2.opened = n.opened) := by
  induction ws generalizing n with
  | nil => exact ⟨h, fun _ => rfl⟩
  | cons w ws ih =>
    cases w with
    | written => exact ⟨h, fun _ => rfl⟩
    | error => exact ⟨h, fun _ => rfl⟩
    | noTopic dials rs =>
      obtain ⟨hs, ho⟩ := checkTopic_done dials rs n h
      rw [publish]
      cases hp : checkTopic dials rs n with
      | mk r n' =>
        rw [hp] at hs ho
        cases r with
        | none => exact ⟨hs, fun e => absurd rfl e⟩
        | some b =>
          cases b with
          | false => exact ⟨hs, fun _ => ho (by simp)⟩
          | true =>
            obtain ⟨h1, h2⟩ := ih n' hs
            exact ⟨h1, fun e => (h2 e).trans (ho (by simp))⟩

/-- Subscribing and publishing leave the open connections as they were, whether they succeed or fail, after any number of
rounds and attempts. -/
theorem C129_returned (n : Net) (h : Sane n) (c : Call) (hl : Leaves c = false) (hr : (call n c).1 ≠ none) :
    (call n c).2.opened = n.opened := by
  cases c with
  | new test t =>
    cases test with
    | false => rfl
    | true =>
      cases t with
      | noDial => rfl
      | noBrokers => cases hl
      | fine => exact dial_close n h
  | subscribe dials rs => exact (checkTopic_done dials rs n h).2 hr
  | publish ws => exact (publish_done ws n h).2 hr

example : call ⟨[3], 7⟩ (.publish [.noTopic true [.notYet, .there], .noTopic true [.readError]]) = (some false, ⟨[3], 9⟩) := by
  decide

theorem call_sane (n : Net) (h : Sane n) (c : Call) : Sane (call n c).2 := by
  cases c with
  | new test t =>
    cases test with
    | false => exact h
    | true =>
      cases t with
      | noDial => exact h
      | noBrokers => exact sane_dial h
      | fine => exact sane_close (sane_dial h) _
  | subscribe dials rs => exact (checkTopic_done dials rs n h).1
  | publish ws => exact (publish_done ws n h).1

/-- All calls have returned. -/
def Returned (n : Net) : List Call → Prop
  | [] => True
  | c :: cs => (call n c).1 ≠ none ∧ Returned (call n c).2 cs

theorem calls_count (n : Net) (h : Sane n) (cs : List Call) (hr : Returned n cs) :
    (calls n cs).opened.length = n.opened.length + cs.countP Leaves := by
  induction cs generalizing n with
  | nil => rfl
  | cons c cs ih =>
    obtain ⟨h1, h2⟩ := hr
    have hs := call_sane n h c
    have hc : (call n c).2.opened.length = n.opened.length + (if Leaves c = true then 1 else 0) := by
      cases hl : Leaves c with
      | false => rw [C129_returned n h c hl h1]; rfl
      | true =>
        cases c with
        | new test t =>
          cases test <;> cases t <;> first | (exact absurd hl (by decide)) | rfl
        | subscribe _ _ => cases hl
        | publish _ => cases hl
    rw [calls]
    cases hp : call n c with
    | mk r n' =>
      rw [hp] at h1 h2 hs hc
      cases r with
      | none => exact absurd rfl h1
      | some b =>
        rw [List.countP_cons]
        have := ih n' hs h2
        simp only at this hc ⊢
        omega

/-- Partial: after any calls that have returned, nothing is open, unless making a controller could dial but not list the
brokers. -/
theorem C129_closed_partial (cs : List Call) (hr : Returned {} cs) :
    (calls {} cs).opened = [] ↔ ∀ c ∈ cs, Leaves c = false := by
  rw [← List.length_eq_zero_iff, calls_count {} (fun _ h => by cases h) cs hr]
  simp only [List.length_nil, Nat.zero_add, List.countP_eq_zero, Bool.not_eq_true]

example : Returned {} [.new true .fine, .subscribe true [.notYet, .there], .publish [.noTopic true [.there], .written]] ∧
    (calls {} [.new true .fine, .subscribe true [.notYet, .there], .publish [.noTopic true [.there], .written]]).opened = [] := by
  refine ⟨⟨by decide, by decide, by decide, trivial⟩, by decide⟩

/-- Violated: each attempt to make a controller while the brokers cannot be listed leaves a connection, though it fails and
gives nothing to close it with. -/
theorem C129_violated (k : Nat) :
    (calls {} (List.replicate k (.new true .noBrokers))).opened.length = k ∧
    ∀ n, (newController true .noBrokers n).1 = false := by
  refine ⟨?_, fun _ => rfl⟩
  rw [calls_count {} (fun _ h => by cases h)]
  · simp [List.countP_replicate, Leaves]
  · generalize ({} : Net) = n
    induction k generalizing n with
    | zero => trivial
    | succ k ih => exact ⟨by simp [call], ih _⟩

/-- The topic is found: it is dialled for, and there after some rounds without error. -/
def Found (dials : Bool) (rs : List Round) : Prop := dials = true ∧ ∃ k rest, rs = List.replicate k .notYet ++ .there :: rest

theorem rounds_true (rs : List Round) : rounds rs = some true ↔ ∃ k rest, rs = List.replicate k .notYet ++ .there :: rest := by
  induction rs with
  | nil =>
    refine ⟨(fun h => by cases h), ?_⟩
    rintro ⟨k, rest, h⟩
    cases k <;> simp [List.replicate] at h
  | cons r rs ih =>
    have key : ∀ x : Round, x ≠ .notYet → ((∃ k rest, x :: rs = List.replicate k .notYet ++ .there :: rest) ↔ x = .there) := by
      intro x hx
      constructor
      · rintro ⟨k, rest, h⟩
        cases k with
        | zero => simp at h; exact h.1
        | succ k => simp [List.replicate] at h; exact absurd h.1 hx
      · rintro rfl
        exact ⟨0, rs, rfl⟩
    cases r with
    | createError => rw [key _ (by decide)]; simp [rounds]
    | readError => rw [key _ (by decide)]; simp [rounds]
    | there => rw [key _ (by decide)]; simp [rounds]
    | notYet =>
      rw [rounds, ih]
      constructor
      · rintro ⟨k, rest, h⟩
        exact ⟨k + 1, rest, by rw [h]; rfl⟩
      · rintro ⟨k, rest, h⟩
        cases k with
        | zero => simp at h
        | succ k => simp [List.replicate] at h; exact ⟨k, rest, h⟩

theorem checkTopic_true (dials : Bool) (rs : List Round) (n : Net) : (checkTopic dials rs n).1 = some true ↔ Found dials rs := by
  unfold checkTopic Found
  rw [← rounds_true]
  cases dials with
  | false => simp
  | true => cases h : rounds rs <;> simp

/-- **C129 (answers).** Publishing succeeds exactly when a write succeeds after writes that only lacked the topic, which was
found each time; whatever is open. -/
theorem C129_published (n : Net) (ws : List Write) :
    (call n (.publish ws)).1 = some true ↔
      ∃ before after, ws = before ++ .written :: after ∧ ∀ w ∈ before, ∃ dials rs, w = .noTopic dials rs ∧ Found dials rs := by
  show (publish n ws).1 = some true ↔ _
  induction ws generalizing n with
  | nil =>
    refine ⟨(fun h => by cases h), ?_⟩
    rintro ⟨b, a, h, _⟩
    cases b <;> simp at h
  | cons w ws ih =>
    cases w with
    | written => exact ⟨fun _ => ⟨[], ws, rfl, fun _ h => by cases h⟩, fun _ => rfl⟩
    | error =>
      refine ⟨fun h => by simp [publish] at h, ?_⟩
      rintro ⟨b, a, h, hb⟩
      cases b with
      | nil => simp at h
      | cons x b =>
        simp only [List.cons_append, List.cons.injEq] at h
        obtain ⟨d, r, e, _⟩ := hb x (by simp)
        rw [← h.1] at e
        cases e
    | noTopic dials rs =>
      have hn := checkTopic_true dials rs n
      have key : (publish n (.noTopic dials rs :: ws)).1 = some true ↔
          Found dials rs ∧ (publish (checkTopic dials rs n).2 ws).1 = some true := by
        rw [← hn, publish]
        rcases hc : checkTopic dials rs n with ⟨_ | _ | _, n'⟩ <;> simp
      rw [key, ih]
      constructor
      · rintro ⟨hf, b, a, e, hb⟩
        refine ⟨.noTopic dials rs :: b, a, by rw [e]; rfl, fun w hw => ?_⟩
        rcases List.mem_cons.1 hw with rfl | hw
        · exact ⟨dials, rs, rfl, hf⟩
        · exact hb w hw
      · rintro ⟨b, a, e, hb⟩
        cases b with
        | nil => simp at e
        | cons x b =>
          simp only [List.cons_append, List.cons.injEq] at e
          obtain ⟨d, r, hx, hf⟩ := hb x (by simp)
          rw [← e.1] at hx
          cases hx
          exact ⟨hf, b, a, e.2, fun w hw => hb w (by simp [hw])⟩

/-- **C129 (answers).** Subscribing succeeds exactly when the topic is found. -/
theorem C129_subscribed (n : Net) (dials : Bool) (rs : List Round) :
    (call n (.subscribe dials rs)).1 = some true ↔ Found dials rs := checkTopic_true dials rs n

example : (call {} (.publish [.noTopic true [.notYet, .there], .written])).1 = some true ∧
    (call {} (.publish [.noTopic true [.notYet, .createError], .written])).1 = some false := by decide

end Verif.KafkaConns
