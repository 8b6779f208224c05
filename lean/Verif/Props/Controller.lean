import Verif.Proofs.Controller

/-! # C14–C17: subscription management of a sequentially used controller -/

namespace Verif.Controller

/-- The state after a history of API calls on a new controller. -/
def after (plain : List String) (os : List Op) : St := (run plain init os).1

theorem after_inv (plain : List String) (os : List Op) :
    Inv (after plain os) (ASet.run plain ASet.empty os).1 := (inv_run plain os inv_init).2

/-- **C14.** After any history there is at most one live broker subscription per address. -/
theorem C14_at_most_one_live_per_address (plain : List String) (os : List Op) :
    (liveAddrs (after plain os)).Nodup := (after_inv plain os).represents.1

/-- **C14.** After any history, subscribing to a subscribed address fails with
ErrAlreadySubscribedChannel and changes nothing, neither in the controller nor at the broker. -/
theorem C14_second_subscribe_refused (plain : List String) (os : List Op) (a : String) (ok : Bool)
    (h : a ∈ liveAddrs (after plain os)) :
    step plain (after plain os) (.sub a ok) = (after plain os, some .alreadySubscribed) := by
  have hi := after_inv plain os
  have h1 := (hi.represents.2 a).mpr h
  rw [hi.set a] at h1
  obtain ⟨id, hid⟩ := Option.isSome_iff_exists.mp h1
  simp [step, subscribe, hid]

/-- **C14.** After unsubscribing, the address is free: subscribing succeeds when the broker accepts. -/
theorem C14_resubscribe_after_unsubscribe (plain : List String) (os : List Op) (a : String) :
    a ∉ liveAddrs (after plain (os ++ [.unsub a])) ∧
    (step plain (after plain (os ++ [.unsub a])) (.sub a true)).2 = none ∧
    a ∈ liveAddrs (after plain (os ++ [.unsub a, .sub a true])) := by
  have run_append : ∀ (os os' : List Op) (s : St),
      (run plain s (os ++ os')).1 = (run plain (run plain s os).1 os').1 := by
    intro os
    induction os with
    | nil => intro os' s; rfl
    | cons o os ih => intro os' s; simp only [List.cons_append, run, ih]
  have hi := after_inv plain os
  have hu := inv_unsubscribe hi a
  have heq : after plain (os ++ [.unsub a]) = unsubscribe (after plain os) a := by
    unfold after; rw [run_append]; rfl
  have heq2 : after plain (os ++ [.unsub a, .sub a true]) =
      (subscribe (unsubscribe (after plain os) a) a true).1 := by
    unfold after; rw [run_append]; rfl
  have hsub := inv_subscribe hu a true
  have hrem : (ASet.remove (ASet.run plain ASet.empty os).1 a) a = false := by simp [ASet.remove]
  refine ⟨?_, ?_, ?_⟩
  · rw [heq]
    intro hm
    have := (hu.represents.2 a).mpr hm
    rw [hrem] at this; cases this
  · rw [heq]
    simp only [step]
    rw [hsub.1]
    simp [ASet.sub, hrem]
  · rw [heq2]
    refine (hsub.2.represents.2 a).mp ?_
    simp [ASet.sub, hrem, ASet.insert]

/-- **C15.** Refinement: for every history of calls and broker answers, every call returns what it
returns on a plain set of addresses, and the live broker subscriptions are exactly one per member of
that set. -/
theorem C15_refines_a_set (plain : List String) (os : List Op) :
    (run plain init os).2 = (ASet.run plain ASet.empty os).2 ∧
    Represents (after plain os) (ASet.run plain ASet.empty os).1 := by
  have h := inv_run plain os inv_init
  exact ⟨h.1, h.2.represents⟩

/-- **C15.** Unsubscribing a member cancels exactly the broker subscription of that address; the other
live subscriptions are untouched. Unsubscribing a non-member does nothing. -/
theorem C15_unsubscribe_cancels_exactly_that_one (plain : List String) (os : List Op) (a : String) :
    (a ∉ liveAddrs (after plain os) → unsubscribe (after plain os) a = after plain os) ∧
    (a ∈ liveAddrs (after plain os) → ∃ id, (id, a) ∈ (after plain os).live ∧
      (unsubscribe (after plain os) a).cancelled = (after plain os).cancelled ++ [id] ∧
      ∀ e, e ∈ (unsubscribe (after plain os) a).live ↔ e ∈ (after plain os).live ∧ e ≠ (id, a)) := by
  have hi := after_inv plain os
  have hmem : a ∈ liveAddrs (after plain os) ↔ ((after plain os).subs.get a).isSome = true := by
    rw [← hi.set a]; exact (hi.represents.2 a).symm
  constructor
  · intro h
    rw [hmem] at h
    have : (after plain os).subs.get a = none := by simpa using h
    simp [unsubscribe, this]
  · intro h
    obtain ⟨id, hid⟩ := Option.isSome_iff_exists.mp (hmem.mp h)
    have hl := (hi.live id a).mpr hid
    refine ⟨id, hl, ?_, ?_⟩
    · simp [unsubscribe, hid, brokerCancel]
    · rintro ⟨i, b⟩
      simp only [unsubscribe, hid, brokerCancel, List.mem_filter, Bool.not_eq_true',
        decide_eq_false_iff_not, ne_eq, Prod.mk.injEq, not_and]
      constructor
      · rintro ⟨h1, h2⟩; exact ⟨h1, fun h3 => absurd h3 h2⟩
      · rintro ⟨h1, h2⟩
        refine ⟨h1, fun h3 => ?_⟩
        subst h3
        exact h2 rfl (hi.inj _ _ _ h1 hl)

/-- A history with a refused double subscription, a failed one, and an unsubscription. -/
example : (run ["a", "b"] init
    [.sub "x.1" true, .sub "x.1" true, .sub "a" false, .subAll false (fun _ => true), .unsub "x.1",
     .unsub "zzz", .sub "x.1" true]).2
    = [none, some .alreadySubscribed, some .broker, none, none, none, none] ∧
  liveAddrs (after ["a", "b"]
    [.sub "x.1" true, .sub "x.1" true, .sub "a" false, .subAll false (fun _ => true), .unsub "x.1",
     .unsub "zzz", .sub "x.1" true]) = ["a", "b", "x.1"] := by decide

/-- Set part of C16. -/
theorem subMany_ok : ∀ (l : List (String × Bool)) (S : ASet), (S.subMany l).2 = none →
    (∀ e ∈ l, (S.subMany l).1 e.1 = true) ∧ ∀ b, S b = true → (S.subMany l).1 b = true := by
  intro l
  induction l with
  | nil => intro S _; simp [ASet.subMany]
  | cons e rest ih =>
    obtain ⟨a, ok⟩ := e
    intro S h
    unfold ASet.subMany at h ⊢
    unfold ASet.sub at h ⊢
    by_cases hS : S a = true
    · simp [hS] at h
    · cases ok with
      | false => simp [hS] at h
      | true =>
        simp only [hS, if_true] at h ⊢
        obtain ⟨h1, h2⟩ := ih (S.insert a) h
        refine ⟨?_, ?_⟩
        · intro e he
          simp only [List.mem_cons] at he
          rcases he with rfl | he
          · exact h2 _ (by simp [ASet.insert])
          · exact h1 e he
        · intro b hb
          exact h2 b (by simp [ASet.insert, hb])

/-- **C16 (partial: the success half).** After any history, if `SubscribeToAllChannels` returns nil then
every receive channel without parameter is subscribed. Missing: on failure nothing should be left
behind, which is false (below). -/
theorem C16_success_means_all_subscribed_partial (plain : List String) (os : List Op)
    (answers : Nat → Bool) (h : (step plain (after plain os) (.subAll false answers)).2 = none)
    (a : String) (ha : a ∈ plain) :
    a ∈ liveAddrs (step plain (after plain os) (.subAll false answers)).1 := by
  have hi := inv_step plain (after_inv plain os) (.subAll false answers)
  refine (hi.2.represents.2 a).mp ?_
  rw [hi.1] at h
  simp only [ASet.step] at h ⊢
  have := (subMany_ok _ _ h).1
  obtain ⟨i, hi, rfl⟩ := List.mem_iff_getElem.mp ha
  refine this (plain[i], answers i) ?_
  rw [List.mem_iff_getElem]
  refine ⟨i, by simp [hi], by simp⟩

/-- The hypothesis of the previous theorem is met whenever the broker accepts everything and the
addresses are distinct and free. -/
theorem C16_succeeds_when_broker_accepts (plain : List String) (hd : plain.Nodup) :
    (step plain init (.subAll false (fun _ => true))).2 = none := by
  have hi := inv_step plain inv_init (.subAll false (fun _ => true))
  rw [hi.1]
  simp only [ASet.step]
  have key : ∀ (l : List String) (S : ASet), l.Nodup → (∀ a ∈ l, S a = false) →
      (S.subMany (l.map (·, true))).2 = none := by
    intro l
    induction l with
    | nil => intro S _ _; rfl
    | cons a rest ih =>
      intro S hn hf
      rw [List.nodup_cons] at hn
      simp only [List.map_cons, ASet.subMany, ASet.sub, hf a List.mem_cons_self, Bool.false_eq_true,
        if_false, if_true]
      apply ih _ hn.2
      intro b hb
      have : b ≠ a := by rintro rfl; exact hn.1 hb
      simp [ASet.insert, this, hf b (List.mem_cons_of_mem _ hb)]
  have hz : ∀ l : List String, l.zip ((List.range l.length).map (fun _ => true)) = l.map (·, true) := by
    intro l
    apply List.ext_getElem
    · simp
    · intro i h1 h2; simp
  rw [hz]
  exact key plain ASet.empty hd (fun _ _ => rfl)

/-- **C16 is violated**: the broker refuses the second channel; the call fails and the first channel
stays subscribed. -/
theorem C16_violated :
    (step ["a", "b"] init (.subAll false (fun i => i == 0))).2 = some .broker ∧
    liveAddrs (step ["a", "b"] init (.subAll false (fun i => i == 0))).1 = ["a"] := by decide

/-- Finding: two receive operations on one address make `SubscribeToAllChannels` fail whatever the
broker does. -/
theorem C16_two_operations_on_one_address_fail (a : String) (answers : Nat → Bool) :
    (step [a, a] init (.subAll false answers)).2 ≠ none := by
  simp only [step, Bool.false_eq_true, if_false, List.length_cons, List.length_nil, Nat.zero_add]
  rw [show List.range (1 + 1) = [0, 1] from rfl]
  simp only [List.map_cons, List.map_nil, List.zip_cons_cons, List.zip_nil_left, subscribeAll,
    subscribe, init, GoMap.get_nil]
  cases answers 0 with
  | false => simp
  | true => simp [brokerSubscribe]

/-- A call that only concerns channels without parameter. -/
def Op.plainOnly (plain : List String) : Op → Prop
  | .sub a _ => a ∈ plain
  | _ => True

/-- **C17 (partial: only channels without parameter were subscribed).** After any such history, `Close`
leaves no live broker subscription. Missing: subscriptions of channels with parameters, which `Close`
does not release (below). -/
theorem C17_close_releases_all_partial (plain : List String) (os : List Op)
    (h : ∀ o ∈ os, o.plainOnly plain) : (step plain (after plain os) .close).1.live = [] := by
  have hset : ∀ (os : List Op) (S : ASet), (∀ o ∈ os, Op.plainOnly plain o) →
      (∀ a, S a = true → a ∈ plain) → ∀ a, (ASet.run plain S os).1 a = true → a ∈ plain := by
    intro os
    induction os with
    | nil => intro S _ hS; exact hS
    | cons o os ih =>
      intro S ho hS
      simp only [ASet.run]
      refine ih _ (fun o ho' => ho o (List.mem_cons_of_mem _ ho')) ?_
      have ho1 := ho o List.mem_cons_self
      cases o with
      | sub a ok =>
        intro b
        simp only [ASet.step, ASet.sub]
        split
        · exact hS b
        · split
          · simp only [ASet.insert]
            split
            · rename_i hb; intro _; rw [hb]; exact ho1
            · exact hS b
          · exact hS b
      | unsub a =>
        intro b
        simp only [ASet.step, ASet.remove]
        split
        · intro hc; cases hc
        · exact hS b
      | subAll n ans =>
        have hmany : ∀ (l : List (String × Bool)) (S : ASet), (∀ e ∈ l, e.1 ∈ plain) →
            (∀ a, S a = true → a ∈ plain) → ∀ a, (S.subMany l).1 a = true → a ∈ plain := by
          intro l
          induction l with
          | nil => intro S _ hS; exact hS
          | cons e rest ihl =>
            obtain ⟨x, ok⟩ := e
            intro S hl hS
            unfold ASet.subMany ASet.sub
            by_cases hx : S x = true
            · simp only [hx, if_true]; exact hS
            · cases ok with
              | false => simp only [hx, Bool.false_eq_true, if_false]; exact hS
              | true =>
                simp only [hx, if_true]
                refine ihl _ (fun e he => hl e (List.mem_cons_of_mem _ he)) ?_
                intro b
                simp only [ASet.insert]
                split
                · rename_i hb; intro _; rw [hb]; exact hl (x, true) List.mem_cons_self
                · exact hS b
        simp only [ASet.step]
        split
        · exact hS
        · refine hmany _ S ?_ hS
          intro e he
          exact (List.of_mem_zip he).1
      | unsubAll =>
        intro b
        simp only [ASet.step, ASet.removeMany]
        split
        · intro hc; cases hc
        · exact hS b
      | close =>
        intro b
        simp only [ASet.step, ASet.removeMany]
        split
        · intro hc; cases hc
        · exact hS b
  have hi := inv_step plain (after_inv plain os) .close
  have hr := hi.2.represents
  have hempty : ∀ a, (ASet.step plain (ASet.run plain ASet.empty os).1 .close).1 a = false := by
    intro a
    simp only [ASet.step, ASet.removeMany]
    split
    · rfl
    · rename_i hn
      cases hc : (ASet.run plain ASet.empty os).1 a with
      | false => rfl
      | true => exact absurd (hset os ASet.empty h (by simp [ASet.empty]) a hc) hn
  match hl : (step plain (after plain os) .close).1.live with
  | [] => rfl
  | (i, a) :: t =>
    have : a ∈ liveAddrs (step plain (after plain os) .close).1 := by
      unfold liveAddrs; rw [hl]; simp
    have := (hr.2 a).mpr this
    rw [hempty a] at this; cases this

example : ∀ o ∈ [Op.subAll false (fun i => i == 0), .sub "b" true, .unsub "q"],
    o.plainOnly ["a", "b"] := by simp [Op.plainOnly]

/-- **C17 is violated**: a subscribed channel with parameters stays live after `Close`, and its
subscription is never cancelled by further `Close` calls. -/
theorem C17_violated (addr : String) (plain : List String) (h : addr ∉ plain) (n : Nat) :
    addr ∈ liveAddrs (after plain (.sub addr true :: List.replicate n .close)) := by
  have hi := after_inv plain (.sub addr true :: List.replicate n .close)
  refine (hi.represents.2 addr).mp ?_
  have key : ∀ (n : Nat) (S : ASet), S addr = true →
      (ASet.run plain S (List.replicate n .close)).1 addr = true := by
    intro n
    induction n with
    | zero => intro S hS; exact hS
    | succ n ih =>
      intro S hS
      simp only [List.replicate_succ, ASet.run, ASet.step]
      exact ih _ (by simp [ASet.removeMany, h, hS])
  simp only [ASet.run, ASet.step, ASet.sub, ASet.empty, Bool.false_eq_true, if_false, if_true]
  exact key n _ (by simp [ASet.insert])

end Verif.Controller
