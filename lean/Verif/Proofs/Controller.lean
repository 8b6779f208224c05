import Verif.Spec.Controller

namespace Verif.Controller

/-- Invariant tying the map to the broker side. -/
structure Inv (s : St) (S : ASet) : Prop where
  wf : s.subs.WF
  set : ∀ a, S a = (s.subs.get a).isSome
  live : ∀ id a, (id, a) ∈ s.live ↔ s.subs.get a = some id
  fresh : ∀ id a, (id, a) ∈ s.live → id < s.nextId
  nodup : s.live.Nodup
  inj : ∀ id a b, (id, a) ∈ s.live → (id, b) ∈ s.live → a = b

theorem inv_init : Inv init ASet.empty := by
  refine ⟨GoMap.wf_nil, ?_, ?_, ?_, ?_, ?_⟩ <;> simp [init, ASet.empty]

theorem inv_subscribe {s : St} {S : ASet} (h : Inv s S) (a : String) (ok : Bool) :
    (subscribe s a ok).2 = (S.sub a ok).2 ∧ Inv (subscribe s a ok).1 (S.sub a ok).1 := by
  unfold subscribe ASet.sub
  have hs := h.set a
  cases hg : s.subs.get a with
  | some id => simp only [hs, hg, Option.isSome_some, if_true]; exact ⟨trivial, h⟩
  | none =>
    simp only [hs, hg, Option.isSome_none, Bool.false_eq_true, if_false]
    cases ok with
    | false => simp only [Bool.false_eq_true, if_false]; exact ⟨trivial, h⟩
    | true =>
      simp only [if_true, brokerSubscribe]
      refine ⟨trivial, GoMap.wf_put h.wf _ _, ?_, ?_, ?_, ?_, ?_⟩
      · intro b
        simp only [ASet.insert, GoMap.get_put]
        by_cases hb : b = a
        · subst hb; simp
        · have : ¬ a = b := fun h => hb h.symm
          simp [hb, this, h.set b]
      · intro id b
        simp only [List.mem_append, List.mem_singleton, Prod.mk.injEq, GoMap.get_put, h.live]
        by_cases hb : a = b
        · subst hb
          simp only [hg, if_true, Option.some.injEq]
          constructor
          · rintro (h1 | h1)
            · cases h1
            · exact h1.1.symm
          · rintro rfl; exact Or.inr ⟨rfl, trivial⟩
        · simp only [hb, if_false]
          constructor
          · rintro (h1 | h1)
            · exact h1
            · exact absurd h1.2.symm hb
          · intro h1; exact Or.inl h1
      · intro id b hb
        simp only [List.mem_append, List.mem_singleton, Prod.mk.injEq] at hb
        rcases hb with hb | hb
        · have := h.fresh id b hb; simp only; omega
        · simp only; omega
      · simp only
        rw [List.nodup_append]
        refine ⟨h.nodup, by simp, ?_⟩
        intro x hx y hy
        simp only [List.mem_singleton] at hy
        subst hy
        rintro rfl
        have := h.fresh _ _ hx
        omega
      · intro id b c hb hc
        simp only [List.mem_append, List.mem_singleton, Prod.mk.injEq] at hb hc
        rcases hb with hb | hb <;> rcases hc with hc | hc
        · exact h.inj id b c hb hc
        · have := h.fresh _ _ hb; omega
        · have := h.fresh _ _ hc; omega
        · rw [hb.2, hc.2]

theorem inv_congr {s : St} {S T : ASet} (h : Inv s S) (he : ∀ a, S a = T a) : Inv s T := by
  have : S = T := funext he
  exact this ▸ h

theorem inv_unsubscribe {s : St} {S : ASet} (h : Inv s S) (a : String) :
    Inv (unsubscribe s a) (S.remove a) := by
  unfold unsubscribe
  cases hg : s.subs.get a with
  | none =>
    refine inv_congr h (fun b => ?_)
    simp only [ASet.remove]
    by_cases hb : b = a
    · subst hb; simp [h.set, hg]
    · simp [hb]
  | some id =>
    simp only [brokerCancel]
    have hmem : (id, a) ∈ s.live := (h.live id a).mpr hg
    refine ⟨GoMap.wf_del h.wf _, ?_, ?_, ?_, ?_, ?_⟩
    · intro b
      simp only [ASet.remove, GoMap.get_del]
      by_cases hb : b = a
      · subst hb; simp
      · have : ¬ a = b := fun h => hb h.symm
        simp [hb, this, h.set]
    · intro id' b
      simp only [List.mem_filter, h.live, GoMap.get_del, Bool.not_eq_true', decide_eq_false_iff_not]
      by_cases hb : a = b
      · subst hb
        simp only [hg, Option.some.injEq, if_true]
        constructor
        · rintro ⟨h1, h2⟩; exact absurd h1.symm h2
        · intro h1; cases h1
      · simp only [hb, if_false]
        constructor
        · exact fun h1 => h1.1
        · intro h1
          refine ⟨h1, ?_⟩
          rintro rfl
          exact hb (h.inj _ _ _ hmem ((h.live _ _).mpr h1))
    · intro id' b hb
      simp only [List.mem_filter] at hb
      exact h.fresh id' b hb.1
    · exact h.nodup.sublist List.filter_sublist
    · intro id' b c hb hc
      simp only [List.mem_filter] at hb hc
      exact h.inj id' b c hb.1 hc.1

theorem inv_subscribeAll : ∀ (l : List (String × Bool)) {s : St} {S : ASet}, Inv s S →
    (subscribeAll s l).2 = (S.subMany l).2 ∧ Inv (subscribeAll s l).1 (S.subMany l).1 := by
  intro l
  induction l with
  | nil => intro s S h; exact ⟨rfl, h⟩
  | cons e rest ih =>
    intro s S h
    obtain ⟨a, ok⟩ := e
    have h1 := inv_subscribe h a ok
    unfold subscribeAll ASet.subMany
    generalize subscribe s a ok = o at h1
    generalize S.sub a ok = q at h1
    obtain ⟨s1, r⟩ := o
    obtain ⟨S1, r'⟩ := q
    simp only at h1
    obtain ⟨rfl, hi⟩ := h1
    cases r with
    | none => exact ih hi
    | some e => exact ⟨rfl, hi⟩

theorem inv_unsubscribeAll : ∀ (l : List String) {s : St} {S : ASet}, Inv s S →
    Inv (unsubscribeAll s l) (S.removeMany l) := by
  intro l
  induction l with
  | nil =>
    intro s S h
    exact inv_congr h (fun a => by simp [ASet.removeMany])
  | cons a rest ih =>
    intro s S h
    have := ih (inv_unsubscribe h a)
    refine inv_congr this (fun b => ?_)
    simp only [ASet.removeMany, ASet.remove, List.mem_cons]
    by_cases h1 : b ∈ rest
    · simp [h1]
    · by_cases h2 : b = a <;> simp [h1, h2]

theorem inv_step (plain : List String) {s : St} {S : ASet} (h : Inv s S) (o : Op) :
    (step plain s o).2 = (ASet.step plain S o).2 ∧ Inv (step plain s o).1 (ASet.step plain S o).1 := by
  cases o with
  | sub a ok => exact inv_subscribe h a ok
  | unsub a => exact ⟨rfl, inv_unsubscribe h a⟩
  | subAll n ans =>
    simp only [step, ASet.step]
    cases n with
    | true => exact ⟨rfl, h⟩
    | false => exact inv_subscribeAll _ h
  | unsubAll => exact ⟨rfl, inv_unsubscribeAll _ h⟩
  | close => exact ⟨rfl, inv_unsubscribeAll _ h⟩

theorem inv_run (plain : List String) : ∀ (os : List Op) {s : St} {S : ASet}, Inv s S →
    (run plain s os).2 = (ASet.run plain S os).2 ∧ Inv (run plain s os).1 (ASet.run plain S os).1 := by
  intro os
  induction os with
  | nil => intro s S h; exact ⟨rfl, h⟩
  | cons o os ih =>
    intro s S h
    have h1 := inv_step plain h o
    have h2 := ih h1.2
    simp only [run, ASet.run]
    exact ⟨by rw [h1.1, h2.1], h2.2⟩

theorem Inv.represents {s : St} {S : ASet} (h : Inv s S) : Represents s S := by
  refine ⟨?_, ?_⟩
  · unfold liveAddrs
    rw [List.nodup_iff_pairwise_ne, List.pairwise_map]
    refine List.Pairwise.imp_of_mem (fun {x y} hx hy hne hxy => ?_) h.nodup
    apply hne
    have h1 := (h.live x.1 x.2).mp hx
    have h2 := (h.live y.1 y.2).mp hy
    rw [hxy, h2] at h1
    have : y.1 = x.1 := by simpa using h1
    exact Prod.ext this.symm hxy
  · intro a
    rw [h.set a]
    unfold liveAddrs
    rw [List.mem_map]
    constructor
    · intro hs
      obtain ⟨id, hid⟩ := Option.isSome_iff_exists.mp hs
      exact ⟨(id, a), (h.live id a).mpr hid, rfl⟩
    · rintro ⟨⟨id, b⟩, hm, rfl⟩
      rw [(h.live id b).mp hm]; rfl

end Verif.Controller
