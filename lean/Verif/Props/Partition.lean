import Verif.Model.Partition

/-!
# C128: messages published over Kafka reach the subscriptions of the channel

Without an attempt the server refused, each message is written to partition 0, so that readers of partition 0 receive all of
them in order. Readers of another partition and the other members of a group receive nothing, and a refused attempt moves a
message to partition 1.
-/

namespace Verif.Partition

/-- The publication succeeds, and no attempt before was refused. -/
def Plain : List Answer → Prop
  | [] => False
  | a :: as => a = .written ∨ (a = .noTopic ∧ Plain as)

/-- A new subscription receives the message `m` from one of its partitions. -/
def Receives (r : Reader) (t : Topic) (m : Msg) : Prop := ∃ s ∈ reads r t, m ∈ s

/-- `n` partitions without messages. -/
def empty (n : Nat) : Topic := List.replicate n []

theorem least_zero (b i n : Nat) : least b 0 i (List.replicate n 0) = b := by
  induction n generalizing i with
  | zero => rfl
  | succ n ih => simp only [List.replicate_succ, least, Nat.lt_irrefl, if_false]; exact ih _

theorem least_spec (best bytes i : Nat) (cs all : List Nat) (hd : all.drop i = cs) (hb : best < i) (hl : i ≤ all.length)
    (hbest : all[best]? = some bytes) (hmin : ∀ j c, j < i → all[j]? = some c → bytes ≤ c ∧ (j < best → bytes < c)) :
    ∃ b, all[least best bytes i cs]? = some b ∧
      ∀ j c, all[j]? = some c → b ≤ c ∧ (j < least best bytes i cs → b < c) := by
  induction cs generalizing best bytes i with
  | nil =>
    refine ⟨bytes, hbest, fun j c hc => hmin j c ?_ hc⟩
    have h1 : all.length ≤ i := List.drop_eq_nil_iff.mp hd
    have h2 := (List.getElem?_eq_some_iff.mp hc).1
    omega
  | cons c cs ih =>
    have hi : all[i]? = some c := by
      have := congrArg (·[0]?) hd
      simpa using this
    have hlt := (List.getElem?_eq_some_iff.mp hi).1
    have hd' : all.drop (i + 1) = cs := by
      have := congrArg (List.drop 1) hd
      simpa [List.drop_drop, Nat.add_comm] using this
    rw [least]
    by_cases h : c < bytes
    · rw [if_pos h]
      refine ih i c (i + 1) hd' (by omega) (by omega) hi fun j d hj hjd => ?_
      by_cases hji : j = i
      · subst hji; rw [hi] at hjd; cases hjd; omega
      · have := hmin j d (by omega) hjd; omega
    · rw [if_neg h]
      refine ih best bytes (i + 1) hd' (by omega) (by omega) hbest fun j d hj hjd => ?_
      by_cases hji : j = i
      · subst hji; rw [hi] at hjd; cases hjd; omega
      · exact hmin j d (by omega) hjd

/-- The balancer gives the next message to the first of the partitions with the fewest bytes, and to none only without
partitions. -/
theorem C128_balance (cs : List Nat) :
    (balance cs = none ↔ cs = []) ∧ ∀ p, balance cs = some p →
      ∃ b, cs[p]? = some b ∧ ∀ j c, cs[j]? = some c → b ≤ c ∧ (j < p → b < c) := by
  cases cs with
  | nil => exact ⟨⟨fun _ => rfl, fun _ => rfl⟩, fun p h => by cases h⟩
  | cons c cs =>
    refine ⟨⟨(fun h => by cases h), (fun h => by cases h)⟩, fun p h => ?_⟩
    cases h
    refine least_spec 0 c 1 cs (c :: cs) rfl (by omega) (by simp) rfl fun j d hj hjd => ?_
    have : j = 0 := by omega
    subst this
    cases hjd
    omega

example : balance [5, 4, 3, 3] = some 2 := by decide

theorem attempts_plain (m : Msg) (n : Nat) (as : List Answer) (h : Plain as) :
    attempts m (List.replicate (n + 1) 0) as = some 0 := by
  induction as with
  | nil => exact h.elim
  | cons a as ih =>
    rcases h with rfl | ⟨rfl, h⟩
    · simp only [attempts, List.replicate_succ, balance, least_zero]
    · simpa only [attempts] using ih h

theorem publish_plain (p : List Msg) (ps : Topic) (m : Msg) (as : List Answer) (h : Plain as) :
    publish (p :: ps) m as = (p ++ [m]) :: ps := by
  unfold publish
  rw [List.length_cons, attempts_plain m ps.length as h]
  rfl

/-- Each message is written to the first partition, in order, and to no other, whatever the number of partitions. -/
theorem C128_first (p : List Msg) (ps : Topic) (hist : List (Msg × List Answer)) (h : ∀ x ∈ hist, Plain x.2) :
    publishAll (p :: ps) hist = (p ++ hist.map (·.1)) :: ps := by
  induction hist generalizing p with
  | nil => simp [publishAll]
  | cons x xs ih =>
    obtain ⟨m, as⟩ := x
    rw [publishAll, publish_plain p ps m as (h _ List.mem_cons_self), ih _ fun y hy => h y (List.mem_cons_of_mem _ hy)]
    simp

example : publishAll (empty 3) [([1], [.noTopic, .written]), ([2], [.written])] = [[[1], [2]], [], []] := by decide

/-- Partial: a reader of partition 0 receives exactly the messages, in the order of publishing. -/
theorem C128_single_partial (n : Nat) (hist : List (Msg × List Answer)) (h : ∀ x ∈ hist, Plain x.2) :
    reads (.single 0) (publishAll (empty (n + 1)) hist) = [hist.map (·.1)] := by
  rw [empty, List.replicate_succ, C128_first _ _ _ h]
  simp [reads]

example : reads (.single 0) (publishAll (empty 2) [([7], [.written]), ([8], [.written])]) = [[[7], [8]]] := by decide

theorem owned_all (owner : Nat → Nat) (self : Nat) (h : ∀ i, owner i = self) (i : Nat) (t : Topic) :
    owned owner self i t = t := by
  induction t generalizing i with
  | nil => rfl
  | cons p ps ih => rw [owned, if_pos (h i), ih]

/-- Partial: the only member of a group receives the messages in order, and nothing else. -/
theorem C128_alone_partial (owner : Nat → Nat) (self n : Nat) (ho : ∀ i, owner i = self) (hist : List (Msg × List Answer))
    (h : ∀ x ∈ hist, Plain x.2) :
    reads (.member owner self) (publishAll (empty (n + 1)) hist) = hist.map (·.1) :: empty n := by
  rw [empty, List.replicate_succ, C128_first _ _ _ h, reads, owned_all owner self ho]
  simp [empty]

example : reads (.member (fun _ => 4) 4) (publishAll (empty 2) [([7], [.written])]) = [[[7]], []] := by decide

theorem owned_empty (owner : Nat → Nat) (self i n : Nat) : ∀ s ∈ owned owner self i (empty n), s = [] := by
  induction n generalizing i with
  | zero => intro s hs; cases hs
  | succ n ih =>
    intro s hs
    rw [empty, List.replicate_succ, owned] at hs
    split at hs
    · rcases List.mem_cons.1 hs with rfl | hs
      · rfl
      · exact ih _ s hs
    · exact ih _ s hs

/-- The first answer that ends the publication is an error, or none ends it. -/
def Fails : List Answer → Prop
  | [] => True
  | a :: as => a = .failed ∨ (a ≠ .written ∧ Fails as)

/-- A publication that fails writes nothing, whatever the topic holds. -/
theorem C128_failed (t : Topic) (m : Msg) (as : List Answer) (h : Fails as) : publish t m as = t := by
  have key : ∀ cs, attempts m cs as = none := by
    induction as with
    | nil => intro cs; rfl
    | cons a as ih =>
      intro cs
      rcases h with rfl | ⟨hw, h⟩
      · rfl
      · cases a with
        | noTopic => exact ih h cs
        | refused =>
          rw [attempts]
          cases balance cs with
          | none => rfl
          | some p => exact ih h _
        | failed => rfl
        | written => exact absurd rfl hw
  unfold publish
  rw [key]

example : publish [[[1]], []] [2] [.noTopic, .refused, .failed, .written] = [[[1]], []] := by decide

/-- Partial: the member with partition 0 receives the messages in order, and nothing from its other partitions. -/
theorem C128_owner_partial (owner : Nat → Nat) (n : Nat) (hist : List (Msg × List Answer)) (h : ∀ x ∈ hist, Plain x.2) :
    ∃ rest, reads (.member owner (owner 0)) (publishAll (empty (n + 1)) hist) = hist.map (·.1) :: rest ∧ ∀ s ∈ rest, s = [] := by
  rw [empty, List.replicate_succ, C128_first _ _ _ h, reads, owned, if_pos rfl]
  exact ⟨_, rfl, owned_empty owner _ 1 n⟩

example : reads (.member (· % 2) 0) (publishAll (empty 3) [([7], [.written])]) = [[[7]], []] := by decide

/-- Violated for every other partition offered as an option: its reader receives none of the messages. -/
theorem C128_violated_partition (n q : Nat) (hq : q ≠ 0) (hist : List (Msg × List Answer)) (h : ∀ x ∈ hist, Plain x.2)
    (m : Msg) : ¬ Receives (.single q) (publishAll (empty (n + 1)) hist) m := by
  rw [empty, List.replicate_succ, C128_first _ _ _ h]
  rintro ⟨s, hs, hm⟩
  cases q with
  | zero => exact hq rfl
  | succ q =>
    simp only [reads, List.getElem?_cons_succ, Option.mem_toList, List.getElem?_replicate] at hs
    split at hs
    · cases hs; cases hm
    · cases hs

example : ¬ Receives (.single 1) (publishAll (empty 2) [([7], [.written])]) [7] :=
  C128_violated_partition 1 1 (by decide) _ (by intro x hx; cases List.mem_singleton.1 hx; exact .inl rfl) _

/-- Violated for sharing the work: a member of the group without partition 0 receives nothing. -/
theorem C128_violated_members (owner : Nat → Nat) (self n : Nat) (ho : owner 0 ≠ self) (hist : List (Msg × List Answer))
    (h : ∀ x ∈ hist, Plain x.2) (m : Msg) :
    ¬ Receives (.member owner self) (publishAll (empty (n + 1)) hist) m := by
  rw [empty, List.replicate_succ, C128_first _ _ _ h]
  rintro ⟨s, hs, hm⟩
  rw [reads, owned, if_neg ho] at hs
  rw [owned_empty owner self 1 n s hs] at hm
  cases hm

example : ¬ Receives (.member id 1) (publishAll (empty 2) [([7], [.written]), ([8], [.written])]) [8] :=
  C128_violated_members id 1 1 (by decide) _
    (by intro x hx; rcases List.mem_cons.1 hx with rfl | hx; exact .inl rfl; cases List.mem_singleton.1 hx; exact .inl rfl) _

/-- Violated after a refused attempt: the message, unless it is empty, is written to partition 1, and a reader of partition 0
does not receive it. -/
theorem C128_violated_refused (n : Nat) (m : Msg) (hm : m ≠ []) (as : List Answer) (h : Plain as) :
    publish (empty (n + 2)) m (.refused :: as) = [] :: [m] :: empty n ∧
    ¬ Receives (.single 0) (publish (empty (n + 2)) m (.refused :: as)) m := by
  have hl : 0 < m.length := List.length_pos_iff.2 hm
  have ha : ∀ as, Plain as → attempts m (m.length :: 0 :: List.replicate n 0) as = some 1 := by
    intro as h
    induction as with
    | nil => exact h.elim
    | cons a as ih =>
      rcases h with rfl | ⟨rfl, h⟩
      · simp only [attempts, balance, least, if_pos hl, least_zero]
      · simpa only [attempts] using ih h
  have e : publish (empty (n + 2)) m (.refused :: as) = [] :: [m] :: empty n := by
    have hb : balance (List.replicate (n + 2) 0) = some 0 := by
      simp only [List.replicate_succ, balance]
      rw [← List.replicate_succ, least_zero]
    have hc : count (List.replicate (n + 2) 0) 0 m = m.length :: 0 :: List.replicate n 0 := by
      simp [count, List.replicate_succ]
    unfold publish
    simp only [empty, List.length_replicate, attempts, hb, hc, ha as h]
    rfl
  refine ⟨e, ?_⟩
  rw [e]
  rintro ⟨s, hs, hm'⟩
  simp [reads] at hs
  subst hs
  cases hm'

example : publish (empty 3) [9] [.refused, .written] = [[], [[9]], []] := by decide

end Verif.Partition
