import Verif.Model.OldRepliesJet
import Verif.Props.OldReplies

/-!
# C127 over JetStream
-/

namespace Verif.OldReplies

open Verif.Send Verif.Middleware

variable {C T R : Type}

/-- The request over JetStream is sent, and its reply comes to that address. -/
def JetSent (c : Client C T R) (k : JetCall T) (addr : String) : Prop := Sent c ⟨k.uuid, k.msg, k.fresh, 0⟩ addr

/-- What it awaits. -/
def jetAwaits (c : Client C T R) (k : JetCall T) : Option String := awaits c ⟨k.uuid, k.msg, k.fresh, 0⟩

theorem number_mem {n : Nat} {ms : List BrokerMessage} {e : Nat × BrokerMessage} (h : e ∈ number n ms) :
    e.2 ∈ ms ∧ n ≤ e.1 ∧ e.1 < n + ms.length := by
  induction ms generalizing n with
  | nil => cases h
  | cons m ms ih =>
    rcases List.mem_cons.1 h with rfl | h
    · exact ⟨.head _, Nat.le_refl _, by simp⟩
    · obtain ⟨h1, h2, h3⟩ := ih h
      refine ⟨.tail _ h1, by omega, ?_⟩
      rw [List.length_cons]; omega

theorem received_mem {j : Jet} {k : JetCall T} {e : Nat × BrokerMessage} (h : e ∈ k.received j) : e ∈ k.there j := by
  obtain ⟨n, _, hn⟩ := List.mem_filterMap.1 h
  exact List.mem_of_find?_eq_some hn

theorem ackCount_append (a b : List ReqEv) : ackCount (a ++ b) = ackCount a + ackCount b := by
  induction a with
  | nil => simp [ackCount]
  | cons e a ih => cases e <;> simp only [List.cons_append, ackCount, ih] <;> omega

theorem ackCount_publish (l : List Pub) : ackCount (l.map .publish) = 0 := by
  induction l with
  | nil => rfl
  | cons p l ih => simpa [ackCount] using ih

/-- The result of a request that is sent, and its acknowledgements, are those of the waiting loop. -/
theorem jet_sent (c : Client C T R) (k : JetCall T) (addr : String) (hs : JetSent c k addr) (sels : List Sel) :
    (request c.env c.ty c.rty c.op c.ra k.uuid c.reqAddr none k.msg sels).1 = (waitLoop c.env c.rty addr (jetAwaits c k) sels).1 ∧
    ackCount (request c.env c.ty c.rty c.op c.ra k.uuid c.reqAddr none k.msg sels).2 =
      ackCount (waitLoop c.env c.rty addr (jetAwaits c k) sels).2 := by
  rw [request_sent c.env c.ty c.rty c.op c.ra k.uuid c.reqAddr addr k.msg _ hs.1 hs.2]
  have e : (if c.op.hasCorr then some (c.ty.corr (toSend c.ty c.op k.uuid k.msg)) else none) = jetAwaits c k := rfl
  rw [e]
  generalize waitLoop c.env c.rty addr (jetAwaits c k) sels = x
  obtain ⟨r, evs⟩ := x
  cases r <;> simp [ackCount_append, ackCount, ackCount_publish]

theorem jet_from (c : Client C T R) (j : Jet) (k : JetCall T) (addr : String) (hs : JetSent c k addr) (d : R)
    (h : (jetCall c j k).1 = .returned d) : ∃ e ∈ k.there j, Gives c addr (jetAwaits c k) e.2 d := by
  have h' := (jet_sent c k addr hs ((k.received j).map (fun e : Nat × BrokerMessage => Sel.recv e.2 true))).1.symm.trans h
  have hm : (k.received j).map (fun e => Sel.recv e.2 true) = ((k.received j).map (·.2)).map (Sel.recv · true) := by simp
  rw [hm] at h'
  obtain ⟨m, hm, hg⟩ := waitLoop_from c addr _ _ d h'
  obtain ⟨e, he, rfl⟩ := List.mem_map.1 hm
  exact ⟨e, received_mem he, hg⟩

/-- Partial: when the server has given up all earlier messages, a request returns what was published while it waited. -/
theorem C127_jetstream_partial (c : Client C T R) (j : Jet) (hj : j.pending = []) (k : JetCall T) (addr : String)
    (hs : JetSent c k addr) (d : R) (h : (jetCall c j k).1 = .returned d) :
    ∃ m ∈ k.fresh, Gives c addr (jetAwaits c k) m d := by
  obtain ⟨e, he, hg⟩ := jet_from c j k addr hs d h
  rw [JetCall.there, hj, List.nil_append] at he
  exact ⟨_, (number_mem he).1, hg⟩

/-- Partial: so does any request whose correlation ID is in none of the messages the server still has. -/
theorem C127_jetstream_correlated_partial (c : Client C T R) (hc : c.op.hasCorr = true) (j : Jet) (k : JetCall T) (addr : String)
    (hs : JetSent c k addr)
    (hn : ∀ e ∈ j.pending, c.rty.corr (c.rty.decode e.2).1 ≠ c.ty.corr (toSend c.ty c.op k.uuid k.msg)) (d : R)
    (h : (jetCall c j k).1 = .returned d) : ∃ m ∈ k.fresh, Gives c addr (jetAwaits c k) m d := by
  obtain ⟨e, he, hg⟩ := jet_from c j k addr hs d h
  rcases List.mem_append.1 he with he | he
  · refine absurd (hg.1 _ ?_) (hn e he)
    unfold jetAwaits awaits; rw [hc]; rfl
  · exact ⟨_, (number_mem he).1, hg⟩

/-- With a correlation ID every message up to the one that is returned is acknowledged. -/
theorem waitLoop_acks (c : Client C T R) (addr id : String) (l : List (Nat × BrokerMessage)) (d : R)
    (h : (waitLoop c.env c.rty addr (some id) (l.map (fun e => Sel.recv e.2 true))).1 = .returned d) :
    ∃ e ∈ l.take (ackCount (waitLoop c.env c.rty addr (some id) (l.map (fun e => Sel.recv e.2 true))).2),
      Gives c addr (some id) e.2 d := by
  induction l with
  | nil => cases h
  | cons e l ih =>
    have ha : (waitNext c.env c.rty addr (some id) (.recv e.2 true)).acked = true := by
      unfold waitNext
      simp only [Bool.not_true, Bool.false_and, Bool.false_eq_true, if_false]
      split
      · rfl
      · split
        · rfl
        · rfl
        · split <;> rfl
    have hs : stepEvs (.recv e.2 true) (waitNext c.env c.rty addr (some id) (.recv e.2 true)) = [.ack e.2] := by
      unfold stepEvs; rw [ha]; rfl
    simp only [List.map_cons, waitLoop, hs] at h ⊢
    split at h
    · cases h
    · rename_i hp
      rw [if_neg hp]
      cases hm : (waitNext c.env c.rty addr (some id) (.recv e.2 true)).msg with
      | some d' =>
        rw [hm] at h
        cases h
        exact ⟨e, by simp [ackCount], (waitNext_gives c addr (some id) e.2 d).mp hm⟩
      | none =>
        rw [hm] at h
        obtain ⟨f, hf, hg⟩ := ih h
        refine ⟨f, ?_, hg⟩
        simp only [List.singleton_append, ackCount, List.take_succ_cons]
        exact List.mem_cons_of_mem _ hf

/-- Numbers the server no longer has do not come back. -/
theorem gone_run (c : Client C T R) (os : List (JetOp T)) (j : Jet) (n : Nat) (hn : n < j.next) (hp : ∀ e ∈ j.pending, e.1 ≠ n) :
    ∀ e ∈ (jetRun c j os).pending, e.1 ≠ n := by
  induction os generalizing j with
  | nil => exact hp
  | cons o os ih =>
    have key : ∀ (ms : List BrokerMessage), ∀ e ∈ j.pending ++ number j.next ms, e.1 ≠ n := by
      intro ms e he
      rcases List.mem_append.1 he with he | he
      · exact hp e he
      · have := (number_mem he).2.1; omega
    refine ih _ ?_ ?_
    · cases o with
      | call k => exact Nat.lt_of_lt_of_le hn (Nat.le_add_right _ _)
      | idle ms dr => exact Nat.lt_of_lt_of_le hn (Nat.le_add_right _ _)
    · cases o with
      | call k => exact fun e he => key k.fresh e (List.mem_filter.1 he).1
      | idle ms dr => exact fun e he => key ms e (List.mem_filter.1 he).1

/-- Numbers of the messages the server has are below the next one. -/
def Jet.Sane (j : Jet) : Prop := ∀ e ∈ j.pending, e.1 < j.next

theorem next_run (c : Client C T R) (os : List (JetOp T)) (j : Jet) : j.next ≤ (jetRun c j os).next := by
  induction os generalizing j with
  | nil => exact Nat.le_refl _
  | cons o os ih =>
    refine Nat.le_trans ?_ (ih _)
    cases o <;> exact Nat.le_add_right _ _

/-- Every history keeps to that. -/
theorem sane_run (c : Client C T R) (os : List (JetOp T)) (j : Jet) (h : j.Sane) : (jetRun c j os).Sane := by
  induction os generalizing j with
  | nil => exact h
  | cons o os ih =>
    have key : ∀ (ms : List BrokerMessage), ∀ e ∈ j.pending ++ number j.next ms, e.1 < j.next + ms.length := by
      intro ms e he
      rcases List.mem_append.1 he with he | he
      · exact Nat.lt_of_lt_of_le (h e he) (Nat.le_add_right _ _)
      · exact (number_mem he).2.2
    refine ih _ ?_
    cases o with
    | call k => exact fun e he => key k.fresh e (List.mem_filter.1 he).1
    | idle ms dr => exact fun e he => key ms e (List.mem_filter.1 he).1

/-- Partial: with a correlation ID, the message that a request returned is not there for any later request, whatever happens in
between. -/
theorem C127_jetstream_once_partial (c : Client C T R) (hc : c.op.hasCorr = true) (j : Jet) (hj : j.Sane) (k : JetCall T)
    (addr : String) (hs : JetSent c k addr) (d : R) (h : (jetCall c j k).1 = .returned d) (os : List (JetOp T)) :
    ∃ e ∈ k.there j, Gives c addr (jetAwaits c k) e.2 d ∧
      ∀ k' : JetCall T, ∀ f ∈ k'.received (jetRun c (jetCall c j k).2 os), f.1 ≠ e.1 := by
  have hq : jetAwaits c k = some (c.ty.corr (toSend c.ty c.op k.uuid k.msg)) := by unfold jetAwaits awaits; rw [hc]; rfl
  obtain ⟨h1, h2⟩ := jet_sent c k addr hs ((k.received j).map (fun e : Nat × BrokerMessage => Sel.recv e.2 true))
  have hr := h1.symm.trans h
  rw [hq] at hr h2
  obtain ⟨e, he, hg⟩ := waitLoop_acks c addr _ (k.received j) d hr
  rw [← h2] at he
  have ht := received_mem (List.mem_of_mem_take he)
  have hlt : e.1 < j.next + k.fresh.length := by
    rcases List.mem_append.1 ht with ht | ht
    · have := hj e ht; omega
    · exact (number_mem ht).2.2
  have hgone : ∀ f ∈ (jetCall c j k).2.pending, f.1 ≠ e.1 := by
    intro f hf hfe
    have := (List.mem_filter.1 hf).2
    simp only [decide_eq_true_eq] at this
    exact this (hfe ▸ List.mem_map_of_mem (f := Prod.fst) he)
  refine ⟨e, ht, hq ▸ hg, fun k' f hf => ?_⟩
  have hrun := gone_run c os (jetCall c j k).2 e.1 hlt hgone
  rcases List.mem_append.1 (received_mem hf) with hf | hf
  · exact hrun f hf
  · have a := (number_mem hf).2.1
    have b := next_run c os (jetCall c j k).2
    have b' : (jetCall c j k).2.next = j.next + k.fresh.length := rfl
    omega

theorem number_nodup (n : Nat) (ms : List BrokerMessage) : ((number n ms).map (·.1)).Nodup := by
  induction ms generalizing n with
  | nil => exact List.nodup_nil
  | cons m ms ih =>
    refine List.nodup_cons.2 ⟨fun h => ?_, ih _⟩
    obtain ⟨e, he, hn⟩ := List.mem_map.1 h
    have := (number_mem he).2.1
    simp only at hn
    omega

/-- In every history the messages the server has are told apart by their numbers. -/
theorem C127_jetstream_numbers (c : Client C T R) (os : List (JetOp T)) :
    ((jetRun c {} os).pending.map (·.1)).Nodup := by
  have key : ∀ (os : List (JetOp T)) (j : Jet), j.Sane → (j.pending.map (·.1)).Nodup → ((jetRun c j os).pending.map (·.1)).Nodup := by
    intro os
    induction os with
    | nil => exact fun j _ h => h
    | cons o os ih =>
      intro j hj hd
      have hall : ∀ ms, ((j.pending ++ number j.next ms).map (·.1)).Nodup := by
        intro ms
        rw [List.map_append, List.nodup_append]
        refine ⟨hd, number_nodup _ _, fun a ha b hb e => ?_⟩
        obtain ⟨x, hx, rfl⟩ := List.mem_map.1 ha
        obtain ⟨y, hy, rfl⟩ := List.mem_map.1 hb
        have h1 := hj x hx
        have h2 := (number_mem hy).2.1
        omega
      refine ih _ (sane_run c [o] j hj) ?_
      cases o with
      | call k => exact (hall k.fresh).sublist (List.filter_sublist.map _)
      | idle ms dr => exact (hall ms).sublist (List.filter_sublist.map _)
  exact key os {} (fun _ h => by cases h) List.nodup_nil

/-- While no request waits, exactly the messages the controller acknowledges itself are given up, and those are not received by
any later request. -/
theorem C127_jetstream_idle (c : Client C T R) (j : Jet) (ms : List BrokerMessage) (dropped : List Nat) :
    (∀ e, e ∈ (jetStep c j (.idle ms dropped)).pending ↔ (e ∈ j.pending ∨ e ∈ number j.next ms) ∧ e.1 ∉ dropped) ∧
    ∀ n ∈ dropped, n < j.next + ms.length → ∀ (os : List (JetOp T)) (k : JetCall T),
      ∀ f ∈ k.received (jetRun c (jetStep c j (.idle ms dropped)) os), f.1 ≠ n := by
  have h1 : ∀ e, e ∈ (jetStep c j (.idle ms dropped)).pending ↔ (e ∈ j.pending ∨ e ∈ number j.next ms) ∧ e.1 ∉ dropped := by
    intro e
    simp only [jetStep, List.mem_filter, List.mem_append, decide_eq_true_eq]
  refine ⟨h1, fun n hn hlt os k f hf => ?_⟩
  have hrun := gone_run c os (jetStep c j (.idle ms dropped)) n hlt (fun e he hen => ((h1 e).1 he).2 (hen ▸ hn))
  rcases List.mem_append.1 (received_mem hf) with hf | hf
  · exact hrun f hf
  · have a := (number_mem hf).2.1
    have b := next_run c os (jetStep c j (.idle ms dropped))
    have b' : (jetStep c j (.idle ms dropped)).next = j.next + ms.length := rfl
    omega

/-- **Violated**: requests without correlation ID acknowledge nothing, so that a message the server still has is returned by each
request to which it is delivered first, whatever is replied. -/
theorem C127_violated_jetstream (c : Client C T R) (hc : c.op.hasCorr = false) (addr : String) (n : Nat) (m : BrokerMessage) (d : R)
    (hg : Gives c addr none m d) (ks : List (JetCall T)) (hs : ∀ k ∈ ks, JetSent c k addr)
    (hf : ∀ k ∈ ks, k.order.head? = some n) (j : Jet) (hj : j.pending.find? (fun e => e.1 = n) = some (n, m)) :
    jetCalls c j ks = ks.map (fun _ => .returned d) := by
  induction ks generalizing j with
  | nil => rfl
  | cons k ks ih =>
    have hk : (k.there j).find? (fun e => e.1 = n) = some (n, m) := by
      rw [JetCall.there, List.find?_append, hj]; rfl
    obtain ⟨r, hr⟩ : ∃ r, k.received j = (n, m) :: r := by
      have := hf k (.head _)
      cases ho : k.order with
      | nil => rw [ho] at this; cases this
      | cons a as =>
        rw [ho] at this
        cases this
        exact ⟨_, by rw [JetCall.received, ho, List.filterMap_cons, hk]⟩
    have hw : jetAwaits c k = none := by unfold jetAwaits awaits; rw [hc]; rfl
    have h1 : (jetCall c j k).1 = .returned d := by
      show (request c.env c.ty c.rty c.op c.ra k.uuid c.reqAddr none k.msg _).1 = _
      rw [(jet_sent c k addr (hs k (.head _)) _).1, hw, hr, List.map_cons, waitLoop_first c addr none m _ d hg]
    have h2 : (jetCall c j k).2.pending = k.there j := by
      unfold jetCall
      simp only [no_acks c hc, List.take_zero, List.map_nil, List.not_mem_nil, not_false_eq_true, decide_true]
      exact List.filter_eq_self.2 fun _ _ => rfl
    simp only [jetCalls, List.map_cons]
    rw [h1, ih (fun k' h' => hs k' (.tail _ h')) (fun k' h' => hf k' (.tail _ h')) _ (by rw [h2]; exact hk)]

/-! ## Non-vacuity -/

/-- Two requests without correlation ID: the second gets the reply of the first, which is delivered again. -/
example : jetCalls exClient {} [⟨"a", ("", [1]), [exReply 97 6], [0]⟩, ⟨"b", ("", [2]), [exReply 98 7], [0, 1]⟩] =
    [.returned ("a", [6]), .returned ("a", [6])] := by decide

/-- With correlation IDs each gets its own, and the server has nothing left. -/
def exCorrelated : Client Unit (String × Bytes) (String × Bytes) := { exClient with op := ⟨true, false⟩ }

example : jetCalls exCorrelated {} [⟨"a", ("", [1]), [exReply 97 6], [0]⟩, ⟨"b", ("", [2]), [exReply 98 7], [0, 1]⟩] =
      [.returned ("a", [6]), .returned ("b", [7])] ∧
    (jetRun exCorrelated {} [.idle [exReply 99 5] [], .call ⟨"a", ("", [1]), [exReply 97 6], [0, 1]⟩]).pending = [] := by
  constructor <;> decide

example : JetSent exCorrelated ⟨"a", ("", [1]), [exReply 97 6], [0]⟩ "back" := ⟨rfl, by decide⟩

/-- What the controller acknowledged itself is not there either. -/
example : (jetRun exClient {} [.idle [exReply 99 5, exReply 99 6] [0]]).pending = [(1, exReply 99 6)] := by decide

end Verif.OldReplies
