import Verif.Model.OldReplies
import Verif.Props.Request

/-!
# C127: a request does not return a message that was on the reply channel before it was made
-/

namespace Verif.OldReplies

open Verif.Send Verif.Middleware

variable {C T R : Type}

/-! ## Specification -/

/-- The request, if it awaits that correlation ID (`none`: any), takes the message and makes `d` of it. -/
def Gives (c : Client C T R) (addr : String) (want : Option String) (m : BrokerMessage) (d : R) : Prop :=
  (∀ id, want = some id → c.rty.corr (c.rty.decode m).1 = id) ∧
  (executeMiddlewares c.env.mws (c.env.waitCtx addr want m) m () none).1 = .ret none ∧
  c.rty.decode (executeMiddlewares c.env.mws (c.env.waitCtx addr want m) m () none).2.msg = (d, none)

/-- The request is sent, and its reply comes to that address. -/
def Sent (c : Client C T R) (k : Call T) (addr : String) : Prop :=
  c.ra.resolve k.msg = .ok addr ∧ (send c.env c.ty c.op k.uuid c.reqAddr (toSend c.ty c.op k.uuid k.msg)).res = .ret none

/-- What the request awaits: the correlation ID of the message it sends, if it has one. -/
def awaits (c : Client C T R) (k : Call T) : Option String :=
  if c.op.hasCorr then some (c.ty.corr (toSend c.ty c.op k.uuid k.msg)) else none

/-! ## The waiting loop -/

theorem waitNext_gives (c : Client C T R) (addr : String) (want : Option String) (m : BrokerMessage) (d : R) :
    (waitNext c.env c.rty addr want (.recv m true)).msg = some d ↔ Gives c addr want m d := by
  unfold waitNext Gives
  simp only [Bool.not_true, Bool.false_and, Bool.false_eq_true, if_false]
  cases want with
  | none =>
    simp only [Bool.false_eq_true, if_false]
    generalize executeMiddlewares c.env.mws (c.env.waitCtx addr none m) m () none = x
    obtain ⟨r, s⟩ := x
    cases r with
    | panicked => simp
    | ret e =>
      cases e with
      | some e => simp
      | none =>
        generalize hy : c.rty.decode s.msg = y
        obtain ⟨v, e⟩ := y
        cases e <;> simp [hy]
  | some id =>
    by_cases hid : c.rty.corr (c.rty.decode m).1 = id
    · subst hid
      simp only [beq_self_eq_true, Bool.not_true, Bool.false_eq_true, if_false]
      generalize executeMiddlewares c.env.mws _ m () none = x
      obtain ⟨r, s⟩ := x
      cases r with
      | panicked => simp
      | ret e =>
        cases e with
        | some e => simp
        | none =>
          generalize hy : c.rty.decode s.msg = y
          obtain ⟨v, e⟩ := y
          cases e <;> simp [hy]
    · have hb : (id == c.rty.corr (c.rty.decode m).1) = false := by
        rw [beq_eq_false_iff_ne]; exact fun e => hid e.symm
      simp only [hb, Bool.not_false, if_true]
      constructor
      · intro h; cases h
      · intro h; exact absurd (h.1 id rfl) hid

/-- What the loop returns was made of a received message. -/
theorem waitLoop_from (c : Client C T R) (addr : String) (want : Option String) (l : List BrokerMessage) (d : R)
    (h : (waitLoop c.env c.rty addr want (l.map (Sel.recv · true))).1 = .returned d) : ∃ m ∈ l, Gives c addr want m d := by
  induction l with
  | nil => cases h
  | cons m l ih =>
    simp only [List.map_cons, waitLoop] at h
    split at h
    · cases h
    · split at h
      · rename_i d' hd
        cases h
        exact ⟨m, .head _, (waitNext_gives c addr want m d).mp hd⟩
      · obtain ⟨m', hm, hg⟩ := ih h
        exact ⟨m', .tail _ hm, hg⟩

theorem not_panicked_of_msg (c : Client C T R) (addr : String) (want : Option String) (s : Sel) (d : R)
    (h : (waitNext c.env c.rty addr want s).msg = some d) : (waitNext c.env c.rty addr want s).panicked = false := by
  have key : ∀ o : WaitOut C R, waitNext c.env c.rty addr want s = o → o.msg = some d → o.panicked = false := by
    intro o ho hm
    cases s with
    | ctxDone => rw [← ho] at hm; cases hm
    | recv m isOpen =>
      unfold waitNext at ho
      by_cases hz : (!isOpen && m.isUninitialized) = true
      · simp only [hz, if_true] at ho; rw [← ho] at hm; cases hm
      · simp only at ho
        rw [if_neg hz] at ho
        cases want with
        | none =>
          simp only [Bool.false_eq_true, if_false] at ho
          generalize executeMiddlewares c.env.mws (c.env.waitCtx addr none m) m () none = x at ho
          obtain ⟨r, w⟩ := x
          cases r with
          | panicked => rw [← ho] at hm; cases hm
          | ret e =>
            cases e with
            | some e => rw [← ho] at hm; cases hm
            | none =>
              simp only at ho
              generalize c.rty.decode w.msg = y at ho
              obtain ⟨v, e⟩ := y
              cases e with
              | some e => rw [← ho] at hm; cases hm
              | none => rw [← ho]
        | some id =>
          simp only at ho
          by_cases hk : (!(id == c.rty.corr (c.rty.decode m).1)) = true
          · rw [if_pos hk] at ho; rw [← ho] at hm; cases hm
          · rw [if_neg hk] at ho
            generalize executeMiddlewares c.env.mws (c.env.waitCtx addr (some id) m) m () none = x at ho
            obtain ⟨r, w⟩ := x
            cases r with
            | panicked => rw [← ho] at hm; cases hm
            | ret e =>
              cases e with
              | some e => rw [← ho] at hm; cases hm
              | none =>
                simp only at ho
                generalize c.rty.decode w.msg = y at ho
                obtain ⟨v, e⟩ := y
                cases e with
                | some e => rw [← ho] at hm; cases hm
                | none => rw [← ho]
  exact key _ rfl h

/-- When the first message received is taken, the loop returns it. -/
theorem waitLoop_first (c : Client C T R) (addr : String) (want : Option String) (m : BrokerMessage) (l : List Sel) (d : R)
    (hg : Gives c addr want m d) :
    waitLoop c.env c.rty addr want (.recv m true :: l) =
      (.returned d, stepEvs (.recv m true) (waitNext c.env c.rty addr want (.recv m true))) := by
  have hm := (waitNext_gives c addr want m d).mpr hg
  have hp := not_panicked_of_msg c addr want _ d hm
  simp only [waitLoop]
  rw [hp, hm]
  rfl

theorem call_sent (via : Via) (c : Client C T R) (t : Topic) (k : Call T) (addr : String) (hs : Sent c k addr) :
    (call via c t k).1 = (waitLoop c.env c.rty addr (awaits c k)
      (((t.msgs ++ k.fresh).drop (begin via t)).map (Sel.recv · true))).1 := by
  unfold call
  simp only
  rw [request_sent c.env c.ty c.rty c.op c.ra k.uuid c.reqAddr addr k.msg _ hs.1 hs.2]
  show (match waitLoop c.env c.rty addr (awaits c k) _ with | (.pending, evs) => _ | (r, evs) => _ : ReqRes R × List ReqEv).1 = _
  generalize waitLoop c.env c.rty addr (awaits c k) _ = x
  obtain ⟨r, e⟩ := x
  cases r <;> rfl

/-! ## Theorems -/

theorem of_begin (via : Via) (c : Client C T R) (t : Topic) (k : Call T) (addr : String) (hs : Sent c k addr)
    (hb : t.msgs.length ≤ begin via t) (d : R) (h : (call via c t k).1 = .returned d) :
    ∃ m ∈ k.fresh, Gives c addr (awaits c k) m d := by
  rw [call_sent via c t k addr hs] at h
  obtain ⟨m, hm, hg⟩ := waitLoop_from c addr _ _ d h
  refine ⟨m, ?_, hg⟩
  rw [List.drop_append, List.drop_of_length_le hb, List.nil_append] at hm
  exact List.mem_of_mem_drop hm

/-- Over NATS a request returns what was published after it subscribed, with or without correlation ID. -/
theorem C127_nats (c : Client C T R) (t : Topic) (k : Call T) (addr : String) (hs : Sent c k addr) (d : R)
    (h : (call .nats c t k).1 = .returned d) : ∃ m ∈ k.fresh, Gives c addr (awaits c k) m d :=
  of_begin .nats c t k addr hs (Nat.le_refl _) d h

/-- So does a request over Kafka whose group has read all there is. -/
theorem C127_group_partial (auto : Bool) (c : Client C T R) (t : Topic) (k : Call T) (addr : String) (hs : Sent c k addr)
    (hc : t.msgs.length ≤ t.committed) (d : R) (h : (call (.kafka auto true) c t k).1 = .returned d) :
    ∃ m ∈ k.fresh, Gives c addr (awaits c k) m d :=
  of_begin (.kafka auto true) c t k addr hs hc d h

/-- So does any request whose correlation ID is not on the reply channel yet. -/
theorem C127_correlated_partial (via : Via) (c : Client C T R) (hc : c.op.hasCorr = true) (t : Topic) (k : Call T) (addr : String)
    (hs : Sent c k addr) (hn : ∀ m ∈ t.msgs, c.rty.corr (c.rty.decode m).1 ≠ c.ty.corr (toSend c.ty c.op k.uuid k.msg)) (d : R)
    (h : (call via c t k).1 = .returned d) : ∃ m ∈ k.fresh, Gives c addr (awaits c k) m d := by
  rw [call_sent via c t k addr hs] at h
  obtain ⟨m, hm, hg⟩ := waitLoop_from c addr _ _ d h
  refine ⟨m, ?_, hg⟩
  rcases List.mem_append.mp (List.mem_of_mem_drop hm) with hm | hm
  · refine absurd (hg.1 _ ?_) (hn m hm)
    unfold awaits; rw [hc]; rfl
  · exact hm

/-- **Violated**: over Kafka without a group (the default), requests without correlation ID return the first message that ever
was on the reply channel, all of them, whatever is replied. -/
theorem C127_violated_kafka (auto : Bool) (c : Client C T R) (hc : c.op.hasCorr = false) (addr : String) (m : BrokerMessage) (d : R)
    (hg : Gives c addr none m d) (ks : List (Call T)) (hs : ∀ k ∈ ks, Sent c k addr) (t : Topic) (rest : List BrokerMessage)
    (ht : t.msgs = m :: rest) : calls (.kafka auto false) c t ks = ks.map (fun _ => .returned d) := by
  induction ks generalizing t rest with
  | nil => rfl
  | cons k ks ih =>
    have h1 : (call (.kafka auto false) c t k).1 = .returned d := by
      rw [call_sent _ c t k addr (hs k (.head _))]
      have hw : awaits c k = none := by unfold awaits; rw [hc]; rfl
      rw [hw, ht]
      show (waitLoop c.env c.rty addr none (.recv m true :: _)).1 = _
      rw [waitLoop_first c addr none m _ d hg]
    simp only [calls, List.map_cons]
    rw [h1, ih (fun k' h' => hs k' (.tail _ h')) _ (rest ++ k.fresh) ?_]
    show t.msgs ++ k.fresh = _
    rw [ht]; rfl

/-- A request without correlation ID acknowledges nothing. -/
theorem no_acks (c : Client C T R) (hc : c.op.hasCorr = false) (uuid : String) (msg : T) (sels : List Sel) :
    ackCount (request c.env c.ty c.rty c.op c.ra uuid c.reqAddr none msg sels).2 = 0 := by
  have happ : ∀ a b, ackCount (a ++ b) = ackCount a + ackCount b := by
    intro a b
    induction a with
    | nil => simp [ackCount]
    | cons e a ih => cases e <;> simp only [List.cons_append, ackCount, ih] <;> omega
  have hpub : ∀ l : List Pub, ackCount (l.map .publish) = 0 := by
    intro l
    induction l with
    | nil => rfl
    | cons p l ih => simpa [ackCount] using ih
  have hstep : ∀ addr s, ackCount (stepEvs s (waitNext c.env c.rty addr none s)) = 0 := by
    intro addr s
    cases s with
    | ctxDone => rfl
    | recv m o =>
      have : (waitNext c.env c.rty addr none (.recv m o)).acked = false := by
        unfold waitNext
        simp only
        split
        · rfl
        · simp only [Bool.false_eq_true, if_false]
          split
          · rfl
          · rfl
          · split <;> rfl
      unfold stepEvs
      rw [this]; rfl
  have hwait : ∀ addr sels, ackCount (waitLoop c.env c.rty addr none sels).2 = 0 := by
    intro addr sels
    induction sels with
    | nil => rfl
    | cons s r ih =>
      simp only [waitLoop]
      split
      · exact hstep addr s
      · split
        · exact hstep addr s
        · rw [happ, hstep, ih]
  unfold request
  cases hr : c.ra.resolve msg with
  | error e => rfl
  | ok addr =>
    simp only [hc, Bool.false_and, Bool.false_eq_true, if_false]
    cases ho : (send c.env c.ty c.op uuid c.reqAddr msg).res with
    | panicked => simp only [happ, ackCount, hpub]
    | ret e =>
      cases e with
      | some e => simp only [happ, ackCount, hpub]
      | none =>
        simp only
        have hw := hwait addr sels
        generalize waitLoop c.env c.rty addr none sels = x at hw
        obtain ⟨r, evs⟩ := x
        simp only at hw
        cases r <;> simp [happ, ackCount, hpub, hw]

/-- **Violated**: with a group and manual commits, requests without correlation ID return the same message for ever, since they
acknowledge nothing. -/
theorem C127_violated_manual (c : Client C T R) (hc : c.op.hasCorr = false) (addr : String) (m : BrokerMessage) (d : R)
    (hg : Gives c addr none m d) (ks : List (Call T)) (hs : ∀ k ∈ ks, Sent c k addr) (t : Topic) (rest : List BrokerMessage)
    (ht : t.msgs.drop t.committed = m :: rest) : calls (.kafka false true) c t ks = ks.map (fun _ => .returned d) := by
  induction ks generalizing t rest with
  | nil => rfl
  | cons k ks ih =>
    have hlt : t.committed ≤ t.msgs.length := by
      by_cases h : t.committed ≤ t.msgs.length
      · exact h
      · rw [List.drop_of_length_le (by omega)] at ht; cases ht
    have hdrop : (t.msgs ++ k.fresh).drop t.committed = m :: (rest ++ k.fresh) := by
      rw [List.drop_append_of_le_length hlt, ht]; rfl
    have h1 : (call (.kafka false true) c t k).1 = .returned d := by
      rw [call_sent _ c t k addr (hs k (.head _))]
      have hw : awaits c k = none := by unfold awaits; rw [hc]; rfl
      rw [hw]
      show (waitLoop c.env c.rty addr none (((t.msgs ++ k.fresh).drop t.committed).map (Sel.recv · true))).1 = _
      rw [hdrop, List.map_cons, waitLoop_first c addr none m _ d hg]
    simp only [calls, List.map_cons]
    rw [h1, ih (fun k' h' => hs k' (.tail _ h')) _ (rest ++ k.fresh) ?_]
    have hcm : (call (.kafka false true) c t k).2 = ⟨t.msgs ++ k.fresh, t.committed⟩ := by
      unfold call
      simp only [commit, no_acks c hc]
      rfl
    rw [hcm]
    exact hdrop

/-! ## Non-vacuity -/

/-- Requests without correlation ID. -/
def exClient : Client Unit (String × Bytes) (String × Bytes) := ⟨exEnv, exTy, exTy, ⟨false, false⟩, .fixed "back", "chan"⟩

def exReply (id n : UInt8) : BrokerMessage := ⟨some [("corr", [id])], some [n]⟩

example : Sent exClient ⟨"a", ("", [1]), [exReply 98 7], 0⟩ "back" := ⟨rfl, by decide⟩

example : Gives exClient "back" none (exReply 97 6) ("a", [6]) := ⟨fun id h => (by cases h), by decide, by decide⟩

/-- Two requests: over NATS each gets its reply, over Kafka both the first. -/
example : calls .nats exClient {} [⟨"a", ("", [1]), [exReply 97 6], 0⟩, ⟨"b", ("", [2]), [exReply 98 7], 0⟩] =
      [.returned ("a", [6]), .returned ("b", [7])] ∧
    calls (.kafka true false) exClient {} [⟨"a", ("", [1]), [exReply 97 6], 0⟩, ⟨"b", ("", [2]), [exReply 98 7], 0⟩] =
      [.returned ("a", [6]), .returned ("a", [6])] := by
  constructor <;> decide

end Verif.OldReplies
