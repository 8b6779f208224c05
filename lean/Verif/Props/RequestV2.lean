import Verif.Props.Request

/-! # C22, C24 and C85 for the requests of v2 controllers -/

namespace Verif.Send

open Verif.Middleware

variable {C T R : Type}

/-- The request once its subscription is made and the publication function returned nil. -/
theorem waitForV2_sent (env : Env C) (rty : MsgType R) (addr want : String) (pubs : List Pub) (sels : List Sel) :
    (waitForV2 env rty addr want none (.ret none, pubs) sels).1 = (waitLoop env rty addr (some want) sels).1 ∧
    acks (waitForV2 env rty addr want none (.ret none, pubs) sels).2 = acks (waitLoop env rty addr (some want) sels).2 := by
  unfold waitForV2
  simp only
  generalize waitLoop env rty addr (some want) sels = w
  obtain ⟨r, evs⟩ := w
  cases r <;> simp [acks, acks_append, acks_pubs]

/-- **C22 for v2.** A request returns a message exactly when some message received has the correlation ID of the message
it was given and is accepted by the middlewares, and it returns the first such one. -/
theorem C22_v2_returns_first_matching_reply (env : Env C) (rty : MsgType R) (addr want : String) (pubs : List Pub)
    (sels : List Sel) (hnp : NoPanic env addr want) (d : R) :
    (waitForV2 env rty addr want none (.ret none, pubs) sels).1 = .returned d ↔
      ∃ pre s post, sels = pre ++ s :: post ∧ Accepts env rty addr want s d ∧
        ∀ s' ∈ pre, ∀ d', ¬ Accepts env rty addr want s' d' := by
  rw [(waitForV2_sent env rty addr want pubs sels).1]
  constructor
  · intro h
    rcases waitLoop_spec env rty addr want hnp sels with ⟨pre, s, post, d', he, h1, h2, h3, _⟩ | ⟨_, h2, _⟩
    · rw [h3] at h
      cases h
      exact ⟨pre, s, post, he, h1, h2⟩
    · rw [h2] at h; cases h
  · rintro ⟨pre, s, post, he, h1, h2⟩
    have hpend : ∀ (l : List Sel), (∀ s' ∈ l, ∀ d', ¬ Accepts env rty addr want s' d') →
        (waitLoop env rty addr (some want) l).1 = .pending := by
      intro l hl
      rcases waitLoop_spec env rty addr want hnp l with ⟨p, s', q, d', e, ha, _⟩ | ⟨_, h, _⟩
      · exact absurd ha (hl s' (by rw [e]; simp) d')
      · exact h
    rw [he, waitLoop_append env rty addr (some want) pre (s :: post) (hpend pre h2)]
    have hp := waitNext_panicked env rty addr want s hnp
    simp [waitLoop, hp, (waitNext_msg env rty addr want s d).2 h1]

/-- **C24 for v2.** The subscription comes first, and is released exactly once, last, if the request has returned or
panicked, and not before; nothing is published when it cannot be made. -/
theorem C24_v2_subscribes_first_releases_last (env : Env C) (rty : MsgType R) (addr want : String)
    (pub : Res GoErr × List Pub) (sels : List Sel) :
    (∀ e, waitForV2 env rty addr want (some e) pub sels = (.failed e, [.subscribe addr false])) ∧
    ∃ evs : List ReqEv, cancels evs = 0 ∧
      ((waitForV2 env rty addr want none pub sels).1 = .pending →
        (waitForV2 env rty addr want none pub sels).2 = .subscribe addr true :: (pub.2.map .publish ++ evs)) ∧
      ((waitForV2 env rty addr want none pub sels).1 ≠ .pending →
        (waitForV2 env rty addr want none pub sels).2 = .subscribe addr true :: (pub.2.map .publish ++ evs) ++ [.cancel]) := by
  refine ⟨fun e => rfl, ?_⟩
  obtain ⟨r, pubs⟩ := pub
  cases r with
  | panicked => exact ⟨[], rfl, by simp [waitForV2], by simp [waitForV2]⟩
  | ret e =>
    cases e with
    | some e => exact ⟨[], rfl, by simp [waitForV2], by simp [waitForV2]⟩
    | none =>
      refine ⟨(waitLoop env rty addr (some want) sels).2, ?_, ?_⟩
      · clear pubs
        induction sels with
        | nil => rfl
        | cons s rest ih =>
          have hs : cancels (stepEvs s (waitNext env rty addr (some want) s)) = 0 := by
            cases s with
            | ctxDone => rfl
            | recv m o => simp only [stepEvs]; split <;> rfl
          simp only [waitLoop]
          split
          · exact hs
          · split
            · exact hs
            · rw [cancels_append, hs, ih]
      · unfold waitForV2
        simp only
        generalize waitLoop env rty addr (some want) sels = w
        obtain ⟨r, evs⟩ := w
        cases r <;> simp

/-- **C85, partial.** When the caller's message has a correlation ID, it is the ID of what is encoded and published, and the
one awaited. -/
theorem C85_awaits_partial (env : Env C) (ty : MsgType T) (op : OpCfg) (uuid reqAddr : String) (msg : T)
    (hid : ty.corr msg ≠ "") (p : Pub) (hp : p ∈ (send env ty op uuid reqAddr msg).pubs) :
    ∃ bm pre, ty.encode msg = .ok bm ∧ pre <+: (send env ty op uuid reqAddr msg).trace ∧ p.msg = lastWritten bm pre := by
  obtain ⟨bm, pre, h1, h2, h3⟩ := C19_published_message env ty op uuid reqAddr msg p hp
  refine ⟨bm, pre, ?_, h2, h3⟩
  rw [← h1, toSend, if_neg (by simp [hid])]

/-- **C85 is violated when the message has no correlation ID.** The publication sets a fresh one in its copy of the
message, but the request awaits that of the caller's message, which is empty: all replies carrying the ID that was
published are acknowledged and ignored, for ever. -/
theorem C85_violated_no_id (env : Env C) (ty : MsgType T) (hl : ty.Lawful) (rty : MsgType R) (addr reqAddr uuid : String)
    (hu : uuid ≠ "") (msg : T) (hid : ty.corr msg = "") (sels : List Sel) (hnp : NoPanic env addr (ty.corr msg))
    (hs : (send env ty ⟨true, false⟩ uuid reqAddr msg).res = .ret none)
    (hr : ∀ m o, .recv m o ∈ sels → rty.corr (rty.decode m).1 = uuid) :
    ty.corr (toSend ty ⟨true, false⟩ uuid msg) = uuid ∧
    (waitForV2 env rty addr (ty.corr msg) none
      ((send env ty ⟨true, false⟩ uuid reqAddr msg).res, (send env ty ⟨true, false⟩ uuid reqAddr msg).pubs) sels).1 = .pending ∧
    acks (waitForV2 env rty addr (ty.corr msg) none
      ((send env ty ⟨true, false⟩ uuid reqAddr msg).res, (send env ty ⟨true, false⟩ uuid reqAddr msg).pubs) sels).2 = received sels := by
  refine ⟨by simp [toSend, hid, hl msg uuid], ?_⟩
  rw [hs, (waitForV2_sent env rty addr (ty.corr msg) _ sels).1, (waitForV2_sent env rty addr (ty.corr msg) _ sels).2]
  rcases waitLoop_spec env rty addr _ hnp sels with ⟨p, s', q, d', e, ha, _⟩ | ⟨_, h, hk⟩
  · obtain ⟨m, o, rfl, _, hc, _⟩ := ha
    rw [hr m o (by rw [e]; simp), hid] at hc
    exact absurd hc hu
  · exact ⟨h, hk⟩

/-- Non-vacuity: the request sends with ID "a" and ignores the reply with ID "a". -/
example : (send exEnv exTy ⟨true, false⟩ "a" "chan" ("", [1])).pubs.map (fun p => p.msg) = [⟨some [("corr", [97])], some [1]⟩] ∧
    (waitForV2 exEnv exTy "back" "" none ((send exEnv exTy ⟨true, false⟩ "a" "chan" ("", [1])).res, [])
      [.recv ⟨some [("corr", [97])], some [5]⟩ true]).1 = .pending ∧
    (waitForV2 exEnv exTy "back" "a" none ((send exEnv exTy ⟨true, false⟩ "b" "chan" ("a", [1])).res, [])
      [.recv ⟨some [("corr", [97])], some [5]⟩ true]).1 = .returned ("a", [5]) := by decide

end Verif.Send
