import Verif.Props.Request

/-! # C84: requests acknowledge what they take from the reply channel -/

namespace Verif.Send

open Verif.Middleware

variable {C T R : Type}

/-- What a broker that delivers at least once will deliver again: the messages taken from the channel and not
acknowledged. -/
def outstanding (taken : List Sel) (evs : List ReqEv) : List BrokerMessage := (acks evs).foldl List.erase (received taken)

theorem erase_all (l : List BrokerMessage) : l.foldl List.erase l = [] := by
  have key : ∀ (l : List BrokerMessage), l.foldl List.erase l = [] := by
    intro l
    induction l with
    | nil => rfl
    | cons m l ih => simpa using ih
  exact key l

theorem acks_request (env : Env C) (ty : MsgType T) (rty : MsgType R) (op : OpCfg) (ra : ReplyAddr T)
    (uuid reqAddr addr : String) (msg : T) (sels : List Sel) (ha : ra.resolve msg = .ok addr)
    (hs : (send env ty op uuid reqAddr (toSend ty op uuid msg)).res = .ret none) :
    acks (request env ty rty op ra uuid reqAddr none msg sels).2 =
      acks (waitLoop env rty addr (if op.hasCorr then some (ty.corr (toSend ty op uuid msg)) else none) sels).2 ∧
    (request env ty rty op ra uuid reqAddr none msg sels).1 =
      (waitLoop env rty addr (if op.hasCorr then some (ty.corr (toSend ty op uuid msg)) else none) sels).1 := by
  rw [request_sent env ty rty op ra uuid reqAddr addr msg sels ha hs]
  generalize waitLoop env rty addr (if op.hasCorr then some (ty.corr (toSend ty op uuid msg)) else none) sels = w
  obtain ⟨r, evs⟩ := w
  cases r <;> simp [acks, acks_append, acks_pubs]

/-- **C84, partial.** A request with correlation ID acknowledges, in order, all it takes from the reply channel, whether it
returns or still waits; nothing is delivered again. (Its middlewares do not panic.) -/
theorem C84_all_acknowledged_partial (env : Env C) (ty : MsgType T) (rty : MsgType R) (op : OpCfg)
    (hc : op.hasCorr = true) (ra : ReplyAddr T) (uuid reqAddr addr : String) (msg : T) (sels : List Sel)
    (ha : ra.resolve msg = .ok addr)
    (hs : (send env ty op uuid reqAddr (toSend ty op uuid msg)).res = .ret none)
    (hnp : NoPanic env addr (ty.corr (toSend ty op uuid msg))) :
    ∃ taken, taken <+: sels ∧
      acks (request env ty rty op ra uuid reqAddr none msg sels).2 = received taken ∧
      outstanding taken (request env ty rty op ra uuid reqAddr none msg sels).2 = [] ∧
      ((request env ty rty op ra uuid reqAddr none msg sels).1 = .pending → taken = sels) := by
  obtain ⟨h1, h2⟩ := acks_request env ty rty op ra uuid reqAddr addr msg sels ha hs
  simp only [outstanding]
  rw [h1, h2, hc, if_pos rfl]
  rcases waitLoop_spec env rty addr _ hnp sels with ⟨pre, s, post, d, he, _, _, hr, hk⟩ | ⟨_, hr, hk⟩
  · exact ⟨pre ++ [s], ⟨post, by simp [he]⟩, hk, by rw [hk]; exact erase_all _, by rw [hr]; simp⟩
  · exact ⟨sels, List.prefix_refl _, hk, by rw [hk]; exact erase_all _, fun _ => rfl⟩

theorem waitNext_unacked (env : Env C) (rty : MsgType R) (addr : String) (s : Sel) :
    (waitNext env rty addr none s).acked = false := by
  cases s with
  | ctxDone => rfl
  | recv m o =>
    simp only [waitNext, Bool.false_eq_true, if_false, Option.isSome_none]
    split
    · rfl
    · split
      · rfl
      · rfl
      · split <;> rfl

/-- **C84 is violated without correlation ID**: such requests never acknowledge anything. -/
theorem C84_violated_never (env : Env C) (ty : MsgType T) (rty : MsgType R) (op : OpCfg)
    (hc : op.hasCorr = false) (ra : ReplyAddr T) (uuid reqAddr addr : String) (msg : T) (sels : List Sel)
    (ha : ra.resolve msg = .ok addr)
    (hs : (send env ty op uuid reqAddr (toSend ty op uuid msg)).res = .ret none) :
    acks (request env ty rty op ra uuid reqAddr none msg sels).2 = [] := by
  rw [(acks_request env ty rty op ra uuid reqAddr addr msg sels ha hs).1, hc, if_neg (by simp)]
  induction sels with
  | nil => rfl
  | cons s rest ih =>
    have hk := waitNext_unacked env rty addr s
    have he : stepEvs s (waitNext env rty addr none s) = [] := by
      cases s <;> simp [stepEvs, hk]
    simp only [waitLoop, he]
    split
    · rfl
    · split
      · rfl
      · exact ih

/-- So, with a broker that delivers at least once, a request is answered with the reply to the request before it: the
first one returned `d₁`, its reply is delivered again, and the next request returns `d₁` too, whatever its own reply. -/
theorem C84_violated_stale (env : Env C) (hm : env.mws = []) (ty : MsgType T) (rty : MsgType R) (op : OpCfg)
    (hc : op.hasCorr = false) (ra : ReplyAddr T) (uuid uuid' reqAddr addr addr' : String) (msg msg' : T)
    (m₁ m₂ : BrokerMessage) (d₁ : R)
    (ha : ra.resolve msg = .ok addr) (ha' : ra.resolve msg' = .ok addr')
    (hs : (send env ty op uuid reqAddr (toSend ty op uuid msg)).res = .ret none)
    (hs' : (send env ty op uuid' reqAddr (toSend ty op uuid' msg')).res = .ret none)
    (h₁ : rty.decode m₁ = (d₁, none)) :
    (request env ty rty op ra uuid reqAddr none msg [.recv m₁ true]).1 = .returned d₁ ∧
    outstanding [.recv m₁ true] (request env ty rty op ra uuid reqAddr none msg [.recv m₁ true]).2 = [m₁] ∧
    (request env ty rty op ra uuid' reqAddr none msg'
      ((outstanding [.recv m₁ true] (request env ty rty op ra uuid reqAddr none msg [.recv m₁ true]).2).map (.recv · true) ++
        [.recv m₂ true])).1 = .returned d₁ := by
  have hw : ∀ addr rest, (waitLoop env rty addr none (.recv m₁ true :: rest)).1 = .returned d₁ := by
    intro addr rest
    simp [waitLoop, waitNext, hm, executeMiddlewares, callLevel, St.start, h₁]
  have h2 : outstanding [.recv m₁ true] (request env ty rty op ra uuid reqAddr none msg [.recv m₁ true]).2 = [m₁] := by
    rw [outstanding, C84_violated_never env ty rty op hc ra uuid reqAddr addr msg _ ha hs]
    simp [received]
  refine ⟨?_, h2, ?_⟩
  · rw [(acks_request env ty rty op ra uuid reqAddr addr msg _ ha hs).2, hc, if_neg (by simp)]
    exact hw _ _
  · rw [h2, (acks_request env ty rty op ra uuid' reqAddr addr' msg' _ ha' hs').2, hc, if_neg (by simp)]
    exact hw _ _

/-- A middleware that refuses what it reads on the reply channel. -/
def refusingEnv : Env Bool where
  mws := [fun wait => .ret (if wait then some (.other "refused") else none)]
  ctx := fun _ _ _ => false
  publish := fun _ _ _ => .ret none
  waitCtx := fun _ _ _ => true

/-- **C84 is violated by refused replies**: a reply to this very request that a middleware refuses is acknowledged all the
same, before the middlewares run, and lost: the request waits for ever. -/
theorem C84_violated_lost (more : List Sel) (hmore : ∀ s ∈ more, s = .ctxDone ∨ s = .recv .zero false) :
    (request refusingEnv exTy exTy ⟨true, false⟩ (.fixed "back") "a" "chan" none ("", [1])
      (.recv ⟨some [("corr", [97])], some [5]⟩ true :: more)).1 = .pending ∧
    acks (request refusingEnv exTy exTy ⟨true, false⟩ (.fixed "back") "a" "chan" none ("", [1])
      [.recv ⟨some [("corr", [97])], some [5]⟩ true]).2 = [⟨some [("corr", [97])], some [5]⟩] ∧
    (exTy.decode ⟨some [("corr", [97])], some [5]⟩).1 = ("a", [5]) := by
  refine ⟨?_, by decide, by decide⟩
  exact C23_violated_forever refusingEnv exTy exTy ⟨true, false⟩ (.fixed "back") "a" "chan" ("", [1])
    [.recv ⟨some [("corr", [97])], some [5]⟩ true] (by decide) more hmore

/-- Non-vacuity of the partial theorem: a request that skips another's reply and returns its own acknowledges both. -/
example : (request exEnv exTy exTy ⟨true, false⟩ (.fixed "back") "a" "chan" none ("", [1])
      [.recv ⟨some [("corr", [98])], some [4]⟩ true, .recv ⟨some [("corr", [97])], some [5]⟩ true]).1 = .returned ("a", [5]) ∧
    acks (request exEnv exTy exTy ⟨true, false⟩ (.fixed "back") "a" "chan" none ("", [1])
      [.recv ⟨some [("corr", [98])], some [4]⟩ true, .recv ⟨some [("corr", [97])], some [5]⟩ true]).2 =
      [⟨some [("corr", [98])], some [4]⟩, ⟨some [("corr", [97])], some [5]⟩] := by decide

/-- Non-vacuity of the violation: two requests without correlation ID, answered `[5]` and `[6]`; both return `[5]`. -/
example : (send { exEnv with mws := [] } exTy ⟨false, false⟩ "a" "chan" (toSend exTy ⟨false, false⟩ "a" ("", [1]))).res = .ret none ∧
    (request { exEnv with mws := [] } exTy exTy ⟨false, false⟩ (.fixed "back") "a" "chan" none ("", [2])
      [.recv ⟨some [("corr", [97])], some [5]⟩ true, .recv ⟨some [("corr", [97])], some [6]⟩ true]).1 = .returned ("a", [5]) := by
  decide

end Verif.Send
