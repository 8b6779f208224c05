import Verif.Model.Context
import Verif.Proofs.Middleware

/-! # C79 and C80: what middlewares, handlers and logs are told about a message -/

namespace Verif.Context

open Verif.Middleware
open Verif.Send (GoErr)

/-! ## The specification -/

/-- The contexts that middlewares and the operation were given. -/
def given {C M E : Type} : List (Ev C M E) → List C
  | [] => []
  | .enter _ c :: t => c :: given t
  | .cb c _ :: t => c :: given t
  | _ :: t => given t

/-- A middleware that calls `next` only with contexts satisfying `P`. -/
inductive OnlyNext {C M E : Type} (P : C → Prop) : MProg C M E → Prop
  | ret (e : Option E) : OnlyNext P (.ret e)
  | panic : OnlyNext P .panic
  | read {k : M → MProg C M E} (h : ∀ m, OnlyNext P (k m)) : OnlyNext P (.read k)
  | write (m : M) {k : MProg C M E} (h : OnlyNext P k) : OnlyNext P (.write m k)
  | next {ctx : C} {k : Option E → MProg C M E} (hc : P ctx) (h : ∀ e, OnlyNext P (k e)) : OnlyNext P (.next ctx k)
  | nextR {ctx : C} {k : Res E → MProg C M E} (hc : P ctx) (h : ∀ e, OnlyNext P (k e)) : OnlyNext P (.nextR ctx k)

/-- The six keys of the package. -/
def ourKeys : List Key := [versionKey, providerKey, channelKey, directionKey, brokerMessageKey, correlationIDKey]

/-- Both contexts have the same values for the keys of the package. -/
def SameOurs (c c' : Ctx) : Prop := ∀ k ∈ ourKeys, c'.value k = c.value k

/-- A middleware that passes its own context on, up to values that are not those of the package. -/
def Respectful (mw : Mw Ctx BrokerMessage GoErr) : Prop := ∀ c, OnlyNext (SameOurs c) (mw c)

/-- What a context has to say of a message: the version of the document, the controller, the address, what happens to the
message, the message as a text, and its correlation ID, if it has one. -/
structure Told (cfg : Cfg) (addr direction text : String) (corr : Option String) (c : Ctx) : Prop where
  version : c.value ⟨"extensions.ContextKey", "asyncapi-version"⟩ = some (.str cfg.version)
  provider : c.value ⟨"extensions.ContextKey", "asyncapi-provider"⟩ = some (.str cfg.provider)
  channel : c.value ⟨"extensions.ContextKey", "asyncapi-channel"⟩ = some (.str addr)
  direction : c.value ⟨"extensions.ContextKey", "asyncapi-operation"⟩ = some (.str direction)
  message : c.value ⟨"extensions.ContextKey", "asyncapi-broker-message"⟩ = some (.str text)
  corr : c.value ⟨"extensions.ContextKey", "asyncapi-correlationID"⟩ = corr.map .str

/-! ## Contexts through a chain of middlewares -/

theorem given_append {C M E : Type} (a b : List (Ev C M E)) : given (a ++ b) = given a ++ given b := by
  induction a with
  | nil => rfl
  | cons e t ih => cases e <;> simp [given, ih]

variable {C M X E : Type}

/-- Everyone was given a good context, and the outside world is good. -/
def Good (P : C → Prop) (Q : X → Prop) (s : St C M X E) : Prop := (∀ c ∈ given s.trace, P c) ∧ Q s.x

theorem runProg_good {P : C → Prop} {Q : X → Prop} {next : C → St C M X E → Res E × St C M X E}
    (hn : ∀ c s, P c → Good P Q s → Good P Q (next c s).2) (p : MProg C M E) (hp : OnlyNext P p) :
    ∀ s, Good P Q s → Good P Q (runProg next p s).2 := by
  induction hp with
  | ret e => intro s h; exact h
  | panic => intro s h; exact h
  | read h ih => intro s hs; exact ih s.msg s hs
  | write m h ih =>
    intro s hs
    refine ih _ ⟨?_, hs.2⟩
    simpa [St.log, given_append, given] using hs.1
  | next hc h ih =>
    rename_i ctx k
    intro s hs
    have := hn ctx s hc hs
    simp only [runProg]
    split
    · rename_i e s' heq; rw [heq] at this; exact ih e s' this
    · rename_i s' heq; rw [heq] at this; exact this
  | nextR hc h ih =>
    rename_i ctx k
    intro s hs
    exact ih _ _ (hn ctx s hc hs)

theorem callLevel_good {P : C → Prop} {Q : X → Prop} (cb : Option (Callback C M X E))
    (hcb : ∀ f, cb = some f → ∀ c m x, P c → Q x → Q (f c m x).2) :
    ∀ (mws : List (Mw C M E)), (∀ mw ∈ mws, ∀ c, P c → OnlyNext P (mw c)) → ∀ (lvl : Nat) (c : C) (s : St C M X E),
      P c → Good P Q s → Good P Q (callLevel cb mws lvl c s).2 := by
  intro mws
  induction mws with
  | nil =>
    intro _ lvl c s hc hs
    unfold callLevel
    cases hb : cb with
    | none => exact hs
    | some f =>
      simp only
      split
      · refine ⟨?_, hcb f hb _ _ _ hc hs.2⟩
        intro c' hm
        simp only [St.log, St.setCalled, given_append, given, List.mem_append, List.mem_singleton] at hm
        rcases hm with (hm | hm) | hm
        · exact hs.1 c' hm
        · subst hm; exact hc
        · cases hm
      · exact hs
  | cons mw rest ih =>
    intro hm lvl c s hc hs
    have ih' := ih (fun m h => hm m (List.mem_cons_of_mem _ h))
    have h1 : Good P Q ((s.setCalled lvl).log (.enter lvl c)) := by
      refine ⟨?_, hs.2⟩
      intro c' h
      simp only [St.log, St.setCalled, given_append, given, List.mem_append, List.mem_singleton] at h
      rcases h with h | h
      · exact hs.1 c' h
      · subst h; exact hc
    have h2 := runProg_good (next := callLevel cb rest (lvl + 1)) (fun c s hc hs => ih' _ c s hc hs) (mw c)
      (hm mw List.mem_cons_self c hc) _ h1
    have hx : ∀ (s' : St C M X E) (r : Res E), Good P Q s' → Good P Q (s'.log (.exit lvl r)) := by
      intro s' r h
      exact ⟨by simpa [St.log, given_append, given] using h.1, h.2⟩
    unfold callLevel
    split
    · simp only
      split
      · rename_i s2 heq; rw [heq] at h2; exact ih' _ _ _ hc (hx _ _ h2)
      · rename_i r s2 _ heq; rw [heq] at h2; exact hx _ _ h2
    · exact hs

theorem executeMiddlewares_good {P : C → Prop} {Q : X → Prop} (cb : Option (Callback C M X E))
    (hcb : ∀ f, cb = some f → ∀ c m x, P c → Q x → Q (f c m x).2) (mws : List (Mw C M E))
    (hm : ∀ mw ∈ mws, ∀ c, P c → OnlyNext P (mw c)) (c : C) (m : M) (x : X) (hc : P c) (hx : Q x) :
    Good P Q (executeMiddlewares mws c m x cb).2 :=
  callLevel_good cb hcb mws hm 0 c _ hc ⟨by simp [St.start, given], hx⟩

theorem OnlyNext.imp {P P' : C → Prop} (h : ∀ c, P c → P' c) {p : MProg C M E} (hp : OnlyNext P p) : OnlyNext P' p := by
  induction hp with
  | ret e => exact .ret e
  | panic => exact .panic
  | read _ ih => exact .read ih
  | write m _ ih => exact .write m ih
  | next hc _ ih => exact .next (h _ hc) ih
  | nextR hc _ ih => exact .nextR (h _ hc) ih

theorem Told.of_same {cfg : Cfg} {addr direction text : String} {corr : Option String} {c c' : Ctx}
    (h : Told cfg addr direction text corr c) (hs : SameOurs c c') : Told cfg addr direction text corr c' := by
  have e : ∀ k ∈ ourKeys, c'.value k = c.value k := hs
  exact ⟨(e versionKey (by decide)).trans h.version, (e providerKey (by decide)).trans h.provider,
    (e channelKey (by decide)).trans h.channel, (e directionKey (by decide)).trans h.direction,
    (e brokerMessageKey (by decide)).trans h.message, (e correlationIDKey (by decide)).trans h.corr⟩

theorem respectful_told {cfg : Cfg} {addr direction text : String} {corr : Option String}
    {mws : List (Mw Ctx BrokerMessage GoErr)} (hm : ∀ mw ∈ mws, Respectful mw) :
    ∀ mw ∈ mws, ∀ c, Told cfg addr direction text corr c → OnlyNext (Told cfg addr direction text corr) (mw c) :=
  fun mw h c hc => (hm mw h c).imp (fun _ hs => hc.of_same hs)

/-! ## The contexts that are made -/

theorem value_withValue (c : Ctx) (k k' : Key) (v : Val) :
    (c.withValue k v).value k' = if k = k' then some v else c.value k' := by
  unfold Ctx.value Ctx.withValue
  by_cases h : k = k'
  · simp [h]
  · simp [h]

theorem value_addCorr (c : Ctx) (corr : Option String) (k : Key) (hk : k ≠ correlationIDKey) :
    (addCorr c corr).value k = c.value k := by
  cases corr with
  | none => rfl
  | some id => rw [addCorr, value_withValue, if_neg (fun h => hk h.symm)]

theorem value_addCorr_self (c : Ctx) (corr : Option String) :
    (addCorr c corr).value correlationIDKey = (corr.map Val.str).or (c.value correlationIDKey) := by
  cases corr with
  | none => rfl
  | some id => simp [addCorr, value_withValue]

theorem value_addValues (cfg : Cfg) (c : Ctx) (addr : String) (k : Key) :
    (addValues cfg c addr).value k =
      if k = channelKey then some (.str addr) else if k = providerKey then some (.str cfg.provider)
      else if k = versionKey then some (.str cfg.version) else c.value k := by
  simp only [addValues, value_withValue, eq_comm]

/-- The common part of the contexts made. -/
theorem told_made (cfg : Cfg) (base : Ctx) (addr direction text : String) (corr : Option String)
    (hb : base.value correlationIDKey = none ∨ corr.isSome) :
    Told cfg addr direction text corr
      ((addCorr ((addValues cfg base addr).withValue directionKey (.str direction)) corr).withValue brokerMessageKey
        (.str text)) := by
  refine ⟨?_, ?_, ?_, ?_, ?_, ?_⟩
  · show Ctx.value _ versionKey = _
    rw [value_withValue, if_neg (by decide), value_addCorr _ _ _ (by decide), value_withValue, if_neg (by decide),
      value_addValues, if_neg (by decide), if_neg (by decide), if_pos rfl]
  · show Ctx.value _ providerKey = _
    rw [value_withValue, if_neg (by decide), value_addCorr _ _ _ (by decide), value_withValue, if_neg (by decide),
      value_addValues, if_neg (by decide), if_pos rfl]
  · show Ctx.value _ channelKey = _
    rw [value_withValue, if_neg (by decide), value_addCorr _ _ _ (by decide), value_withValue, if_neg (by decide),
      value_addValues, if_pos rfl]
  · show Ctx.value _ directionKey = _
    rw [value_withValue, if_neg (by decide), value_addCorr _ _ _ (by decide), value_withValue, if_pos rfl]
  · show Ctx.value _ brokerMessageKey = _
    rw [value_withValue, if_pos rfl]
  · show Ctx.value _ correlationIDKey = _
    rw [value_withValue, if_neg (by decide), value_addCorr_self, value_withValue, if_neg (by decide), value_addValues,
      if_neg (by decide), if_neg (by decide), if_neg (by decide)]
    rcases hb with hb | hb
    · rw [hb]; cases corr <;> rfl
    · cases corr with
      | none => cases hb
      | some id => rfl

/-! ## C79 -/

/-- The message a call of `Send…` publishes: the one given, with the identifier drawn if it lacks one. -/
def outgoing {T : Type} (ty : Send.MsgType T) (op : Send.OpCfg) (uuid : String) (msg : T) : T :=
  if op.hasCorr = true ∧ ty.corr msg = "" then ty.setCorr msg uuid else msg

theorem send_trace {T : Type} {C : Type} (env : Send.Env C) (ty : Send.MsgType T) (op : Send.OpCfg) (uuid addr : String) (msg : T) :
    (Send.send env ty op uuid addr msg).trace = [] ∨ ∃ bm, ty.encode (outgoing ty op uuid msg) = .ok bm ∧
      (Send.send env ty op uuid addr msg).trace =
        (executeMiddlewares env.mws (env.ctx addr (if op.hasCorr then some (ty.corr (outgoing ty op uuid msg)) else none) bm)
          bm [] (some (Send.pubCallback env addr))).2.trace := by
  have e : (if (op.hasCorr && (ty.corr msg == "")) = true then ty.setCorr msg uuid else msg) = outgoing ty op uuid msg := by
    simp [outgoing]
  unfold Send.send
  rw [e]
  split
  · exact .inl rfl
  · cases h : ty.encode (outgoing ty op uuid msg) with
    | error _ => left; simp only [h]
    | ok bm => right; exact ⟨bm, rfl, by simp only [h]⟩

/-- **C79, publications.** Whatever the context of the caller, every middleware and the broker are told the truth about
the message sent, through any number of middlewares that pass their context on. Missing: messages without correlation ID,
when the context of the caller has one (`C79_violated_stale`). -/
theorem C79_publication_partial {T : Type} (cfg : Cfg) (text : BrokerMessage → String)
    (mws : List (Mw Ctx BrokerMessage GoErr)) (publish : Ctx → String → BrokerMessage → Res GoErr) (caller : Ctx)
    (ty : Send.MsgType T) (op : Send.OpCfg) (uuid addr : String) (msg : T) (hm : ∀ mw ∈ mws, Respectful mw)
    (hc : op.hasCorr = true ∨ caller.value correlationIDKey = none) (c : Ctx)
    (hg : c ∈ given (Send.send (sendEnv cfg text mws publish caller) ty op uuid addr msg).trace) :
    ∃ bm, ty.encode (outgoing ty op uuid msg) = .ok bm ∧
      Told cfg addr "publication" (text bm) (if op.hasCorr then some (ty.corr (outgoing ty op uuid msg)) else none) c := by
  rcases send_trace (sendEnv cfg text mws publish caller) ty op uuid addr msg with h | ⟨bm, he, h⟩
  · rw [h] at hg; cases hg
  · refine ⟨bm, he, ?_⟩
    rw [h] at hg
    refine (executeMiddlewares_good (Q := fun _ => True) _ (fun _ _ _ _ _ _ _ => trivial) mws (respectful_told hm) _ _ _
      ?_ trivial).1 c hg
    refine told_made cfg caller addr _ _ _ ?_
    rcases hc with hc | hc
    · right; simp [hc]
    · exact .inl hc

theorem handle_trace {C D E : Type} (env : Listen.Env C D E) (m : BrokerMessage) :
    (Listen.handle env m).trace =
      (executeMiddlewares env.mws (env.ctx m) m Listen.W.start (some (Listen.callback env))).2.trace := by
  unfold Listen.handle
  split <;> simp_all

/-- **C79, receptions.** Whatever the handlers and the error handler do, middlewares are told the truth about the message
received. -/
theorem C79_reception {D : Type} (cfg : Cfg) (text : BrokerMessage → String) (mws : List (Mw Ctx BrokerMessage GoErr))
    (addr : String) (decode : BrokerMessage → Except GoErr D) (corr : Option (D → String)) (fn : Ctx → D → Res GoErr)
    (eh : BrokerMessage → GoErr → List Ack.Kind) (hm : ∀ mw ∈ mws, Respectful mw) (bm : BrokerMessage) (c : Ctx)
    (hg : c ∈ given (Listen.handle (listenEnv cfg text mws addr decode corr fn eh) bm).trace) :
    Told cfg addr "reception" (text bm) none c := by
  rw [handle_trace] at hg
  exact (executeMiddlewares_good (Q := fun _ => True) _ (fun _ _ _ _ _ _ _ => trivial) mws (respectful_told hm)
    (receiveCtx cfg text addr bm) bm Listen.W.start (told_made cfg background addr "reception" (text bm) none (.inl rfl))
    trivial).1 c hg

/-- The correlation ID a handler has to be told of: that of the message it is given, unless empty. -/
def corrOf {D : Type} (corr : Option (D → String)) (d : D) : Option String :=
  match corr with
  | some f => if f d = "" then none else some (f d)
  | none => none

theorem told_handlerCtx {D : Type} (corr : Option (D → String)) {cfg : Cfg} {addr direction text : String} {c : Ctx} (d : D)
    (h : Told cfg addr direction text none c) : Told cfg addr direction text (corrOf corr d) (handlerCtx corr c d) := by
  cases corr with
  | none => exact h
  | some f =>
    by_cases hf : f d = ""
    · simp only [handlerCtx, corrOf, if_pos hf]; exact h
    · simp only [handlerCtx, corrOf, if_neg hf]
      refine ⟨?_, ?_, ?_, ?_, ?_, ?_⟩
      · rw [value_withValue, if_neg (by decide)]; exact h.version
      · rw [value_withValue, if_neg (by decide)]; exact h.provider
      · rw [value_withValue, if_neg (by decide)]; exact h.channel
      · rw [value_withValue, if_neg (by decide)]; exact h.direction
      · rw [value_withValue, if_neg (by decide)]; exact h.message
      · rw [value_withValue, if_pos (by decide)]; rfl

theorem mem_foldl_doAck {C D E : Type} (e : Listen.LEv C D E) (he : ∀ k, e ≠ .ackCall k) (ks : List Ack.Kind) :
    ∀ (w : Listen.W C D E), e ∈ (ks.foldl Listen.W.doAck w).log → e ∈ w.log := by
  induction ks with
  | nil => intro w h; exact h
  | cons k ks ih =>
    intro w h
    have := ih _ h
    simp only [Listen.W.doAck, List.mem_append, List.mem_singleton] at this
    rcases this with h | h
    · exact h
    · exact absurd h (he k)

/-- **C79, handlers.** The subscription function is told the truth about the message it is called with, its correlation ID
included. -/
theorem C79_handler {D : Type} (cfg : Cfg) (text : BrokerMessage → String) (mws : List (Mw Ctx BrokerMessage GoErr))
    (addr : String) (decode : BrokerMessage → Except GoErr D) (corr : Option (D → String)) (fn : Ctx → D → Res GoErr)
    (eh : BrokerMessage → GoErr → List Ack.Kind) (hm : ∀ mw ∈ mws, Respectful mw) (bm : BrokerMessage) (c : Ctx) (d : D)
    (r : Res GoErr) (hg : .fnCall c d r ∈ (Listen.handle (listenEnv cfg text mws addr decode corr fn eh) bm).w.log) :
    Told cfg addr "reception" (text bm) (corrOf corr d) c := by
  have key := (executeMiddlewares_good
    (Q := fun w : Listen.W Ctx D GoErr => ∀ c d r, .fnCall c d r ∈ w.log → Told cfg addr "reception" (text bm) (corrOf corr d) c)
    (some (Listen.callback (listenEnv cfg text mws addr decode corr fn eh))) (by
      intro f hf c m w hc hw
      cases hf
      intro c' d' r' hmem
      unfold Listen.callback at hmem
      have old : ∀ (d : D) (r : Res GoErr), .fnCall c' d' r' ∈ w.log ++ [.fnCall (handlerCtx corr c d) d r] →
          Told cfg addr "reception" (text bm) (corrOf corr d') c' := by
        intro d r h
        rw [List.mem_append] at h
        rcases h with h | h
        · exact hw _ _ _ h
        · simp only [List.mem_singleton, Listen.LEv.fnCall.injEq] at h
          obtain ⟨rfl, rfl, rfl⟩ := h
          exact told_handlerCtx corr _ hc
      split at hmem
      · exact hw _ _ _ hmem
      · rename_i d hd
        simp only at hmem
        split at hmem
        · simp only [Listen.W.doAck] at hmem
          rw [List.mem_append] at hmem
          rcases hmem with h | h
          · exact old d _ h
          · simp at h
        · exact old d _ hmem
        · exact old d _ hmem)
    mws (respectful_told hm) (receiveCtx cfg text addr bm) bm Listen.W.start
    (told_made cfg background addr "reception" (text bm) none (.inl rfl)) (by simp [Listen.W.start])).2
  refine key c d r ?_
  unfold Listen.handle at hg
  generalize ho : executeMiddlewares (listenEnv cfg text mws addr decode corr fn eh).mws _ bm Listen.W.start _ = o at hg
  have ho' : (executeMiddlewares mws (receiveCtx cfg text addr bm) bm Listen.W.start
    (some (Listen.callback (listenEnv cfg text mws addr decode corr fn eh)))) = o := ho
  rw [ho']
  split at hg
  · exact hg
  · simp only [Listen.W.doAck, List.mem_append, List.mem_singleton, reduceCtorEq, or_false] at hg
    have := mem_foldl_doAck _ (by simp) _ _ hg
    simpa using this
  · exact hg

theorem waitNext_trace {C T : Type} (env : Send.Env C) (ty : Send.MsgType T) (addr : String) (want : Option String)
    (bm : BrokerMessage) (isOpen : Bool) :
    (Send.waitNext env ty addr want (.recv bm isOpen)).trace = [] ∨
    (Send.waitNext env ty addr want (.recv bm isOpen)).trace =
      (executeMiddlewares env.mws (env.waitCtx addr want bm) bm () none).2.trace := by
  have fin : ∀ o : Res GoErr × St C BrokerMessage Unit GoErr,
      (match o with
        | (.panicked, s) => ({ acked := want.isSome, panicked := true, trace := s.trace } : Send.WaitOut C T)
        | (.ret (some e), s) => { err := some e, acked := want.isSome, trace := s.trace }
        | (.ret none, s) =>
          match ty.decode s.msg with
          | (_, some e) => { err := some e, acked := want.isSome, trace := s.trace }
          | (d, none) => { msg := some d, acked := want.isSome, trace := s.trace }).trace = o.2.trace := by
    intro o
    obtain ⟨r, s⟩ := o
    cases r with
    | panicked => rfl
    | ret e =>
      cases e with
      | some e => rfl
      | none => simp only; split <;> rfl
  rw [Send.waitNext.eq_def]
  simp only
  split
  · exact .inl rfl
  · cases want with
    | none => exact .inr (fin _)
    | some id =>
      simp only
      split
      · exact .inl rfl
      · exact .inr (fin _)

/-- **C79, replies.** Middlewares are told the truth about the reply a request gets, with the correlation ID of the request
(equal to that of the reply, C22). -/
theorem C79_reply {T : Type} (cfg : Cfg) (text : BrokerMessage → String) (mws : List (Mw Ctx BrokerMessage GoErr))
    (publish : Ctx → String → BrokerMessage → Res GoErr) (caller : Ctx) (ty : Send.MsgType T) (addr : String)
    (want : Option String) (hm : ∀ mw ∈ mws, Respectful mw) (bm : BrokerMessage) (isOpen : Bool) (c : Ctx)
    (hg : c ∈ given (Send.waitNext (sendEnv cfg text mws publish caller) ty addr want (.recv bm isOpen)).trace) :
    Told cfg addr "wait-for" (text bm) want c := by
  rcases waitNext_trace (sendEnv cfg text mws publish caller) ty addr want bm isOpen with h | h
  · rw [h] at hg; cases hg
  · rw [h] at hg
    exact (executeMiddlewares_good (Q := fun _ => True) none (fun _ _ _ _ _ _ _ => trivial) mws (respectful_told hm)
      (waitCtx cfg text addr want bm) bm () (told_made cfg background addr "wait-for" (text bm) want (.inl rfl)) trivial).1
      c hg

/-- **C79, values of the user.** Values under keys of other types, even of the same name, deadline and cancellation reach
the first middleware of a publication. -/
theorem C79_user_values (cfg : Cfg) (text : BrokerMessage → String) (caller : Ctx) (addr : String) (corr : Option String)
    (bm : BrokerMessage) (k : Key) (hk : k.type ≠ "extensions.ContextKey") :
    (sendCtx cfg text caller addr corr bm).value k = caller.value k ∧
    (sendCtx cfg text caller addr corr bm).follows = caller.follows := by
  have ne : ∀ k' ∈ ourKeys, k' ≠ k := by
    intro k' hk' h
    rw [h] at hk'
    simp only [ourKeys, List.mem_cons, List.not_mem_nil, or_false] at hk'
    rcases hk' with rfl | rfl | rfl | rfl | rfl | rfl <;> exact hk rfl
  have n1 := ne versionKey (by decide)
  have n2 := ne providerKey (by decide)
  have n3 := ne channelKey (by decide)
  have n4 := ne directionKey (by decide)
  have n5 := ne brokerMessageKey (by decide)
  have n6 := ne correlationIDKey (by decide)
  refine ⟨?_, ?_⟩
  · rw [sendCtx, value_withValue, if_neg n5, value_addCorr _ _ _ n6.symm, value_withValue,
      if_neg n4, value_addValues, if_neg n3.symm, if_neg n2.symm,
      if_neg n1.symm]
  · cases corr <;> rfl

/-- Receptions and replies know nothing of the context given to `SubscribeTo…` or `Request…`. -/
theorem C79_received_apart (cfg : Cfg) (text : BrokerMessage → String) (addr : String) (want : Option String)
    (bm : BrokerMessage) (k : Key) (hk : k.type ≠ "extensions.ContextKey") :
    (receiveCtx cfg text addr bm).value k = none ∧ (receiveCtx cfg text addr bm).follows = none ∧
    (waitCtx cfg text addr want bm).value k = none ∧ (waitCtx cfg text addr want bm).follows = none := by
  have ne : ∀ k' ∈ ourKeys, k' ≠ k := by
    intro k' hk' h
    rw [h] at hk'
    simp only [ourKeys, List.mem_cons, List.not_mem_nil, or_false] at hk'
    rcases hk' with rfl | rfl | rfl | rfl | rfl | rfl <;> exact hk rfl
  have n1 := ne versionKey (by decide)
  have n2 := ne providerKey (by decide)
  have n3 := ne channelKey (by decide)
  have n4 := ne directionKey (by decide)
  have n5 := ne brokerMessageKey (by decide)
  have n6 := ne correlationIDKey (by decide)
  refine ⟨?_, rfl, ?_, ?_⟩
  · rw [receiveCtx, value_withValue, if_neg n5, value_withValue, if_neg n4, value_addValues,
      if_neg n3.symm, if_neg n2.symm, if_neg n1.symm]
    rfl
  · rw [waitCtx, value_withValue, if_neg n5, value_addCorr _ _ _ n6.symm, value_withValue,
      if_neg n4, value_addValues, if_neg n3.symm, if_neg n2.symm,
      if_neg n1.symm]
    rfl
  · cases want <;> rfl

/-- **C79, versions.** Through the versioning wrapper, the message given to the broker carries the version of the document
of the controller, whatever context the caller used. -/
theorem C79_version (cfg : Cfg) (addr direction text : String) (corr : Option String) (c : Ctx)
    (h : Told cfg addr direction text corr c) (vcfg : Versioning.Cfg) (bytes : String → Bytes) (hs : GoMap String Bytes)
    (p : Option Bytes) :
    wrapperPublish vcfg bytes c ⟨some hs, p⟩ = .sent ⟨some (hs.put vcfg.headerKey (bytes cfg.version)), p⟩ := by
  have : stringAt c versionKey = some cfg.version := by
    unfold stringAt
    rw [show versionKey = ⟨"extensions.ContextKey", "asyncapi-version"⟩ from by decide, h.version]
  simp [wrapperPublish, this, Versioning.publish]

/-! ### A case -/

/-- A middleware adding a value of its own. -/
def adding : Mw Ctx BrokerMessage GoErr := fun c => .next (c.withValue ⟨"string", "asyncapi-channel"⟩ (.other 3)) .ret

theorem adding_respectful : Respectful adding := by
  intro c
  refine .next ?_ (fun e => .ret e)
  intro k hk
  rw [value_withValue, if_neg]
  intro h
  rw [← h] at hk
  revert hk
  decide

/-- Orders with a correlation ID and a body. -/
def orderTy : Send.MsgType (String × Bytes) where
  new := ("", [])
  corr := (·.1)
  setCorr := fun m id => (id, m.2)
  encode := fun m => .ok ⟨some [("correlation_id", m.1.toUTF8.toList)], some m.2⟩
  decode := fun m => (("", m.payload.getD []), none)

/-- Notes, without correlation ID. -/
def noteTy : Send.MsgType Bytes where
  new := []
  corr := fun _ => ""
  setCorr := fun m _ => m
  encode := fun m => .ok ⟨some [], some m⟩
  decode := fun m => (m.payload.getD [], none)

/-- The text of a message, here the number of bytes. -/
def exText (m : BrokerMessage) : String := toString (m.payload.getD []).length

/-- A message is sent with a context having a value and a deadline of the user. -/
def exCaller : Ctx := (⟨some 5, []⟩ : Ctx).withValue ⟨"main.key", "user"⟩ (.other 1)

example : given (Send.send (sendEnv ⟨"1.0.0", "app"⟩ exText [logging, adding] (fun _ _ _ => .ret none) exCaller) orderTy
    ⟨true, false⟩ "u-1" "orders" ("", [1, 2])).trace =
    let c := sendCtx ⟨"1.0.0", "app"⟩ exText exCaller "orders" (some "u-1")
      ⟨some [("correlation_id", [117, 45, 49])], some [1, 2]⟩
    [c, c, c.withValue ⟨"string", "asyncapi-channel"⟩ (.other 3)] := by decide +kernel

example : Told ⟨"1.0.0", "app"⟩ "orders" "publication" "2" (some "u-1")
    (sendCtx ⟨"1.0.0", "app"⟩ exText exCaller "orders" (some "u-1") ⟨some [("correlation_id", [117, 45, 49])], some [1, 2]⟩) :=
  told_made _ _ _ _ _ _ (.inr rfl)

/-- A reply to a request is given to the middlewares. -/
example : given (Send.waitNext (sendEnv ⟨"1.0.0", "app"⟩ exText [adding, adding] (fun _ _ _ => .ret none) exCaller) noteTy
    "replies" none (.recv ⟨some [], some [1, 2]⟩ true)).trace =
    let c := waitCtx ⟨"1.0.0", "app"⟩ exText "replies" none ⟨some [], some [1, 2]⟩
    [c, c.withValue ⟨"string", "asyncapi-channel"⟩ (.other 3)] := by decide +kernel

/-! ### Violations -/

/-- **C79 violated.** A message without correlation ID sent with a context that has one, for instance that of a handler, is
reported under it: for every controller, address and message. -/
theorem C79_violated_stale (cfg : Cfg) (text : BrokerMessage → String) (caller : Ctx) (addr : String) (bm : BrokerMessage)
    (id : String) (h : caller.value correlationIDKey = some (.str id)) :
    (sendCtx cfg text caller addr none bm).value correlationIDKey = some (.str id) := by
  rw [sendCtx, value_withValue, if_neg (by decide), value_addCorr_self, value_withValue, if_neg (by decide), value_addValues,
    if_neg (by decide), if_neg (by decide), if_neg (by decide), h]
  rfl

/-- The handler of an order sends a note with the context it was given: all middlewares are told the note has the
correlation ID of the order. -/
theorem C79_violated : ∃ (c : Ctx) (m : String × Bytes) (r : Res GoErr),
    .fnCall c m r ∈ (Listen.handle (listenEnv ⟨"1.0.0", "app"⟩ exText [logging] "orders"
      (fun b => .ok ("o-7", b.payload.getD [])) (some (·.1)) (fun _ _ => .ret none) (fun _ _ => []))
      ⟨some [], some [1]⟩).w.log ∧
    (given (Send.send (sendEnv ⟨"1.0.0", "app"⟩ exText [logging] (fun _ _ _ => .ret none) c) noteTy ⟨false, false⟩ "u-1"
      "notes" [9]).trace).map (·.value correlationIDKey) = [some (.str "o-7"), some (.str "o-7")] := by
  refine ⟨handlerCtx (some (·.1)) (receiveCtx ⟨"1.0.0", "app"⟩ exText "orders" ⟨some [], some [1]⟩) ("o-7", [1]), ("o-7", [1]),
    .ret none, ?_, by decide +kernel⟩
  have : (Listen.handle (listenEnv ⟨"1.0.0", "app"⟩ exText [logging] "orders"
      (fun b => .ok ("o-7", b.payload.getD [])) (some (·.1)) (fun _ _ => .ret none) (fun _ _ => []))
      ⟨some [], some [1]⟩).w.log = [.fnCall (handlerCtx (some (·.1)) (receiveCtx ⟨"1.0.0", "app"⟩ exText "orders"
        ⟨some [], some [1]⟩) ("o-7", [1])) ("o-7", [1]) (.ret none), .ackCall .ack] := rfl
  rw [this]
  exact List.mem_cons_self

/-- The logging middleware logs every publication and every reception once, and nothing else: no reply to a request, and
nothing when the context holds no direction; whatever else contexts hold. -/
theorem C79_logged (cfg : Cfg) (addr text : String) (corr : Option String) (c : Ctx) :
    (Told cfg addr "publication" text corr c → logged c = ["Published a message"]) ∧
    (Told cfg addr "reception" text corr c → logged c = ["Received a message"]) ∧
    (Told cfg addr "wait-for" text corr c → logged c = []) ∧
    ((∀ d : String, c.value ⟨"extensions.ContextKey", "asyncapi-operation"⟩ ≠ some (.str d)) → logged c = []) := by
  have e : directionKey = ⟨"extensions.ContextKey", "asyncapi-operation"⟩ := by decide
  refine ⟨fun h => ?_, fun h => ?_, fun h => ?_, fun h => ?_⟩
  iterate 3 (have := h.direction; rw [← e] at this; simp [logged, equals, stringAt, this])
  rw [← e] at h
  have hs : stringAt c directionKey = none := by
    unfold stringAt
    split
    · rename_i s hv; exact absurd hv (h s)
    · rfl
  simp [logged, equals, hs]

example : logged background = [] := by decide

/-! ## C80 -/

theorem holds_withValue (c : Ctx) (k : Key) (m : BrokerMessage) : (c.withValue k (.message m)).holds = m :: c.holds := rfl

theorem holds_withValue_str (c : Ctx) (k : Key) (s : String) : (c.withValue k (.str s)).holds = c.holds := rfl

/-- A message the wrapper refuses: without version and no default, or of a version nobody subscribed to. -/
def refused (cfg : Versioning.Cfg) (registered : Bytes → Bool) (m : BrokerMessage) : Bool :=
  match Versioning.versionOf cfg m with
  | none => true
  | some v => !registered v

/-- **C80 violated.** After any history of messages, the listener of the versioning wrapper holds on to every message it
refused, for ever, and to no other. -/
theorem C80_violated_retained (cfg : Versioning.Cfg) (registered : Bytes → Bool) (text : Bytes → String)
    (ms : List BrokerMessage) (c : Ctx) :
    (ms.foldl (listenerCtx cfg registered text) c).holds = (ms.filter (refused cfg registered)).reverse ++ c.holds := by
  induction ms generalizing c with
  | nil => rfl
  | cons m ms ih =>
    rw [List.foldl_cons, ih, List.filter_cons]
    unfold listenerCtx refused
    cases h : Versioning.versionOf cfg m with
    | none => simp [holds_withValue]
    | some v =>
      cases hr : registered v with
      | true => simp [hr]
      | false => simp [hr, holds_withValue, holds_withValue_str]

/-- **C80, partial.** It holds on to nothing as long as it refuses nothing. -/
theorem C80_partial (cfg : Versioning.Cfg) (registered : Bytes → Bool) (text : Bytes → String) (ms : List BrokerMessage)
    (c : Ctx) (h : ∀ m ∈ ms, refused cfg registered m = false) : ms.foldl (listenerCtx cfg registered text) c = c := by
  induction ms with
  | nil => rfl
  | cons m ms ih =>
    have hm := h m List.mem_cons_self
    have : listenerCtx cfg registered text c m = c := by
      unfold refused at hm
      unfold listenerCtx
      cases hv : Versioning.versionOf cfg m with
      | none => rw [hv] at hm; cases hm
      | some v => rw [hv] at hm; simp only at hm ⊢; rw [if_pos (by simpa using hm)]
    rw [List.foldl_cons, this]
    exact ih (fun m' h' => h m' (List.mem_cons_of_mem _ h'))

/-- A thousand messages without version are all kept, one of version 1 is not. -/
example : ((List.replicate 1000 (⟨some [], some [0]⟩ : BrokerMessage) ++ [(⟨some [("v", [1])], none⟩ : BrokerMessage)]).foldl
    (listenerCtx ⟨"v", none⟩ (fun v => v == [1]) (fun _ => "")) background).holds.length = 1000 := by
  rw [C80_violated_retained]
  decide +kernel

end Verif.Context
