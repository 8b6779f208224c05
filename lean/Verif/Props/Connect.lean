import Verif.Model.Connect

/-! # C76, C77: connections and options of the broker controllers -/

namespace Verif.Connect

/-! ## C76: connections -/

/-- What is true of the connections at every moment of the making of a JetStream controller: connections are numbered in
order, those closed are exactly those opened except the current one if it is owned. -/
structure JS.Inv (s : World × JS.Ctl) : Prop where
  numbered : s.1.opened = (List.range s.1.opened.length).map .own
  owned : s.2.owns = true → ∃ n, s.2.conn = some (.own n)
  all : s.1.closed ++ (if s.2.owns then s.2.conn.toList else []) = s.1.opened
  given : s.2.owns = false → ∀ c, s.2.conn = some c → ∃ n, c = .given n

theorem JS.inv_init : JS.Inv ({}, {}) := ⟨rfl, by simp, rfl, by simp⟩

theorem JS.inv_setConn_new (s : World × JS.Ctl) (h : JS.Inv s) :
    JS.Inv (JS.setConn (s.1.connect.1, s.2) (some s.1.connect.2) true) := by
  obtain ⟨w, c⟩ := s
  obtain ⟨h1, h2, h3, h4⟩ := h
  simp only at h1 h2 h3 h4
  have hn : (w.opened ++ [Conn.own w.opened.length]) = (List.range (w.opened ++ [Conn.own w.opened.length]).length).map .own := by
    rw [List.length_append, List.length_singleton, List.range_succ, List.map_append, ← h1]; rfl
  cases ho : c.owns with
  | false =>
    rw [ho] at h3
    simp only [Bool.false_eq_true, if_false, List.append_nil] at h3
    constructor
    · simp only [JS.setConn, World.connect]; split <;> simp only [ho] <;> exact hn
    · intro _; exact ⟨_, rfl⟩
    · simp only [JS.setConn, World.connect, ho]
      split <;> simp [h3]
    · intro hf; cases hf
  | true =>
    obtain ⟨n, hc⟩ := h2 ho
    rw [ho, hc] at h3
    simp only [if_true, Option.toList] at h3
    constructor
    · simp only [JS.setConn, World.connect, hc, ho, if_true, World.close]; exact hn
    · intro _; exact ⟨_, rfl⟩
    · simp only [JS.setConn, World.connect, hc, ho, if_true, World.close, Option.toList, h3]
    · intro hf; cases hf

theorem JS.inv_setConn_given (s : World × JS.Ctl) (h : JS.Inv s) (g : Option Nat) :
    JS.Inv (JS.setConn s (g.map .given) false) := by
  obtain ⟨w, c⟩ := s
  obtain ⟨h1, h2, h3, h4⟩ := h
  simp only at h1 h2 h3 h4
  have hg : ∀ c, g.map Conn.given = some c → ∃ n, c = .given n := by
    intro c hc
    obtain ⟨n, _, rfl⟩ := Option.map_eq_some_iff.1 hc
    exact ⟨n, rfl⟩
  cases ho : c.owns with
  | false =>
    rw [ho] at h3
    simp only [Bool.false_eq_true, if_false, List.append_nil] at h3
    constructor
    · simp only [JS.setConn]; split
      · simp only [ho]; exact h1
      · exact h1
    · intro hf; cases hf
    · simp only [JS.setConn, ho]
      split <;> simp [h3]
    · intro _; exact hg
  | true =>
    obtain ⟨n, hc⟩ := h2 ho
    rw [ho, hc] at h3
    simp only [if_true, Option.toList] at h3
    constructor
    · simp only [JS.setConn, hc, ho, if_true, World.close]; exact h1
    · intro hf; cases hf
    · simp only [JS.setConn, hc, ho, if_true, World.close, Bool.false_eq_true, if_false, List.append_nil, h3]
    · intro _; exact hg

theorem JS.inv_apply (s s' : World × JS.Ctl) (h : JS.Inv s) (o : JS.Opt) (ha : JS.apply s o = some s') : JS.Inv s' := by
  cases o with
  | connOpts ok =>
    simp only [JS.apply] at ha
    split at ha
    · cases ha; exact JS.inv_setConn_new s h
    · cases ha
  | conn c => cases ha; exact JS.inv_setConn_given s h c
  | logger => cases ha; exact h
  | nakDelay => cases ha; exact h
  | streamConfig n => cases ha; exact ⟨h.1, h.2, h.3, h.4⟩
  | stream n => cases ha; exact ⟨h.1, h.2, h.3, h.4⟩
  | consumerConfig n => cases ha; exact ⟨h.1, h.2, h.3, h.4⟩
  | consumer n => cases ha; exact ⟨h.1, h.2, h.3, h.4⟩

theorem JS.inv_applyAll (opts : List JS.Opt) : ∀ s, JS.Inv s → JS.Inv (JS.applyAll s opts).1 := by
  induction opts with
  | nil => intro s h; exact h
  | cons o rest ih =>
    intro s h
    simp only [JS.applyAll]
    split
    · exact h
    · rename_i s' ha; exact ih s' (JS.inv_apply s s' h o ha)

theorem JS.setup_world (a : JS.Answers) (w : World) (c : JS.Ctl) : (JS.setup a w c).world = w := by
  unfold JS.setup
  split
  · rfl
  · dsimp only; split
    · rfl
    · split <;> rfl

theorem JS.register_conn (a : JS.Answers) (c : JS.Ctl) :
    (JS.registerStream a c).1.conn = c.conn ∧ (JS.registerStream a c).1.owns = c.owns ∧
    (JS.registerConsumer a c).1.conn = c.conn ∧ (JS.registerConsumer a c).1.owns = c.owns := by
  unfold JS.registerStream JS.registerConsumer
  refine ⟨?_, ?_, ?_, ?_⟩ <;> split <;> try rfl
  all_goals split <;> try rfl
  all_goals split <;> rfl

theorem JS.setup_conn (a : JS.Answers) (w : World) (c c' : JS.Ctl) (h : (JS.setup a w c).result = some c') :
    c'.conn = c.conn ∧ c'.owns = c.owns := by
  unfold JS.setup at h
  split at h
  · cases h
  · dsimp only at h
    split at h
    · cases h
    · split at h
      · cases h
      · simp only [Option.some.injEq] at h
        obtain ⟨_, _, h1, h2⟩ := JS.register_conn a (JS.registerStream a c).1
        obtain ⟨h3, h4, _, _⟩ := JS.register_conn a c
        subst h
        exact ⟨h1.trans h3, h2.trans h4⟩

theorem JS.new_inv (a : JS.Answers) (opts : List JS.Opt) :
    ∃ c, JS.Inv ((JS.new a opts).world, c) ∧
      ∀ c', (JS.new a opts).result = some c' → c'.conn = c.conn ∧ c'.owns = c.owns ∧ c.conn ≠ none := by
  have h := JS.inv_applyAll opts ({}, {}) JS.inv_init
  unfold JS.new
  dsimp only
  split
  · exact ⟨_, h, by simp⟩
  · split
    · rename_i c hc
      refine ⟨_, by rw [JS.setup_world]; exact h, fun c' hc' => ?_⟩
      obtain ⟨h1, h2⟩ := JS.setup_conn _ _ _ _ hc'
      exact ⟨h1, h2, by rw [hc]; simp⟩
    · split
      · refine ⟨_, by rw [JS.setup_world]; exact JS.inv_setConn_new _ h, fun c' hc' => ?_⟩
        obtain ⟨h1, h2⟩ := JS.setup_conn _ _ _ _ hc'
        exact ⟨h1, h2, by simp⟩
      · exact ⟨_, h, by simp⟩

/-- **C76.** A JetStream controller never closes a connection it was given: not while it is made, whatever the options and
the outcome, nor when it is closed, any number of times. -/
theorem C76_given_never_closed (a : JS.Answers) (opts : List JS.Opt) (n k : Nat) :
    Conn.given k ∉ (JS.new a opts).world.closed ∧
    ∀ c, (JS.new a opts).result = some c →
      Conn.given k ∉ (Nat.repeat (fun w => JS.close w c) n (JS.new a opts).world).closed := by
  obtain ⟨c0, hinv, hres⟩ := JS.new_inv a opts
  have hno : Conn.given k ∉ (JS.new a opts).world.opened := by
    rw [hinv.numbered]; simp
  have hw : Conn.given k ∉ (JS.new a opts).world.closed := by
    intro h
    apply hno
    have := hinv.all
    simp only at this
    rw [← this]
    exact List.mem_append_left _ h
  refine ⟨hw, fun c hc => ?_⟩
  obtain ⟨h1, h2, _⟩ := hres c hc
  have hstep : ∀ w : World, Conn.given k ∉ w.closed → Conn.given k ∉ (JS.close w c).closed := by
    intro w ih
    unfold JS.close
    split
    · rename_i m hm
      split
      · rename_i ho
        obtain ⟨j, hj⟩ := hinv.owned (h2 ▸ ho)
        simp only at hj
        rw [h1, hj] at hm
        cases hm
        simp only [World.close, List.mem_append, List.mem_singleton, not_or]
        exact ⟨ih, by simp⟩
      · exact ih
    · exact ih
  induction n with
  | zero => exact hw
  | succ n ih => exact hstep _ ih

/-- **C76.** Once a JetStream controller was made, the connection it uses is open, and every other connection it
opened on the way was closed exactly once; after `Close`, every connection it ever opened was closed exactly once. -/
theorem C76_owned_closed_once (a : JS.Answers) (opts : List JS.Opt) (c : JS.Ctl) (hc : (JS.new a opts).result = some c) :
    (∃ n, c.conn = some n ∧ n ∉ (JS.new a opts).world.closed ∧
      ∀ m ∈ (JS.new a opts).world.opened, m ≠ n → (JS.new a opts).world.closed.count m = 1) ∧
    ∀ m ∈ (JS.new a opts).world.opened, (JS.close (JS.new a opts).world c).closed.count m = 1 := by
  obtain ⟨c0, hinv, hres⟩ := JS.new_inv a opts
  obtain ⟨h1, h2, h3⟩ := hres c hc
  generalize (JS.new a opts).world = w at hinv
  have hnd : w.opened.Nodup := by
    have := hinv.numbered
    simp only at this
    rw [this]
    exact List.nodup_range.map Conn.own (fun _ _ h e => h (Conn.own.inj e))
  have hall := hinv.all
  simp only at hall
  have hcount : ∀ m ∈ w.opened, w.opened.count m = 1 := fun m hm => by
    rw [hnd.count]; simp [hm]
  rw [← h2, ← h1] at hall
  rw [← h1] at h3
  cases hcn : c.conn with
  | none => exact absurd hcn h3
  | some n =>
    rw [hcn] at hall
    cases ho : c.owns with
    | false =>
      rw [ho] at hall
      simp only [Bool.false_eq_true, if_false, List.append_nil] at hall
      obtain ⟨k, hk⟩ := hinv.given (by simp only; rw [← h2, ho]) n (by simp only; rw [← h1, hcn])
      refine ⟨⟨n, rfl, ?_, ?_⟩, ?_⟩
      · have hnum := hinv.numbered
        simp only at hnum
        rw [hall, hk, hnum]; simp
      · intro m hm _; rw [hall]; exact hcount m hm
      · intro m hm
        simp only [JS.close, hcn, ho, Bool.false_eq_true, if_false]
        rw [hall]; exact hcount m hm
    | true =>
      rw [ho] at hall
      simp only [if_true, Option.toList] at hall
      refine ⟨⟨n, rfl, ?_, ?_⟩, ?_⟩
      · intro h
        rw [← hall, List.nodup_append] at hnd
        exact hnd.2.2 n h n (by simp) rfl
      · intro m hm hne
        have := hcount m hm
        rw [← hall, List.count_append, List.count_singleton] at this
        have hne' : (n == m) = false := by simpa using fun h => hne h.symm
        simpa [hne'] using this
      · intro m hm
        simp only [JS.close, hcn, ho, if_true, World.close]
        rw [hall]; exact hcount m hm

example : (JS.new {} [.connOpts true, .connOpts true, .stream "s"]).result =
    some ⟨some (.own 1), true, "s", "", none, none⟩ ∧
    (JS.new {} [.connOpts true, .connOpts true, .stream "s"]).world = ⟨[.own 0, .own 1], [.own 0]⟩ := by decide

example : (JS.new {} [.connOpts true, .conn (some 7)]).world = ⟨[.own 0], [.own 0]⟩ := by decide

/-- **C76 is violated when the making fails**: the connection that was opened is neither closed nor handed out. -/
theorem C76_violated_leak_on_failure :
    (JS.new {} [.streamConfig ""]).result = none ∧
    (JS.new {} [.streamConfig ""]).world = ⟨[.own 0], []⟩ ∧
    (JS.new {} [.connOpts true, .connOpts false]).result = none ∧
    (JS.new {} [.connOpts true, .connOpts false]).world = ⟨[.own 0], []⟩ ∧
    (Nats.new true [.connOpts true, .connOpts false]) = (⟨[.own 0], []⟩, none) := by decide

/-- **C76 is violated by NATS controllers given connection options twice**: the first connection is never closed. -/
theorem C76_violated_nats_two_connections :
    ∃ w c, Nats.new true [.connOpts true, .connOpts true] = (w, some c) ∧ Conn.own 0 ∈ w.opened ∧
      Conn.own 0 ∉ (Nats.close w c).closed := ⟨_, _, rfl, by decide, by decide⟩

/-- Number of times the connection options are given. -/
def Nats.dials (opts : List Nats.Opt) : Nat := opts.countP (fun | .connOpts _ => true | _ => false)

theorem Nats.applyAll_spec (opts : List Nats.Opt) : ∀ (s : World × Nats.Ctl), (Nats.applyAll s opts).2 = true →
    (Nats.applyAll s opts).1.1.closed = s.1.closed ∧
    (Nats.dials opts = 0 → (Nats.applyAll s opts).1.1 = s.1 ∧ (Nats.applyAll s opts).1.2.conn = s.2.conn) ∧
    (Nats.dials opts = 1 → (Nats.applyAll s opts).1.1.opened = s.1.opened ++ [.own s.1.opened.length] ∧
      (Nats.applyAll s opts).1.2.conn = some (.own s.1.opened.length)) := by
  induction opts with
  | nil => intro s _; simp [Nats.applyAll, Nats.dials]
  | cons o rest ih =>
    intro s hok
    cases o with
    | queueGroup n => simpa [Nats.applyAll, Nats.dials] using ih (s.1, { s.2 with queueGroup := n }) hok
    | logger => simpa [Nats.applyAll, Nats.dials] using ih s hok
    | connOpts ok =>
      simp only [Nats.applyAll] at hok ⊢
      split at hok
      · rename_i hk
        rw [if_pos hk]
        obtain ⟨h1, h2, _⟩ := ih _ hok
        refine ⟨h1, by simp [Nats.dials], fun hd => ?_⟩
        have hd' : Nats.dials rest = 0 := by
          simp only [Nats.dials, List.countP_cons, if_true] at hd ⊢; omega
        obtain ⟨h3, h4⟩ := h2 hd'
        rw [h3, h4]
        exact ⟨rfl, rfl⟩
      · cases hok

/-- **C76 (partial: NATS).** A NATS controller that was made with connection options given at most once has opened one
connection, the one it uses; it is open, and `Close` closes it. Missing: options given twice (above). -/
theorem C76_nats_partial (dial : Bool) (opts : List Nats.Opt) (hd : Nats.dials opts ≤ 1) (w : World) (c : Nats.Ctl)
    (h : Nats.new dial opts = (w, some c)) :
    ∃ n, c.conn = some n ∧ w.opened = [n] ∧ w.closed = [] ∧ (Nats.close w c).closed = [n] := by
  unfold Nats.new at h
  dsimp only at h
  have hspec := Nats.applyAll_spec opts ({}, {})
  generalize Nats.applyAll ({}, {}) opts = r at h hspec
  obtain ⟨⟨w', c'⟩, ok⟩ := r
  cases ok with
  | false => simp at h
  | true =>
    obtain ⟨h1, h2, h3⟩ := hspec rfl
    simp only [Bool.not_true, Bool.false_eq_true, if_false] at h h1 h2 h3
    rcases Nat.lt_or_ge 0 (Nats.dials opts) with hp | hp
    · obtain ⟨h4, h5⟩ := h3 (by omega)
      rw [h5] at h
      simp only [Prod.mk.injEq, Option.some.injEq] at h
      obtain ⟨rfl, rfl⟩ := h
      refine ⟨_, h5, h4, h1, ?_⟩
      simp [Nats.close, h5, World.close, h1]
    · obtain ⟨h4, h5⟩ := h2 (by omega)
      rw [h5] at h
      simp only at h
      split at h
      · simp only [Prod.mk.injEq, Option.some.injEq] at h
        obtain ⟨rfl, rfl⟩ := h
        refine ⟨_, rfl, ?_, ?_, ?_⟩ <;> simp [World.connect, h4, Nats.close, World.close]
      · simp at h

example : Nats.new true [.logger, .queueGroup "g"] = (⟨[.own 0], []⟩, some ⟨some (.own 0), "g"⟩) := by decide

/-- The last element of a list satisfying a partial function. -/
def lastOf {A B : Type} (f : A → Option B) (l : List A) : Option B := (l.filterMap f).getLast?

/-- Names given by the options. -/
def JS.streamOf : JS.Opt → Option String | .stream n => some n | _ => none
def JS.streamConfigOf : JS.Opt → Option String | .streamConfig n => some n | _ => none
def JS.consumerOf : JS.Opt → Option String | .consumer n => some n | _ => none
def JS.consumerConfigOf : JS.Opt → Option String | .consumerConfig n => some n | _ => none

theorem lastOf_cons {A B : Type} (f : A → Option B) (a : A) (l : List A) :
    lastOf f (a :: l) = (lastOf f l).or (f a) := by
  unfold lastOf
  cases h : f a with
  | none => rw [List.filterMap_cons_none h]; simp
  | some b =>
    rw [List.filterMap_cons_some h, List.getLast?_cons]
    cases (l.filterMap f).getLast? <;> rfl

theorem JS.setConn_names (s : World × JS.Ctl) (n : Option Conn) (o : Bool) :
    (JS.setConn s n o).2.streamName = s.2.streamName ∧ (JS.setConn s n o).2.consumerName = s.2.consumerName ∧
    (JS.setConn s n o).2.streamConfig = s.2.streamConfig ∧ (JS.setConn s n o).2.consumerConfig = s.2.consumerConfig :=
  ⟨rfl, rfl, rfl, rfl⟩

theorem JS.applyAll_names (opts : List JS.Opt) : ∀ s, (JS.applyAll s opts).2 = true →
    (JS.applyAll s opts).1.2.streamName = (lastOf JS.streamOf opts).getD s.2.streamName ∧
    (JS.applyAll s opts).1.2.consumerName = (lastOf JS.consumerOf opts).getD s.2.consumerName ∧
    (JS.applyAll s opts).1.2.streamConfig = (lastOf JS.streamConfigOf opts).or s.2.streamConfig ∧
    (JS.applyAll s opts).1.2.consumerConfig = (lastOf JS.consumerConfigOf opts).or s.2.consumerConfig := by
  induction opts with
  | nil => intro s _; exact ⟨rfl, rfl, rfl, rfl⟩
  | cons o rest ih =>
    intro s hok
    simp only [JS.applyAll] at hok ⊢
    cases ha : JS.apply s o with
    | none => rw [ha] at hok; cases hok
    | some s' =>
      rw [ha] at hok
      obtain ⟨h1, h2, h3, h4⟩ := ih s' hok
      simp only
      rw [h1, h2, h3, h4]
      simp only [lastOf_cons]
      cases o with
      | connOpts ok =>
        simp only [JS.apply] at ha
        split at ha
        · cases ha
          simp [JS.streamOf, JS.consumerOf, JS.streamConfigOf, JS.consumerConfigOf, JS.setConn]
        · cases ha
      | conn c => cases ha; simp [JS.streamOf, JS.consumerOf, JS.streamConfigOf, JS.consumerConfigOf, JS.setConn]
      | logger => cases ha; simp [JS.streamOf, JS.consumerOf, JS.streamConfigOf, JS.consumerConfigOf]
      | nakDelay => cases ha; simp [JS.streamOf, JS.consumerOf, JS.streamConfigOf, JS.consumerConfigOf]
      | streamConfig n =>
        cases ha
        simp only [JS.streamOf, JS.consumerOf, JS.streamConfigOf, JS.consumerConfigOf, Option.or_none, true_and, and_true]
        cases lastOf JS.streamConfigOf rest <;> simp
      | stream n =>
        cases ha
        simp only [JS.streamOf, JS.consumerOf, JS.streamConfigOf, JS.consumerConfigOf, Option.or_none, and_true]
        cases lastOf JS.streamOf rest <;> simp
      | consumerConfig n =>
        cases ha
        simp only [JS.streamOf, JS.consumerOf, JS.streamConfigOf, JS.consumerConfigOf, Option.or_none, true_and]
        cases lastOf JS.consumerConfigOf rest <;> simp
      | consumer n =>
        cases ha
        simp only [JS.streamOf, JS.consumerOf, JS.streamConfigOf, JS.consumerConfigOf, Option.or_none, true_and, and_true]
        cases lastOf JS.consumerOf rest <;> simp

/-- The stream a controller should use: the one configured, else the one named, whatever the order of the options. -/
def JS.stream (opts : List JS.Opt) : String := ((lastOf JS.streamConfigOf opts).or (lastOf JS.streamOf opts)).getD ""

/-- The consumer a controller should use. -/
def JS.consumer (opts : List JS.Opt) : String := ((lastOf JS.consumerConfigOf opts).or (lastOf JS.consumerOf opts)).getD ""

theorem JS.setup_names (a : JS.Answers) (w : World) (c c' : JS.Ctl) (h : (JS.setup a w c).result = some c') :
    c'.streamName = c.streamConfig.getD c.streamName ∧ c'.consumerName = c.consumerConfig.getD c.consumerName ∧
    c.streamConfig ≠ some "" ∧ c.consumerConfig ≠ some "" ∧
    (∀ n, c.consumerConfig = some n → JS.Api.createOrUpdateConsumer c'.streamName n ∈ (JS.setup a w c).calls ∧
      a.consumer c'.streamName n = true) ∧
    (∀ n, c.streamConfig = some n → JS.Api.createStream n ∈ (JS.setup a w c).calls ∧
      (a.create n = .ok ∨ a.create n = .inUse ∧ JS.Api.updateStream n ∈ (JS.setup a w c).calls ∧ a.update n = true)) := by
  obtain ⟨conn, owns, sn, cn, sc, cc⟩ := c
  unfold JS.setup at h ⊢
  cases hj : a.jetStream with
  | false => rw [hj] at h; cases h
  | true =>
    rw [hj] at h
    simp only [Bool.not_true, Bool.false_eq_true, if_false] at h ⊢
    cases sc with
    | none =>
      simp only [JS.registerStream, Bool.not_true, Bool.false_eq_true, if_false] at h ⊢
      cases cc with
      | none =>
        simp only [JS.registerConsumer, Bool.not_true, Bool.false_eq_true, if_false, Option.some.injEq] at h
        subst h
        simp
      | some n =>
        by_cases hn : n = ""
        · simp [JS.registerConsumer, hn] at h
        · simp only [JS.registerConsumer, hn, if_false] at h ⊢
          cases hcon : a.consumer sn n with
          | false => rw [hcon] at h; cases h
          | true =>
            rw [hcon] at h
            simp only [Bool.not_true, Bool.false_eq_true, if_false, Option.some.injEq] at h
            subst h
            simp [hcon, hn]
    | some s =>
      by_cases hs : s = ""
      · simp [JS.registerStream, hs] at h
      · have key : ∀ (calls : List JS.Api), (JS.registerStream a ⟨conn, owns, sn, cn, some s, cc⟩) =
            (⟨conn, owns, s, cn, some s, cc⟩, calls, true) → JS.Api.createStream s ∈ calls ∧
              (a.create s = .ok ∨ a.create s = .inUse ∧ JS.Api.updateStream s ∈ calls ∧ a.update s = true) := by
          intro calls hr
          simp only [JS.registerStream, hs, if_false] at hr
          cases hcr : a.create s with
          | ok => rw [hcr] at hr; cases hr; simp
          | error => rw [hcr] at hr; cases hr
          | inUse =>
            rw [hcr] at hr
            simp only [Prod.mk.injEq, true_and] at hr
            rw [← hr.1]
            simp [hr.2]
        have hreg : (JS.registerStream a ⟨conn, owns, sn, cn, some s, cc⟩).1 = ⟨conn, owns, s, cn, some s, cc⟩ := by
          simp only [JS.registerStream, hs, if_false]; split <;> rfl
        generalize hr : JS.registerStream a ⟨conn, owns, sn, cn, some s, cc⟩ = rr at h hreg key
        obtain ⟨c1, calls, ok⟩ := rr
        simp only at hreg
        subst hreg
        cases ok with
        | false => simp at h
        | true =>
          obtain ⟨k1, k2⟩ := key calls rfl
          simp only [Bool.not_true, Bool.false_eq_true, if_false] at h ⊢
          cases cc with
          | none =>
            simp only [JS.registerConsumer, Bool.not_true, Bool.false_eq_true, if_false, Option.some.injEq] at h
            subst h
            refine ⟨rfl, rfl, by simpa using hs, by simp, by simp, ?_⟩
            intro n hn
            cases hn
            simp only [JS.registerConsumer, Bool.not_true, Bool.false_eq_true, if_false, List.append_nil]
            exact ⟨k1, k2⟩
          | some n =>
            by_cases hn : n = ""
            · simp [JS.registerConsumer, hn] at h
            · simp only [JS.registerConsumer, hn, if_false] at h ⊢
              cases hcon : a.consumer s n with
              | false => rw [hcon] at h; cases h
              | true =>
                rw [hcon] at h
                simp only [Bool.not_true, Bool.false_eq_true, if_false, Option.some.injEq] at h
                subst h
                refine ⟨rfl, rfl, by simpa using hs, by simpa using hn, ?_, ?_⟩
                · intro m hm
                  cases hm
                  simp [hcon]
                · intro m hm
                  cases hm
                  simp only [Bool.not_true, Bool.false_eq_true, if_false]
                  refine ⟨List.mem_append_left _ k1, ?_⟩
                  rcases k2 with k2 | ⟨k2, k3, k4⟩
                  · exact Or.inl k2
                  · exact Or.inr ⟨k2, List.mem_append_left _ k3, k4⟩

theorem JS.new_eq (a : JS.Answers) (opts : List JS.Opt) (c : JS.Ctl) (hc : (JS.new a opts).result = some c) :
    ∃ w c0, c0.streamName = (lastOf JS.streamOf opts).getD "" ∧ c0.consumerName = (lastOf JS.consumerOf opts).getD "" ∧
      c0.streamConfig = lastOf JS.streamConfigOf opts ∧ c0.consumerConfig = lastOf JS.consumerConfigOf opts ∧
      JS.new a opts = JS.setup a w c0 := by
  have hn := JS.applyAll_names opts ({}, {})
  unfold JS.new at hc ⊢
  generalize JS.applyAll ({}, {}) opts = r at hn hc ⊢
  obtain ⟨⟨w, c0⟩, ok⟩ := r
  cases ok with
  | false => simp at hc
  | true =>
    obtain ⟨n1, n2, n3, n4⟩ := hn rfl
    simp only [Option.or_none] at n1 n2 n3 n4
    simp only [Bool.not_true, Bool.false_eq_true, if_false] at hc ⊢
    cases hcn : c0.conn with
    | some n => exact ⟨w, c0, n1, n2, n3, n4, rfl⟩
    | none =>
      rw [hcn] at hc
      simp only at hc ⊢
      cases hd : a.dial with
      | false => rw [hd] at hc; cases hc
      | true => exact ⟨_, (JS.setConn (w.connect.1, c0) (some w.connect.2) true).2, n1, n2, n3, n4, rfl⟩

/-- **C76.** A JetStream controller that was made uses the stream and the consumer of its configurations, else those named,
whatever the order of the options; a configured stream was created or updated, a configured consumer was created or
updated on that very stream, and no configuration without name was accepted. -/
theorem C76_names (a : JS.Answers) (opts : List JS.Opt) (c : JS.Ctl) (hc : (JS.new a opts).result = some c) :
    c.streamName = JS.stream opts ∧ c.consumerName = JS.consumer opts ∧
    lastOf JS.streamConfigOf opts ≠ some "" ∧ lastOf JS.consumerConfigOf opts ≠ some "" ∧
    (∀ n, lastOf JS.consumerConfigOf opts = some n →
      JS.Api.createOrUpdateConsumer (JS.stream opts) n ∈ (JS.new a opts).calls ∧ a.consumer (JS.stream opts) n = true) ∧
    (∀ n, lastOf JS.streamConfigOf opts = some n → JS.Api.createStream n ∈ (JS.new a opts).calls ∧
      (a.create n = .ok ∨ a.create n = .inUse ∧ JS.Api.updateStream n ∈ (JS.new a opts).calls ∧ a.update n = true)) := by
  obtain ⟨w, c0, e1, e2, e3, e4, e⟩ := JS.new_eq a opts c hc
  rw [e] at hc ⊢
  have hs := JS.setup_names a w c0 c hc
  rw [e1, e2, e3, e4] at hs
  have f1 : (lastOf JS.streamConfigOf opts).getD ((lastOf JS.streamOf opts).getD "") = JS.stream opts := by
    unfold JS.stream; cases lastOf JS.streamConfigOf opts <;> rfl
  have f2 : (lastOf JS.consumerConfigOf opts).getD ((lastOf JS.consumerOf opts).getD "") = JS.consumer opts := by
    unfold JS.consumer; cases lastOf JS.consumerConfigOf opts <;> rfl
  rw [f1, f2] at hs
  obtain ⟨g1, g2, g3, g4, g5, g6⟩ := hs
  rw [g1] at g5
  exact ⟨g1, g2, g3, g4, g5, g6⟩

example : JS.stream [.streamConfig "a", .stream "b", .consumer "c"] = "a" := by decide

/-! ## C77: options -/

namespace Kafka

/-- The last of some numbers or names, else what was there before. -/
def tlsOf : Opt → Option (Option Nat) | .tls c => some c | _ => none
def saslOf : Opt → Option (Option Nat) | .sasl m => some m | _ => none
def groupOf : Opt → Option String | .groupID g => some g | _ => none
def partitionOf : Opt → Option Int | .partition p => some p | _ => none
def maxOf : Opt → Option Int | .maxBytes n => some n | _ => none
def loggerOf : Opt → Option Nat | .logger l => some l | _ => none
def commitOf : Opt → Option Bool | .autoCommit b => some b | _ => none
def testOf : Opt → Option Bool | .connectionTest b => some b | _ => none

/-- What the fields of a controller should be for its own options: the last option of each kind, else the default. -/
def fieldsOf (opts : List Opt) : Fields where
  groupID := (lastOf groupOf opts).getD ""
  partition := (lastOf partitionOf opts).getD 0
  maxBytes := (lastOf maxOf opts).getD 10000000
  logger := (lastOf loggerOf opts).getD 0
  autoCommit := (lastOf commitOf opts).getD true
  connectionTest := (lastOf testOf opts).getD true

/-- What the connections of a controller should be secured with for its own options. -/
def dialerOf (opts : List Opt) : Dialer where
  tls := (lastOf tlsOf opts).getD none
  sasl := (lastOf saslOf opts).getD none

theorem getD_lastOf_cons {A B : Type} (f : A → Option B) (a : A) (l : List A) (d : B) :
    (lastOf f (a :: l)).getD d = (lastOf f l).getD ((f a).getD d) := by
  rw [lastOf_cons]
  cases lastOf f l <;> rfl

theorem foldl_apply (opts : List Opt) : ∀ (ds : Nat → Dialer) (f : Fields) (d : Nat),
    (opts.foldl apply (ds, ⟨f, d⟩)).2 = ⟨⟨(lastOf groupOf opts).getD f.groupID, (lastOf partitionOf opts).getD f.partition,
      (lastOf maxOf opts).getD f.maxBytes, (lastOf loggerOf opts).getD f.logger, (lastOf commitOf opts).getD f.autoCommit,
      (lastOf testOf opts).getD f.connectionTest⟩, d⟩ ∧
    (opts.foldl apply (ds, ⟨f, d⟩)).1 d = ⟨(lastOf tlsOf opts).getD (ds d).tls, (lastOf saslOf opts).getD (ds d).sasl⟩ := by
  induction opts with
  | nil => intro ds f d; exact ⟨rfl, rfl⟩
  | cons o rest ih =>
    intro ds f d
    simp only [List.foldl_cons, getD_lastOf_cons]
    cases o with
    | tls c =>
      obtain ⟨h1, h2⟩ := ih (fun i => if i = d then { ds i with tls := c } else ds i) f d
      exact ⟨h1, by rw [if_pos rfl] at h2; exact h2⟩
    | sasl m =>
      obtain ⟨h1, h2⟩ := ih (fun i => if i = d then { ds i with sasl := m } else ds i) f d
      exact ⟨h1, by rw [if_pos rfl] at h2; exact h2⟩
    | groupID g => exact ih ds _ d
    | partition g => exact ih ds _ d
    | maxBytes g => exact ih ds _ d
    | logger g => exact ih ds _ d
    | autoCommit g => exact ih ds _ d
    | connectionTest g => exact ih ds _ d

/-- The construction handed out a controller. -/
def made (e : List Opt × Bool) : Bool := !((fieldsOf e.1).connectionTest && !e.2)

theorem new_eq (w : World) (opts : List Opt) (test : Bool) :
    (new w opts test).ctls = w.ctls ++ (if made (opts, test) then [⟨fieldsOf opts, 0⟩] else []) ∧
    (new w opts test).dialers 0 = ⟨(lastOf tlsOf opts).getD (w.dialers 0).tls, (lastOf saslOf opts).getD (w.dialers 0).sasl⟩ := by
  obtain ⟨h1, h2⟩ := foldl_apply opts w.dialers {} 0
  refine ⟨?_, h2⟩
  unfold new
  simp only [h1]
  unfold made fieldsOf
  simp only
  cases (lastOf testOf opts).getD true <;> cases test <;> simp

theorem lastOf_append {A B : Type} (f : A → Option B) (a b : List A) : lastOf f (a ++ b) = (lastOf f b).or (lastOf f a) := by
  unfold lastOf
  rw [List.filterMap_append, List.getLast?_append]

theorem run_eq (h : List (List Opt × Bool)) : ∀ (w : World),
    (run w h).ctls = w.ctls ++ (h.filter made).map (fun e => ⟨fieldsOf e.1, 0⟩) ∧
    (run w h).dialers 0 = ⟨(lastOf tlsOf (h.flatMap (·.1))).getD (w.dialers 0).tls,
      (lastOf saslOf (h.flatMap (·.1))).getD (w.dialers 0).sasl⟩ := by
  induction h with
  | nil => intro w; exact ⟨(List.append_nil _).symm, rfl⟩
  | cons e h ih =>
    intro w
    obtain ⟨h1, h2⟩ := ih (new w e.1 e.2)
    obtain ⟨h3, h4⟩ := new_eq w e.1 e.2
    refine ⟨?_, ?_⟩
    · show (run (new w e.1 e.2) h).ctls = _
      rw [h1, h3, List.append_assoc]
      congr 1
      by_cases hm : made e = true
      · rw [List.filter_cons_of_pos hm, if_pos hm]; rfl
      · rw [List.filter_cons_of_neg hm, if_neg hm]; rfl
    · show (run (new w e.1 e.2) h).dialers 0 = _
      rw [h2, h4]
      simp only [List.flatMap_cons, lastOf_append, Dialer.mk.injEq]
      constructor
      · cases lastOf tlsOf (h.flatMap (·.1)) <;> rfl
      · cases lastOf saslOf (h.flatMap (·.1)) <;> rfl

end Kafka

open Kafka in
/-- **C77 (partial: everything but TLS and SASL).** For every history of constructions of Kafka controllers, successful or
not, each controller handed out, in order, has the group, partition, sizes, commit mode and logger of its own options.
Missing: TLS and SASL, which are shared (below). -/
theorem C77_fields_partial (h : List (List Opt × Bool)) :
    (run {} h).ctls.map (fun c => (settings (run {} h) c).1) = (h.filter made).map (fun e => fieldsOf e.1) := by
  rw [show (fun c => (settings (run {} h) c).1) = Ctl.fields from rfl, (run_eq h {}).1]
  simp

open Kafka in
/-- **C77 (partial).** Every controller connects with the TLS configuration and the SASL mechanism of its own options, as
long as no other construction in the program's life, before or after, was given a TLS or SASL option. -/
theorem C77_alone_partial (pre post : List (List Opt × Bool)) (opts : List Opt) (test : Bool) (hm : made (opts, test) = true)
    (hpre : ∀ e ∈ pre ++ post, ∀ o ∈ e.1, tlsOf o = none ∧ saslOf o = none) :
    ∃ c, (run {} (pre ++ (opts, test) :: post)).ctls[(pre.filter made).length]? = some c ∧
      settings (run {} (pre ++ (opts, test) :: post)) c = (fieldsOf opts, dialerOf opts) := by
  obtain ⟨h1, h2⟩ := run_eq (pre ++ (opts, test) :: post) {}
  refine ⟨⟨fieldsOf opts, 0⟩, ?_, ?_⟩
  · rw [h1, List.filter_append, List.filter_cons_of_pos hm]
    simp
  · unfold settings
    simp only
    rw [h2]
    have hnone : ∀ (f : Opt → Option (Option Nat)) (l : List (List Opt × Bool)), (∀ e ∈ l, ∀ o ∈ e.1, f o = none) →
        lastOf f (l.flatMap (·.1)) = none := by
      intro f l hl
      unfold lastOf
      have : (l.flatMap (·.1)).filterMap f = [] := by
        rw [List.filterMap_eq_nil_iff]
        intro o ho
        obtain ⟨e, he, ho⟩ := List.mem_flatMap.1 ho
        exact hl e he o ho
      rw [this]; rfl
    have ht : ∀ e ∈ pre ++ post, ∀ o ∈ e.1, tlsOf o = none := fun e he o ho => (hpre e he o ho).1
    have hs : ∀ e ∈ pre ++ post, ∀ o ∈ e.1, saslOf o = none := fun e he o ho => (hpre e he o ho).2
    simp only [List.flatMap_append, List.flatMap_cons, lastOf_append,
      hnone tlsOf pre (fun e he => ht e (List.mem_append_left _ he)),
      hnone tlsOf post (fun e he => ht e (List.mem_append_right _ he)),
      hnone saslOf pre (fun e he => hs e (List.mem_append_left _ he)),
      hnone saslOf post (fun e he => hs e (List.mem_append_right _ he)), Option.or_none, Option.none_or, dialerOf]

open Kafka in
/-- **C77, what is true**: every controller of the program uses the last TLS and the last SASL option given to any of them,
those whose construction failed included. -/
theorem C77_shared (h : List (List Opt × Bool)) (c : Ctl) (hc : c ∈ (run {} h).ctls) :
    (settings (run {} h) c).2 = dialerOf (h.flatMap (·.1)) := by
  obtain ⟨h1, h2⟩ := run_eq h {}
  rw [h1] at hc
  simp only [List.nil_append, List.mem_map] at hc
  obtain ⟨e, _, rfl⟩ := hc
  exact h2

open Kafka in
/-- **C77 is violated**: a controller made without TLS or SASL uses the credentials given to one made before it, and even
to one made after it, or whose making failed. -/
theorem C77_violated :
    (∃ c, (run {} [([.sasl (some 1)], true), ([], true)]).ctls[1]? = some c ∧
      settings (run {} [([.sasl (some 1)], true), ([], true)]) c = (fieldsOf [], ⟨none, some 1⟩)) ∧
    (∃ c, (run {} [([], true), ([.tls (some 2)], false)]).ctls = [c] ∧
      settings (run {} [([], true), ([.tls (some 2)], false)]) c = (fieldsOf [], ⟨some 2, none⟩)) ∧
    (∃ c, (run {} [([.tls (some 1)], true), ([.tls (some 2)], true)]).ctls[0]? = some c ∧
      (settings (run {} [([.tls (some 1)], true), ([.tls (some 2)], true)]) c).2 = ⟨some 2, none⟩) :=
  ⟨⟨_, rfl, rfl⟩, ⟨_, rfl, rfl⟩, ⟨_, rfl, rfl⟩⟩

open Kafka in
example : made ([.sasl (some 1), .groupID "g", .connectionTest false], false) = true ∧
    ∀ e ∈ [([Opt.partition 3], true)] ++ [([Opt.maxBytes 5], false)], ∀ o ∈ e.1, tlsOf o = none ∧ saslOf o = none := by decide

end Verif.Connect
