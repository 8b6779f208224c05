import Verif.Spec.NatsOrder

/-! # C134: a message published over NATS after a subscription was made reaches it -/

namespace Verif.NatsOrder
open Spec

theorem run_append (s : St) (a b : List Ev) : run s (a ++ b) = run (run s a) b := List.foldl_append

theorem run_cons (s : St) (e : Ev) (b : List Ev) : run s (e :: b) = run (step s e) b := rfl

theorem step_nil {s : St} {d : Nat} (h : s.out d = []) (pick : Str → Nat) : step s (.take d pick) = s := by simp [step, h]

theorem step_taken {s : St} {d : Nat} {cmd : Cmd} {rest : List Cmd} (h : s.out d = cmd :: rest) (pick : Str → Nat) :
    step s (.take d pick) = serve { s with out := fun e => if e = d then rest else s.out e } pick cmd := by simp [step, h]

/-! ## One member of each group -/

theorem mem_member {pick : Str → Nat} {ms : List Sub} {g : Str} {x : Sub} (h : member pick ms g = some x) : x ∈ ms ∧ x.group = g := by
  unfold member at h
  have := List.mem_of_getElem? h
  simpa using List.mem_filter.1 this

theorem member_some {pick : Str → Nat} {ms : List Sub} {x : Sub} (h : x ∈ ms) : ∃ y, member pick ms x.group = some y := by
  unfold member
  have hx : x ∈ ms.filter (fun y => y.group = x.group) := List.mem_filter.2 ⟨h, by simp⟩
  have hl : 0 < (ms.filter (fun y => y.group = x.group)).length := List.length_pos_of_mem hx
  exact ⟨_, List.getElem?_eq_getElem (Nat.mod_lt _ hl)⟩

theorem mem_receivers {pick : Str → Nat} {ms : List Sub} {y : Sub} :
    y ∈ receivers pick ms ↔ (y ∈ ms ∧ y.group = []) ∨ ∃ x ∈ ms, x.group ≠ [] ∧ member pick ms x.group = some y := by
  unfold receivers
  simp only [List.mem_append, List.mem_filter, List.mem_filterMap, List.mem_eraseDups, List.mem_map, decide_eq_true_eq]
  refine or_congr Iff.rfl ⟨?_, ?_⟩
  · rintro ⟨g, ⟨⟨x, hx, rfl⟩, hg⟩, h⟩
    exact ⟨x, hx, hg, h⟩
  · rintro ⟨x, hx, hg, h⟩
    exact ⟨x.group, ⟨⟨x, hx, rfl⟩, hg⟩, h⟩

theorem receivers_mem {pick : Str → Nat} {ms : List Sub} {y : Sub} (h : y ∈ receivers pick ms) : y ∈ ms := by
  rcases mem_receivers.1 h with h | ⟨x, _, _, h⟩
  · exact h.1
  · exact (mem_member h).1

/-! ## The order on a connection -/

/-- What holds once a controller has subscribed, for a message. -/
structure Inv (c : Nat) (x : Sub) (m : Nat) (s : St) : Prop where
  returned : m ∈ s.returned → Reached s x m
  order : ∀ d l1 l2, s.out d = l1 ++ .ping m :: l2 → .pub m x.ch ∈ l1 ∨ Reached s x m
  known : x ∈ s.subs ∨ ((∃ l1 l2, s.out c = l1 ++ .sub x :: l2 ∧ ∀ ch, .pub m ch ∉ l1) ∧ ∀ d, d ≠ c → ∀ ch, .pub m ch ∉ s.out d)

theorem write_out (s : St) (c : Nat) (l : List Cmd) (d : Nat) : (write s c l).out d = if d = c then s.out d ++ l else s.out d := rfl

theorem split_append {a l1 l2 b : List Cmd} {p : Cmd} (hb : p ∉ b) (h : a ++ b = l1 ++ p :: l2) : ∃ l2', a = l1 ++ p :: l2' := by
  rcases List.append_eq_append_iff.1 h with ⟨t, rfl, rfl⟩ | ⟨t, rfl, ht⟩
  · exact absurd (by simp) hb
  · cases t with
    | nil => exact absurd (ht ▸ List.mem_cons_self) (by simpa using hb)
    | cons y t =>
      rw [List.cons_append, List.cons.injEq] at ht
      exact ⟨t, by rw [← ht.1]⟩

theorem inv_write {c : Nat} {x : Sub} {m : Nat} {s : St} (h : Inv c x m s) {d : Nat} {l : List Cmd} (hl : .ping m ∉ l)
    (hp : ∀ ch, .pub m ch ∉ l) : Inv c x m (write s d l) := by
  refine ⟨h.returned, fun e l1 l2 he => ?_, ?_⟩
  · rw [write_out] at he
    by_cases hd : e = d
    · rw [if_pos hd] at he
      obtain ⟨l2', h'⟩ := split_append hl he
      exact h.order e l1 l2' h'
    · rw [if_neg hd] at he
      exact h.order e l1 l2 he
  · rcases h.known with hk | ⟨⟨l1, l2, h1, h2⟩, h3⟩
    · exact .inl hk
    · refine .inr ⟨?_, fun e he ch hm => ?_⟩
      · by_cases hd : c = d
        · exact ⟨l1, l2 ++ l, by rw [write_out, if_pos hd, h1]; simp, h2⟩
        · exact ⟨l1, l2, by rw [write_out, if_neg hd, h1], h2⟩
      · rw [write_out] at hm
        by_cases hd : e = d
        · rw [if_pos hd] at hm
          exact (List.mem_append.1 hm).elim (h3 e he ch) (hp ch)
        · rw [if_neg hd] at hm
          exact h3 e he ch hm

theorem inv_publish {c : Nat} {x : Sub} {m : Nat} {s : St} (h : Inv c x m s) {d : Nat} (hd : d = c ∨ x ∈ s.subs) :
    Inv c x m (write s d [.pub m x.ch, .ping m]) := by
  refine ⟨h.returned, fun e l1 l2 he => ?_, ?_⟩
  · rw [write_out] at he
    by_cases hed : e = d
    · rw [if_pos hed] at he
      rcases List.append_eq_append_iff.1 he with ⟨t, rfl, ht⟩ | ⟨t, h1, ht⟩
      · cases t with
        | nil => simp at ht
        | cons y t =>
          rw [List.cons_append, List.cons.injEq] at ht
          exact .inl (by simp [← ht.1])
      · cases t with
        | nil => simp at ht
        | cons y t =>
          rw [List.cons_append, List.cons.injEq] at ht
          exact h.order e l1 t (by rw [h1, ← ht.1])
    · rw [if_neg hed] at he
      exact h.order e l1 l2 he
  · rcases h.known with hk | ⟨⟨l1, l2, h1, h2⟩, h3⟩
    · exact .inl hk
    · rcases hd with rfl | hk
      · refine .inr ⟨⟨l1, l2 ++ [.pub m x.ch, .ping m], by rw [write_out, if_pos rfl, h1]; simp, h2⟩, fun e he ch hm => ?_⟩
        rw [write_out, if_neg he] at hm
        exact h3 e he ch hm
      · exact .inl hk

theorem reached_mono {s t : St} (h : ∀ d ∈ s.got, d ∈ t.got) {x : Sub} {m : Nat} (hr : Reached s x m) : Reached t x m := by
  obtain ⟨d, hd, h'⟩ := hr
  exact ⟨d, h d hd, h'⟩

theorem serve_got (s : St) (pick : Str → Nat) (cmd : Cmd) : ∀ d ∈ s.got, d ∈ (serve s pick cmd).got := by
  intro d hd
  cases cmd with
  | sub => exact hd
  | pub => exact List.mem_append_left _ hd
  | ping => exact hd

theorem serve_out (s : St) (pick : Str → Nat) (cmd : Cmd) : (serve s pick cmd).out = s.out := by cases cmd <;> rfl

theorem serve_subs (s : St) (pick : Str → Nat) (cmd : Cmd) : ∀ x ∈ s.subs, x ∈ (serve s pick cmd).subs := by
  intro d hd
  cases cmd with
  | sub => exact List.mem_append_left _ hd
  | pub => exact hd
  | ping => exact hd

/-- A message the server takes reaches each of its subscriptions, or its group. -/
theorem serve_pub {s : St} {x : Sub} (hx : x ∈ s.subs) (pick : Str → Nat) (m : Nat) :
    Reached (serve s pick (.pub m x.ch)) x m := by
  have hm : x ∈ s.subs.filter (fun y => y.ch = x.ch) := List.mem_filter.2 ⟨hx, by simp⟩
  by_cases hg : x.group = []
  · exact ⟨⟨x, m⟩, List.mem_append_right _ (List.mem_map.2 ⟨x, mem_receivers.2 (.inl ⟨hm, hg⟩), rfl⟩), rfl, .inl rfl⟩
  · obtain ⟨y, hy⟩ := member_some (pick := pick) hm
    obtain ⟨h1, h2⟩ := mem_member hy
    refine ⟨⟨y, m⟩, List.mem_append_right _ (List.mem_map.2 ⟨y, mem_receivers.2 (.inr ⟨x, hm, hg, hy⟩), rfl⟩), rfl, .inr ⟨hg, h2, ?_⟩⟩
    simpa using (List.mem_filter.1 h1).2

theorem inv_take {c : Nat} {x : Sub} {m : Nat} {s : St} (h : Inv c x m s) {d : Nat} {pick : Str → Nat} {cmd : Cmd} {rest : List Cmd}
    (ho : s.out d = cmd :: rest) : Inv c x m (serve { s with out := fun e => if e = d then rest else s.out e } pick cmd) := by
  have mono : Reached s x m →
      Reached (serve { s with out := fun e => if e = d then rest else s.out e } pick cmd) x m :=
    fun hr => reached_mono (s := { s with out := fun e => if e = d then rest else s.out e }) (serve_got _ _ _) hr
  -- a publication of the message that is taken finds the subscription
  have hpub : cmd = .pub m x.ch → Reached (serve { s with out := fun e => if e = d then rest else s.out e } pick cmd) x m := by
    rintro rfl
    rcases h.known with hk | ⟨⟨l1, l2, h1, h2⟩, h3⟩
    · exact serve_pub (s := { s with out := _ }) hk pick m
    · by_cases hd : d = c
      · subst hd
        rw [ho] at h1
        cases l1 with
        | nil => simp at h1
        | cons y l1 =>
          rw [List.cons_append, List.cons.injEq] at h1
          exact absurd (h1.1 ▸ List.mem_cons_self) (h2 x.ch)
      · exact absurd (ho ▸ List.mem_cons_self) (h3 d hd x.ch)
  refine ⟨fun hr => ?_, fun e l1 l2 he => ?_, ?_⟩
  · cases cmd with
    | sub => exact mono (h.returned hr)
    | pub => exact mono (h.returned hr)
    | ping k =>
      rcases List.mem_append.1 hr with hr | hr
      · exact mono (h.returned hr)
      · rw [List.mem_singleton] at hr
        subst hr
        rcases h.order d [] rest (by rw [ho]; rfl) with h' | h'
        · cases h'
        · exact mono h'
  · rw [serve_out] at he
    by_cases hd : e = d
    · simp only [hd, if_true] at he
      rcases h.order d (cmd :: l1) l2 (by rw [ho, he]; rfl) with h' | h'
      · rcases List.mem_cons.1 h' with h' | h'
        · exact .inr (hpub h'.symm)
        · exact .inl h'
      · exact .inr (mono h')
    · simp only [hd, if_false] at he
      exact (h.order e l1 l2 he).imp id mono
  · rcases h.known with hk | ⟨⟨l1, l2, h1, h2⟩, h3⟩
    · exact .inl (serve_subs _ _ _ _ hk)
    · by_cases hd : c = d
      · subst hd
        rw [ho] at h1
        cases l1 with
        | nil =>
          rw [List.nil_append, List.cons.injEq] at h1
          rw [h1.1]
          exact .inl (List.mem_append_right _ List.mem_cons_self)
        | cons y l1 =>
          rw [List.cons_append, List.cons.injEq] at h1
          refine .inr ⟨⟨l1, l2, ?_, fun ch hm => h2 ch (List.mem_cons_of_mem _ hm)⟩, fun e he ch hm => ?_⟩
          · rw [serve_out]; simp only [if_true]; exact h1.2
          · rw [serve_out] at hm
            simp only [he, if_false] at hm
            exact h3 e he ch hm
      · refine .inr ⟨⟨l1, l2, ?_, h2⟩, fun e he ch hm => ?_⟩
        · rw [serve_out]; simp only [hd, if_false]; exact h1
        · rw [serve_out] at hm
          by_cases hed : e = d
          · simp only [hed, if_true] at hm
            exact h3 d (fun e' => hd e'.symm) ch (ho ▸ List.mem_cons_of_mem _ hm)
          · simp only [hed, if_false] at hm
            exact h3 e he ch hm

theorem inv_step {c : Nat} {x : Sub} {m : Nat} {s : St} (h : Inv c x m s) {e : Ev}
    (he : ∀ c' ch', e = .publish c' m ch' → ch' = x.ch ∧ (c' = c ∨ x ∈ s.subs)) : Inv c x m (step s e) := by
  cases e with
  | subscribe d y => exact inv_write h (by simp) (by simp)
  | publish d k ch =>
    by_cases hk : k = m
    · subst hk
      obtain ⟨rfl, h'⟩ := he d ch rfl
      exact inv_publish h h'
    · exact inv_write h (by simp; exact Ne.symm hk) (by intro ch' hm; simp at hm; exact hk hm.1.symm)
  | take d pick =>
    cases ho : s.out d with
    | nil => rw [step_nil ho]; exact h
    | cons cmd rest => rw [step_taken ho]; exact inv_take h ho

theorem step_subs (s : St) (e : Ev) : ∀ x ∈ s.subs, x ∈ (step s e).subs := by
  intro x hx
  cases e with
  | subscribe => exact hx
  | publish => exact hx
  | take d pick =>
    cases ho : s.out d with
    | nil => rw [step_nil ho]; exact hx
    | cons cmd rest => rw [step_taken ho]; exact serve_subs _ _ _ x hx

theorem inv_run {c : Nat} {x : Sub} {m : Nat} (es : List Ev) : ∀ {s : St}, Inv c x m s → On es m x.ch → (By es m c ∨ x ∈ s.subs) →
    Inv c x m (run s es) := by
  induction es with
  | nil => intro s h _ _; exact h
  | cons e es ih =>
    intro s h ho hb
    rw [run_cons]
    refine ih (inv_step h ?_) (fun c' ch' hm => ho c' ch' (List.mem_cons_of_mem _ hm)) ?_
    · rintro c' ch' rfl
      exact ⟨ho c' ch' List.mem_cons_self, hb.imp (fun hb => hb c' ch' List.mem_cons_self) id⟩
    · exact hb.imp (fun hb c' ch' hm => hb c' ch' (List.mem_cons_of_mem _ hm)) (step_subs s e x)

/-! ## What comes from the history -/

structure From (es : List Ev) (s : St) : Prop where
  subs : ∀ x ∈ s.subs, ∃ c, Ev.subscribe c x ∈ es
  outSub : ∀ c x, .sub x ∈ s.out c → Ev.subscribe c x ∈ es
  outPub : ∀ c m ch, .pub m ch ∈ s.out c → Ev.publish c m ch ∈ es
  outPing : ∀ c m, .ping m ∈ s.out c → ∃ ch, Ev.publish c m ch ∈ es
  returned : ∀ m ∈ s.returned, ∃ c ch, Ev.publish c m ch ∈ es
  got : ∀ d ∈ s.got, (∃ c, Ev.subscribe c d.to ∈ es) ∧ ∃ c, Ev.publish c d.msg d.to.ch ∈ es

theorem from_step {es : List Ev} {s : St} (h : From es s) (e : Ev) : From (es ++ [e]) (step s e) := by
  have up : ∀ {x}, x ∈ es → x ∈ es ++ [e] := fun h => List.mem_append_left _ h
  have last : e ∈ es ++ [e] := List.mem_append_right _ List.mem_cons_self
  have base : From (es ++ [e]) s :=
    ⟨fun x hx => (h.subs x hx).imp (fun _ => up), fun c x hx => up (h.outSub c x hx), fun c m ch hx => up (h.outPub c m ch hx),
      fun c m hx => (h.outPing c m hx).imp (fun _ => up), fun m hm => (h.returned m hm).imp (fun _ h => h.imp (fun _ => up)),
      fun d hd => ⟨(h.got d hd).1.imp (fun _ => up), (h.got d hd).2.imp (fun _ => up)⟩⟩
  cases e with
  | subscribe d y =>
    refine ⟨base.subs, fun c x hx => ?_, fun c m ch hx => ?_, fun c m hx => ?_, base.returned, base.got⟩
    all_goals
      rw [step, write_out] at hx
      by_cases hc : c = d
      · subst hc
        rw [if_pos rfl, List.mem_append, List.mem_singleton] at hx
        rcases hx with hx | hx
        · first | exact base.outSub _ _ hx | exact base.outPub _ _ _ hx | exact base.outPing _ _ hx
        · first | (cases hx; exact last) | cases hx
      · rw [if_neg hc] at hx
        first | exact base.outSub _ _ hx | exact base.outPub _ _ _ hx | exact base.outPing _ _ hx
  | publish d k kch =>
    refine ⟨base.subs, fun c x hx => ?_, fun c m ch hx => ?_, fun c m hx => ?_, base.returned, base.got⟩
    all_goals
      rw [step, write_out] at hx
      by_cases hc : c = d
      · subst hc
        rw [if_pos rfl, List.mem_append, List.mem_cons, List.mem_singleton] at hx
        rcases hx with hx | hx | hx
        · first | exact base.outSub _ _ hx | exact base.outPub _ _ _ hx | exact base.outPing _ _ hx
        · first | (cases hx; exact last) | cases hx
        · first | (cases hx; exact ⟨kch, last⟩) | cases hx
      · rw [if_neg hc] at hx
        first | exact base.outSub _ _ hx | exact base.outPub _ _ _ hx | exact base.outPing _ _ hx
  | take d pick =>
    cases ho : s.out d with
    | nil => rw [step_nil ho]; exact base
    | cons cmd rest =>
      rw [step_taken ho]
      have hin : ∀ {c k}, k ∈ (if c = d then rest else s.out c) → k ∈ s.out c := by
        intro c k hk
        by_cases hc : c = d
        · rw [if_pos hc] at hk; rw [hc, ho]; exact List.mem_cons_of_mem _ hk
        · rw [if_neg hc] at hk; exact hk
      have hcmd : cmd ∈ s.out d := ho ▸ List.mem_cons_self
      refine ⟨fun x hx => ?_, fun c x hx => ?_, fun c m ch hx => ?_, fun c m hx => ?_, fun m hm => ?_, fun g hg => ?_⟩
      · cases cmd with
        | sub y =>
          rcases List.mem_append.1 hx with hx | hx
          · exact base.subs x hx
          · rw [List.mem_singleton] at hx; subst hx; exact ⟨d, base.outSub d _ hcmd⟩
        | pub => exact base.subs x hx
        | ping => exact base.subs x hx
      · rw [serve_out] at hx; exact base.outSub c x (hin hx)
      · rw [serve_out] at hx; exact base.outPub c m ch (hin hx)
      · rw [serve_out] at hx; exact base.outPing c m (hin hx)
      · cases cmd with
        | sub => exact base.returned m hm
        | pub => exact base.returned m hm
        | ping k =>
          rcases List.mem_append.1 hm with hm | hm
          · exact base.returned m hm
          · rw [List.mem_singleton] at hm; subst hm; exact ⟨d, base.outPing d _ hcmd⟩
      · cases cmd with
        | sub => exact base.got g hg
        | ping => exact base.got g hg
        | pub k ch =>
          rcases List.mem_append.1 hg with hg | hg
          · exact base.got g hg
          · obtain ⟨y, hy, rfl⟩ := List.mem_map.1 hg
            have hf := List.mem_filter.1 (receivers_mem hy)
            have : y.ch = ch := by simpa using hf.2
            subst this
            exact ⟨base.subs y hf.1, d, base.outPub d k _ hcmd⟩

theorem from_run (es : List Ev) : ∀ (es0 : List Ev) (s : St), From es0 s → From (es0 ++ es) (run s es) := by
  induction es with
  | nil => intro es0 s h; rw [List.append_nil]; exact h
  | cons e es ih =>
    intro es0 s h
    have := ih (es0 ++ [e]) (step s e) (from_step h e)
    rwa [List.append_assoc] at this

theorem from_init (es : List Ev) : From es (run init es) := by
  have := from_run es [] init ⟨(by simp [init]), (by simp [init]), (by simp [init]), (by simp [init]), (by simp [init]), (by simp [init])⟩
  simpa using this

/-- After a history that does not publish the message, a controller that subscribes has the invariant. -/
theorem inv_start (es : List Ev) {m : Nat} (hf : Fresh es m) (c : Nat) (x : Sub) : Inv c x m (run init (es ++ [.subscribe c x])) := by
  have h := from_init es
  rw [run_append]
  have h0 : ∀ d, .ping m ∉ (run init es).out d := fun d hd => by
    obtain ⟨ch, hc⟩ := h.outPing d m hd
    exact hf _ _ hc
  have h1 : ∀ d ch, .pub m ch ∉ (run init es).out d := fun d ch hd => hf _ _ (h.outPub d m ch hd)
  refine ⟨fun hr => ?_, fun d l1 l2 he => ?_, .inr ⟨⟨(run init es).out c, [], ?_, h1 c⟩, fun d hd ch hm => ?_⟩⟩
  · obtain ⟨d, ch, hc⟩ := h.returned m hr
    exact absurd hc (hf _ _)
  · have hm : .ping m ∈ (write (run init es) c [.sub x]).out d := by
      have : (write (run init es) c [.sub x]).out d = l1 ++ .ping m :: l2 := he
      rw [this]; simp
    rw [write_out] at hm
    by_cases hd : d = c
    · rw [if_pos hd] at hm
      simp only [List.mem_append, List.mem_singleton, reduceCtorEq, or_false] at hm
      exact absurd hm (h0 d)
    · rw [if_neg hd] at hm
      exact absurd hm (h0 d)
  · show (write (run init es) c [.sub x]).out c = _
    rw [write_out, if_pos rfl]
  · have hm : .pub m ch ∈ (write (run init es) c [.sub x]).out d := hm
    rw [write_out, if_neg hd] at hm
    exact h1 d ch hm

/-! ## The property -/

/-- **C134 (partial: messages of the subscriber's own controller).** A message that a controller publishes after it has subscribed
has reached that subscription, or its queue group, when the publication returns, whatever other controllers do meanwhile. -/
theorem C134_own_partial (a b : List Ev) (c : Nat) (x : Sub) (m : Nat) (hf : Fresh a m) (ho : On b m x.ch) (hb : By b m c)
    (hr : m ∈ (run init (a ++ [.subscribe c x] ++ b)).returned) : Reached (run init (a ++ [.subscribe c x] ++ b)) x m := by
  rw [run_append] at hr ⊢
  exact (inv_run b (inv_start a hf c x) ho (.inl hb)).returned hr

/-- Once a publication made by the same controller after the subscription has returned, the server knows the subscription. -/
theorem known_of_returned (a b : List Ev) (c : Nat) (x : Sub) (p : Nat) (hf : Fresh a p) (hb : By b p c)
    (hr : p ∈ (run init (a ++ [.subscribe c x] ++ b)).returned) : x ∈ (run init (a ++ [.subscribe c x] ++ b)).subs := by
  -- the commands of `p` come after the subscription
  have key : ∀ (es : List Ev) (s : St), By es p c →
      (x ∈ s.subs ∨ (p ∉ s.returned ∧ (∃ l1 l2, s.out c = l1 ++ .sub x :: l2 ∧ .ping p ∉ l1) ∧ ∀ d, d ≠ c → .ping p ∉ s.out d)) →
      (x ∈ (run s es).subs ∨ p ∉ (run s es).returned) := by
    intro es
    induction es with
    | nil => intro s _ h; exact h.imp id (fun h => h.1)
    | cons e es ih =>
      intro s hby h
      rw [run_cons]
      refine ih _ (fun c' ch' hm => hby c' ch' (List.mem_cons_of_mem _ hm)) ?_
      rcases h with h | ⟨h0, ⟨l1, l2, h1, h2⟩, h3⟩
      · exact .inl (step_subs s e x h)
      · have hw : ∀ d l, (.ping p ∈ l → d = c) →
            x ∈ (write s d l).subs ∨ (p ∉ (write s d l).returned ∧ (∃ l1 l2, (write s d l).out c = l1 ++ .sub x :: l2 ∧ .ping p ∉ l1) ∧
              ∀ d', d' ≠ c → .ping p ∉ (write s d l).out d') := by
          intro d l hl
          refine .inr ⟨h0, ?_, fun d' hd' hm => ?_⟩
          · by_cases hd : c = d
            · exact ⟨l1, l2 ++ l, by rw [write_out, if_pos hd, h1]; simp, h2⟩
            · exact ⟨l1, l2, by rw [write_out, if_neg hd, h1], h2⟩
          · rw [write_out] at hm
            by_cases hd : d' = d
            · rw [if_pos hd] at hm
              rcases List.mem_append.1 hm with hm | hm
              · exact h3 d' hd' hm
              · exact hd' (hd.trans (hl hm))
            · rw [if_neg hd] at hm
              exact h3 d' hd' hm
        cases e with
        | subscribe d y => exact hw d _ (by simp)
        | publish d k ch =>
          refine hw d _ (fun hm => ?_)
          have : k = p := by simp at hm; exact hm.symm
          subst this
          exact hby d ch List.mem_cons_self
        | take d pick =>
          cases hout : s.out d with
          | nil => rw [step_nil hout]; exact .inr ⟨h0, ⟨l1, l2, h1, h2⟩, h3⟩
          | cons cmd rest =>
            rw [step_taken hout]
            have hret : cmd ≠ .ping p → p ∉ (serve { s with out := fun e => if e = d then rest else s.out e } pick cmd).returned := by
              intro hne hm
              cases cmd with
              | sub => exact h0 hm
              | pub => exact h0 hm
              | ping k =>
                rcases List.mem_append.1 hm with hm | hm
                · exact h0 hm
                · rw [List.mem_singleton] at hm; exact hne (by rw [hm])
            by_cases hd : c = d
            · subst hd
              rw [hout] at h1
              cases l1 with
              | nil =>
                rw [List.nil_append, List.cons.injEq] at h1
                rw [h1.1]
                exact .inl (List.mem_append_right _ List.mem_cons_self)
              | cons y l1 =>
                rw [List.cons_append, List.cons.injEq] at h1
                refine .inr ⟨hret (fun e => h2 (by rw [← h1.1, e]; exact List.mem_cons_self)), ⟨l1, l2, ?_, fun hm => h2 (List.mem_cons_of_mem _ hm)⟩,
                  fun e he hm => ?_⟩
                · rw [serve_out]; simp only [if_true]; exact h1.2
                · rw [serve_out] at hm
                  simp only [he, if_false] at hm
                  exact h3 e he hm
            · have hd' : d ≠ c := fun e => hd e.symm
              refine .inr ⟨hret (fun e => h3 d hd' (by rw [hout, e]; exact List.mem_cons_self)), ⟨l1, l2, ?_, h2⟩, fun e he hm => ?_⟩
              · rw [serve_out]; simp only [hd, if_false]; exact h1
              · rw [serve_out] at hm
                by_cases hed : e = d
                · simp only [hed, if_true] at hm
                  exact h3 d hd' (hout ▸ List.mem_cons_of_mem _ hm)
                · simp only [hed, if_false] at hm
                  exact h3 e he hm
  have h := from_init a
  have h0 : ∀ d, .ping p ∉ (run init a).out d := fun d hd => by
    obtain ⟨ch, hc⟩ := h.outPing d p hd
    exact hf _ _ hc
  rw [run_append] at hr ⊢
  refine (key b _ hb (.inr ⟨fun hm => ?_, ?_, fun d hd hm => ?_⟩)).elim id (fun h' => absurd hr h')
  · rw [run_append] at hm
    obtain ⟨d, ch, hc⟩ := h.returned p hm
    exact hf _ _ hc
  · refine ⟨(run init a).out c, [], ?_, h0 c⟩
    rw [run_append]
    show (write (run init a) c [.sub x]).out c = _
    rw [write_out, if_pos rfl]
  · rw [run_append] at hm
    have hm : .ping p ∈ (write (run init a) c [.sub x]).out d := hm
    rw [write_out, if_neg hd] at hm
    exact h0 d hm

/-- **C134 (partial: after a publication of the subscriber).** Once the subscriber's controller has published anything after it
subscribed, and that has returned, every message that any controller publishes has reached the subscription, or its queue group, when its
publication returns. Requests are of this kind: they subscribe, publish, and wait for what others publish then. -/
theorem C134_settled_partial (a b e : List Ev) (c : Nat) (x : Sub) (p m : Nat) (hp : Fresh a p) (hb : By b p c)
    (hret : p ∈ (run init (a ++ [.subscribe c x] ++ b)).returned) (hm : Fresh (a ++ [.subscribe c x] ++ b) m) (ho : On e m x.ch)
    (hr : m ∈ (run init (a ++ [.subscribe c x] ++ b ++ e)).returned) :
    Reached (run init (a ++ [.subscribe c x] ++ b ++ e)) x m := by
  have hk := known_of_returned a b c x p hp hb hret
  have h := from_init (a ++ [.subscribe c x] ++ b)
  rw [run_append] at hr ⊢
  refine (inv_run (c := c) e ⟨fun hr => ?_, fun d l1 l2 he => ?_, .inl hk⟩ ho (.inr hk)).returned hr
  · obtain ⟨d, ch, hc⟩ := h.returned m hr
    exact absurd hc (hm _ _)
  · obtain ⟨ch, hc⟩ := h.outPing d m (by rw [he]; simp)
    exact absurd hc (hm _ _)

/-- **C134 (partial).** Nobody gets anything else: each delivery is of a message that was published on the channel of a subscription
that was made. -/
theorem C134_only_partial (es : List Ev) : ∀ d ∈ (run init es).got,
    (∃ c, Ev.subscribe c d.to ∈ es) ∧ ∃ c, Ev.publish c d.msg d.to.ch ∈ es := (from_init es).got

/-! ## One of each group -/

theorem nodup_eraseDups : ∀ (n : Nat) (l : List Str), l.length ≤ n → l.eraseDups.Nodup := by
  intro n
  induction n with
  | zero => intro l h; rw [List.eq_nil_of_length_eq_zero (Nat.le_zero.1 h)]; simp
  | succ n ih =>
    intro l h
    cases l with
    | nil => simp
    | cons a l =>
      rw [List.eraseDups_cons, List.nodup_cons]
      refine ⟨by simp [List.mem_eraseDups], ih _ (Nat.le_trans (List.length_filter_le _ _) (Nat.le_of_succ_le_succ h))⟩

/-- No two receivers of a message are in one group. -/
theorem receivers_once (pick : Str → Nat) (ms : List Sub) {g : Str} (hg : g ≠ []) : ((receivers pick ms).filter (fun y => y.group = g)).length ≤ 1 := by
  have key : ∀ gs : List Str, gs.Nodup → ((gs.filterMap (member pick ms)).filter (fun y => y.group = g)).length ≤ 1 ∧
      (g ∉ gs → (gs.filterMap (member pick ms)).filter (fun y => y.group = g) = []) := by
    intro gs
    induction gs with
    | nil => intro _; simp
    | cons k gs ih =>
      intro hn
      rw [List.nodup_cons] at hn
      obtain ⟨h1, h2⟩ := ih hn.2
      rw [List.filterMap_cons]
      cases hk : member pick ms k with
      | none => exact ⟨h1, fun h => h2 (fun h' => h (List.mem_cons_of_mem _ h'))⟩
      | some y =>
        have hy := (mem_member hk).2
        dsimp only
        rw [List.filter_cons]
        by_cases hg : y.group = g
        · rw [if_pos (by simpa using hg)]
          have : k = g := hy.symm.trans hg
          subst this
          rw [h2 hn.1]
          exact ⟨by simp, fun h => absurd List.mem_cons_self h⟩
        · rw [if_neg (by simpa using hg)]
          exact ⟨h1, fun h => h2 (fun h' => h (List.mem_cons_of_mem _ h'))⟩
  have h0 : (ms.filter (fun x => x.group = [])).filter (fun y => y.group = g) = [] := by
    rw [List.filter_eq_nil_iff]
    intro x hx hx'
    have h1 : x.group = [] := by simpa using (List.mem_filter.1 hx).2
    have h2 : x.group = g := by simpa using hx'
    exact hg (h2.symm.trans h1)
  unfold receivers
  rw [List.filter_append, h0, List.nil_append]
  exact (key _ ((nodup_eraseDups _ _ (Nat.le_refl _)).sublist List.filter_sublist)).1

/-- The publication of a message is on its way, or was taken. -/
inductive Once (c : Nat) (m : Nat) (P : Sub → Bool) (s : St) : Prop
  | onItsWay (l1 l2 : List Cmd) (ch : Str) (h : s.out c = l1 ++ .pub m ch :: l2) (h1 : ∀ ch, .pub m ch ∉ l1) (h2 : ∀ ch, .pub m ch ∉ l2)
      (ho : ∀ d, d ≠ c → ∀ ch, .pub m ch ∉ s.out d) (hg : ∀ d ∈ s.got, d.msg ≠ m)
  | taken (ho : ∀ d ch, .pub m ch ∉ s.out d) (hg : (s.got.filter (fun d => d.msg = m ∧ P d.to)).length ≤ 1)

theorem once_write {c m : Nat} {P : Sub → Bool} {s : St} (h : Once c m P s) (d : Nat) (l : List Cmd) (hl : ∀ ch, .pub m ch ∉ l) :
    Once c m P (write s d l) := by
  have hw : ∀ e ch, .pub m ch ∈ (write s d l).out e → .pub m ch ∈ s.out e := by
    intro e ch hm
    rw [write_out] at hm
    by_cases hd : e = d
    · rw [if_pos hd] at hm
      exact (List.mem_append.1 hm).elim id (fun h => absurd h (hl ch))
    · rw [if_neg hd] at hm; exact hm
  cases h with
  | onItsWay l1 l2 ch h h1 h2 ho hg =>
    by_cases hd : c = d
    · refine .onItsWay l1 (l2 ++ l) ch ?_ h1 (fun ch hm => (List.mem_append.1 hm).elim (h2 ch) (hl ch))
        (fun e he ch hm => ho e he ch (hw e ch hm)) hg
      rw [write_out, if_pos hd, h]; simp
    · refine .onItsWay l1 l2 ch ?_ h1 h2 (fun e he ch hm => ho e he ch (hw e ch hm)) hg
      rw [write_out, if_neg hd, h]
  | taken ho hg => exact .taken (fun e ch hm => ho e ch (hw e ch hm)) hg

theorem once_step {c m : Nat} {P : Sub → Bool} {s : St} (hS : ∀ pick ch, ((receivers pick (s.subs.filter (fun x => x.ch = ch))).filter P).length ≤ 1)
    (h : Once c m P s) {e : Ev} (he : ∀ c' ch', e ≠ .publish c' m ch') :
    Once c m P (step s e) := by
  cases e with
  | subscribe d y => exact once_write h d _ (by simp)
  | publish d k ch =>
    refine once_write h d _ (fun ch' hm => ?_)
    simp at hm
    exact he d ch (by rw [hm.1])
  | take d pick =>
    cases hout : s.out d with
    | nil => rw [step_nil hout]; exact h
    | cons cmd rest =>
      rw [step_taken hout]
      have hin : ∀ {c k}, k ∈ (serve { s with out := fun e => if e = d then rest else s.out e } pick cmd).out c → k ∈ s.out c := by
        intro c k hk
        rw [serve_out] at hk
        by_cases hc : c = d
        · simp only [hc, if_true] at hk; rw [hc, hout]; exact List.mem_cons_of_mem _ hk
        · simp only [hc, if_false] at hk; exact hk
      -- the deliveries of other messages
      have other : ∀ k ch, k ≠ m → ∀ t : List Got, (t ++ (receivers pick (s.subs.filter (fun x => x.ch = ch))).map (fun y => Got.mk y k)).filter
          (fun d => d.msg = m ∧ P d.to) = t.filter (fun d => d.msg = m ∧ P d.to) := by
        intro k ch hk t
        suffices h0 : ((receivers pick (s.subs.filter (fun x => x.ch = ch))).map (fun y => Got.mk y k)).filter
            (fun d => d.msg = m ∧ P d.to) = [] by
          rw [List.filter_append, h0, List.append_nil]
        rw [List.filter_eq_nil_iff]
        intro x hx
        obtain ⟨y, _, rfl⟩ := List.mem_map.1 hx
        simp [hk]
      cases h with
      | taken ho hg =>
        refine .taken (fun e ch hm => ho e ch (hin hm)) ?_
        cases cmd with
        | sub => exact hg
        | ping => exact hg
        | pub k ch =>
          have hk : k ≠ m := by rintro rfl; exact ho d ch (hout ▸ List.mem_cons_self)
          show (List.filter _ (s.got ++ _)).length ≤ 1
          rw [other k ch hk]; exact hg
      | onItsWay l1 l2 ch h h1 h2 ho hg =>
        have hgot : (∀ ch, cmd ≠ .pub m ch) → ∀ x ∈ (serve { s with out := fun e => if e = d then rest else s.out e } pick cmd).got, x.msg ≠ m := by
          intro hne x hx
          cases cmd with
          | sub => exact hg x hx
          | ping => exact hg x hx
          | pub k ch' =>
            rcases List.mem_append.1 hx with hx | hx
            · exact hg x hx
            · obtain ⟨y, _, rfl⟩ := List.mem_map.1 hx
              rintro rfl; exact hne ch' rfl
        by_cases hd : c = d
        · subst hd
          rw [hout] at h
          cases l1 with
          | nil =>
            rw [List.nil_append, List.cons.injEq] at h
            obtain ⟨rfl, rfl⟩ := h
            refine .taken (fun e ch hm => ?_) ?_
            · by_cases hec : e = c
              · rw [serve_out] at hm
                simp only [hec, if_true] at hm
                exact h2 ch hm
              · exact ho e hec ch (hin hm)
            · show (List.filter _ (s.got ++ _)).length ≤ 1
              have h0 : s.got.filter (fun d => d.msg = m ∧ P d.to) = [] := by
                rw [List.filter_eq_nil_iff]
                intro x hx; simp [hg x hx]
              rw [List.filter_append, h0, List.nil_append, List.filter_map, List.length_map]
              have := hS pick ch
              simpa [Function.comp_def] using this
          | cons y l1 =>
            rw [List.cons_append, List.cons.injEq] at h
            obtain ⟨rfl, h⟩ := h
            refine .onItsWay l1 l2 ch ?_ (fun ch hm => h1 ch (List.mem_cons_of_mem _ hm)) h2 (fun e he ch hm => ho e he ch (hin hm))
              (hgot (fun ch' e => h1 ch' (e ▸ List.mem_cons_self)))
            rw [serve_out]; simp only [if_true]; exact h
        · refine .onItsWay l1 l2 ch ?_ h1 h2 (fun e he ch hm => ho e he ch (hin hm))
            (hgot (fun ch' e => ho d (fun e' => hd e'.symm) ch' (by rw [hout, e]; exact List.mem_cons_self)))
          rw [serve_out]; simp only [hd, if_false]; exact h

theorem once_run {c m : Nat} {P : Sub → Bool} (es0 : List Ev) (es : List Ev) :
    (∀ p q, es = p ++ q → ∀ pick ch, ((receivers pick ((run init (es0 ++ p)).subs.filter (fun x => x.ch = ch))).filter P).length ≤ 1) →
    Fresh es m → Once c m P (run init es0) → Once c m P (run init (es0 ++ es)) := by
  induction es generalizing es0 with
  | nil => intro _ _ h; simpa using h
  | cons e es ih =>
    intro hS hf h
    have := ih (es0 ++ [e]) (fun p q hq => by simpa using hS (e :: p) q (by simp [hq])) (fun c' ch' hm => hf c' ch' (List.mem_cons_of_mem _ hm)) ?_
    · simpa using this
    · rw [run_append]
      exact once_step (fun pick ch => by simpa using hS [] (e :: es) rfl pick ch) h (fun c' ch' e' => hf c' ch' (e' ▸ List.mem_cons_self))

/-- Deliveries of a message that is published once, to a kind of subscriptions of which a message has one receiver at most. -/
theorem once_all (a b : List Ev) (c m : Nat) (ch : Str) (P : Sub → Bool)
    (hS : ∀ p q, a ++ [.publish c m ch] ++ b = p ++ q →
      ∀ pick ch, ((receivers pick ((run init p).subs.filter (fun x => x.ch = ch))).filter P).length ≤ 1)
    (ha : Fresh a m) (hb : Fresh b m) :
    ((run init (a ++ [.publish c m ch] ++ b)).got.filter (fun d => d.msg = m ∧ P d.to)).length ≤ 1 := by
  have h := from_init a
  have h1 : ∀ d ch, .pub m ch ∉ (run init a).out d := fun d ch hd => ha _ _ (h.outPub d m ch hd)
  have h2 : ∀ d ∈ (run init a).got, d.msg ≠ m := fun d hd e => by
    obtain ⟨_, c', hc⟩ := h.got d hd
    exact ha _ _ (e ▸ hc)
  have h0 : Once c m P (run init (a ++ [.publish c m ch])) := by
    rw [run_append]
    refine .onItsWay ((run init a).out c) [.ping m] ch ?_ (h1 c) (by simp) (fun d hd ch' hm => ?_) h2
    · show (write _ c _).out c = _
      rw [write_out, if_pos rfl]
    · have hm : .pub m ch' ∈ (write (run init a) c [.pub m ch, .ping m]).out d := hm
      rw [write_out, if_neg hd] at hm
      exact h1 d ch' hm
  cases once_run _ b (fun p q hq => hS _ q (by rw [hq]; simp)) hb h0 with
  | taken _ hg => exact hg
  | onItsWay _ _ _ _ _ _ _ hg =>
    rw [List.filter_eq_nil_iff.2 (fun x hx => by simp [hg x hx])]
    simp

/-- **C134 (partial).** A message that is published once is given to at most one subscription of each queue group. -/
theorem C134_once_partial (a b : List Ev) (c m : Nat) (ch : Str) {g : Str} (hne : g ≠ []) (ha : Fresh a m) (hb : Fresh b m) :
    ((run init (a ++ [.publish c m ch] ++ b)).got.filter (fun d => d.msg = m ∧ d.to.group = g)).length ≤ 1 := by
  have := once_all a b c m ch (fun x => x.group = g) (fun p _ _ pick ch => receivers_once pick _ hne) ha hb
  simpa using this

/-! ### Each subscription once -/

/-- The server knows the subscription once, or it is on its way, or was not made. -/
inductive Made (x : Sub) (s : St) : Prop
  | onItsWay (c : Nat) (l1 l2 : List Cmd) (h : s.out c = l1 ++ .sub x :: l2) (h1 : .sub x ∉ l1) (h2 : .sub x ∉ l2)
      (ho : ∀ d, d ≠ c → .sub x ∉ s.out d) (hs : x ∉ s.subs)
  | taken (ho : ∀ d, .sub x ∉ s.out d) (hs : s.subs.count x ≤ 1)

theorem made_write {x : Sub} {s : St} (h : Made x s) (d : Nat) (l : List Cmd) (hl : .sub x ∉ l) : Made x (write s d l) := by
  have hw : ∀ e, .sub x ∈ (write s d l).out e → .sub x ∈ s.out e := by
    intro e hm
    rw [write_out] at hm
    by_cases hd : e = d
    · rw [if_pos hd] at hm
      exact (List.mem_append.1 hm).elim id (fun h => absurd h hl)
    · rw [if_neg hd] at hm; exact hm
  cases h with
  | onItsWay c l1 l2 h h1 h2 ho hs =>
    by_cases hd : c = d
    · refine .onItsWay c l1 (l2 ++ l) ?_ h1 (fun hm => (List.mem_append.1 hm).elim h2 hl) (fun e he hm => ho e he (hw e hm)) hs
      rw [write_out, if_pos hd, h]; simp
    · refine .onItsWay c l1 l2 ?_ h1 h2 (fun e he hm => ho e he (hw e hm)) hs
      rw [write_out, if_neg hd, h]
  | taken ho hs => exact .taken (fun e hm => ho e (hw e hm)) hs

theorem serve_not_sub {x : Sub} (s : St) (pick : Str → Nat) {cmd : Cmd} (h : cmd ≠ .sub x) : (serve s pick cmd).subs.count x = s.subs.count x := by
  cases cmd with
  | sub y =>
    show (s.subs ++ [y]).count x = _
    have h0 : x ∉ [y] := by rw [List.mem_singleton]; rintro rfl; exact h rfl
    rw [List.count_append, List.count_eq_zero.2 h0]; rfl
  | pub => rfl
  | ping => rfl

theorem made_step {x : Sub} {s : St} (h : Made x s) {e : Ev} (he : ∀ c', e ≠ .subscribe c' x) : Made x (step s e) := by
  cases e with
  | subscribe d y =>
    refine made_write h d _ (fun hm => ?_)
    simp at hm
    exact he d (by rw [hm])
  | publish d k ch => exact made_write h d _ (by simp)
  | take d pick =>
    cases hout : s.out d with
    | nil => rw [step_nil hout]; exact h
    | cons cmd rest =>
      rw [step_taken hout]
      have hin : ∀ {c k}, k ∈ (serve { s with out := fun e => if e = d then rest else s.out e } pick cmd).out c → k ∈ s.out c := by
        intro c k hk
        rw [serve_out] at hk
        by_cases hc : c = d
        · simp only [hc, if_true] at hk; rw [hc, hout]; exact List.mem_cons_of_mem _ hk
        · simp only [hc, if_false] at hk; exact hk
      cases h with
      | taken ho hs =>
        refine .taken (fun e hm => ho e (hin hm)) ?_
        rw [serve_not_sub _ _ (fun e => ho d (by rw [hout, e]; exact List.mem_cons_self))]
        exact hs
      | onItsWay c l1 l2 h h1 h2 ho hs =>
        have hsub : cmd ≠ .sub x → x ∉ (serve { s with out := fun e => if e = d then rest else s.out e } pick cmd).subs := by
          intro hne hm
          rw [← List.count_pos_iff, serve_not_sub _ _ hne, List.count_pos_iff] at hm
          exact hs hm
        by_cases hd : c = d
        · subst hd
          rw [hout] at h
          cases l1 with
          | nil =>
            rw [List.nil_append, List.cons.injEq] at h
            obtain ⟨rfl, rfl⟩ := h
            refine .taken (fun e hm => ?_) ?_
            · by_cases hec : e = c
              · rw [serve_out] at hm
                simp only [hec, if_true] at hm
                exact h2 hm
              · exact ho e hec (hin hm)
            · show (s.subs ++ [x]).count x ≤ 1
              rw [List.count_append, List.count_eq_zero.2 hs]; simp
          | cons y l1 =>
            rw [List.cons_append, List.cons.injEq] at h
            obtain ⟨rfl, h⟩ := h
            refine .onItsWay c l1 l2 ?_ (fun hm => h1 (List.mem_cons_of_mem _ hm)) h2 (fun e he hm => ho e he (hin hm))
              (hsub (fun e => h1 (e ▸ List.mem_cons_self)))
            rw [serve_out]; simp only [if_true]; exact h
        · refine .onItsWay c l1 l2 ?_ h1 h2 (fun e he hm => ho e he (hin hm))
            (hsub (fun e => ho d (fun e' => hd e'.symm) (by rw [hout, e]; exact List.mem_cons_self)))
          rw [serve_out]; simp only [hd, if_false]; exact h

/-- A subscription that is made at most once is known at most once. -/
theorem known_once (x : Sub) (es : List Ev) (h : MadeOnce es x) : (run init es).subs.count x ≤ 1 := by
  have key : ∀ (q : List Ev) (s : St), (∀ c, Ev.subscribe c x ∉ q) → Made x s → Made x (run s q) := by
    intro q
    induction q with
    | nil => intro s _ h; exact h
    | cons e q ih =>
      intro s hq h
      rw [run_cons]
      exact ih _ (fun c hm => hq c (List.mem_cons_of_mem _ hm)) (made_step h (fun c e' => hq c (e' ▸ List.mem_cons_self)))
  have fin : ∀ s, Made x s → s.subs.count x ≤ 1 := by
    intro s hm
    cases hm with
    | taken _ hs => exact hs
    | onItsWay _ _ _ _ _ _ _ hs => rw [List.count_eq_zero.2 hs]; exact Nat.zero_le _
  have hi : Made x init := .taken (by simp [init]) (by simp [init])
  rcases h with h | ⟨p, c, q, rfl, hp, hq⟩
  · exact fin _ (key es init h hi)
  · refine fin _ ?_
    rw [run_append]
    refine key q _ hq ?_
    rw [run_append]
    have hf := from_init p
    refine .onItsWay c ((run init p).out c) [] ?_ (fun hm => hp c (hf.outSub c x hm)) (by simp) (fun d hd hm => ?_)
      (fun hm => by obtain ⟨d, hd⟩ := hf.subs x hm; exact hp d hd)
    · show (write _ c _).out c = _
      rw [write_out, if_pos rfl]
    · have hm : .sub x ∈ (write (run init p) c [.sub x]).out d := hm
      rw [write_out, if_neg hd] at hm
      exact hp d (hf.outSub d x hm)

theorem madeOnce_prefix {p q : List Ev} {x : Sub} (h : MadeOnce (p ++ q) x) : MadeOnce p x := by
  rcases h with h | ⟨a, c, b, e, ha, hb⟩
  · exact .inl (fun c hm => h c (List.mem_append_left _ hm))
  · rw [List.append_assoc, List.singleton_append] at e
    rcases List.append_eq_append_iff.1 e with ⟨t, rfl, rfl⟩ | ⟨t, rfl, ht⟩
    · exact .inl (fun c hm => ha c (List.mem_append_left _ hm))
    · cases t with
      | nil => exact .inl (fun c hm => ha c (by simpa using hm))
      | cons y t =>
        rw [List.cons_append, List.cons.injEq] at ht
        obtain ⟨rfl, rfl⟩ := ht
        exact .inr ⟨a, c, t, by simp, ha, fun c hm => hb c (List.mem_append_left _ hm)⟩

theorem filter_length_le {p q : Sub → Bool} (h : ∀ y, p y = true → q y = true) (l : List Sub) : (l.filter p).length ≤ (l.filter q).length := by
  rw [← List.countP_eq_length_filter, ← List.countP_eq_length_filter]
  exact List.countP_mono_left (fun y _ => h y)

theorem receivers_each (pick : Str → Nat) (ms : List Sub) (x : Sub) (h : ms.count x ≤ 1) :
    ((receivers pick ms).filter (fun y => y = x)).length ≤ 1 := by
  by_cases hg : x.group = []
  · have h0 : (((ms.map Sub.group).eraseDups.filter (fun g => g ≠ [])).filterMap (member pick ms)).filter (fun y => y = x) = [] := by
      rw [List.filter_eq_nil_iff]
      intro y hy hx
      have hx : y = x := by simpa using hx
      subst hx
      obtain ⟨g, hgm, hm⟩ := List.mem_filterMap.1 hy
      have h1 : g ≠ [] := by simpa using (List.mem_filter.1 hgm).2
      exact h1 ((mem_member hm).2.symm.trans hg)
    unfold receivers
    rw [List.filter_append, h0, List.append_nil, List.filter_filter]
    refine Nat.le_trans ?_ h
    rw [List.count_eq_length_filter]
    refine filter_length_le (fun y hy => ?_) ms
    simp at hy ⊢
    exact hy.1
  · refine Nat.le_trans (filter_length_le (fun y hy => ?_) _) (receivers_once pick ms hg)
    simp at hy ⊢
    rw [hy]

/-- **C134 (partial).** A subscription that is made once gets a message that is published once at most once. -/
theorem C134_each_partial (a b : List Ev) (c m : Nat) (ch : Str) (x : Sub) (hx : MadeOnce (a ++ [.publish c m ch] ++ b) x)
    (ha : Fresh a m) (hb : Fresh b m) :
    ((run init (a ++ [.publish c m ch] ++ b)).got.filter (fun d => d.msg = m ∧ d.to = x)).length ≤ 1 := by
  have := once_all a b c m ch (fun y => y = x) (fun p q hpq pick ch => ?_) ha hb
  · simpa using this
  · refine receivers_each pick _ x (Nat.le_trans (List.Sublist.count_le x List.filter_sublist) (known_once x p ?_))
    exact madeOnce_prefix (hpq ▸ hx)

/-! ### Publications return -/

/-- The publication has returned, or at most `k` commands are before what it waits for. -/
def Ahead (c m k : Nat) (s : St) : Prop := m ∈ s.returned ∨ ∃ l1 l2, s.out c = l1 ++ .ping m :: l2 ∧ l1.length ≤ k

theorem serve_returned (s : St) (pick : Str → Nat) (cmd : Cmd) : ∀ m ∈ s.returned, m ∈ (serve s pick cmd).returned := by
  intro m hm
  cases cmd with
  | sub => exact hm
  | pub => exact hm
  | ping k => exact List.mem_append_left _ hm

theorem ahead_write {c m k : Nat} {s : St} (h : Ahead c m k s) (d : Nat) (l : List Cmd) : Ahead c m k (write s d l) := by
  rcases h with h | ⟨l1, l2, h, hk⟩
  · exact .inl h
  · by_cases hd : c = d
    · exact .inr ⟨l1, l2 ++ l, by rw [write_out, if_pos hd, h]; simp, hk⟩
    · exact .inr ⟨l1, l2, by rw [write_out, if_neg hd, h], hk⟩

theorem ahead_run {c m : Nat} (es : List Ev) : ∀ {k : Nat} {s : St}, Ahead c m k s → k < turns c es → m ∈ (run s es).returned := by
  have stay : ∀ (es : List Ev) (s : St), m ∈ s.returned → m ∈ (run s es).returned := by
    intro es
    induction es with
    | nil => intro s h; exact h
    | cons e es ih =>
      intro s h
      rw [run_cons]
      refine ih _ ?_
      cases e with
      | subscribe => exact h
      | publish => exact h
      | take d pick =>
        cases hout : s.out d with
        | nil => rw [step_nil hout]; exact h
        | cons cmd rest => rw [step_taken hout]; exact serve_returned _ _ _ _ h
  induction es with
  | nil => intro k s _ hk; exact absurd hk (Nat.not_lt_zero _)
  | cons e es ih =>
    intro k s h hk
    rw [run_cons]
    cases e with
    | subscribe d x => exact ih (ahead_write h d _) hk
    | publish d n ch => exact ih (ahead_write h d _) hk
    | take d pick =>
      rcases h with h | ⟨l1, l2, h, hl⟩
      · rw [← run_cons]; exact stay _ _ h
      · by_cases hd : d = c
        · subst hd
          cases l1 with
          | nil =>
            rw [List.nil_append] at h
            rw [step_taken h]
            exact stay _ _ (List.mem_append_right _ (List.mem_singleton.2 rfl))
          | cons y l1 =>
            rw [List.cons_append] at h
            rw [step_taken h]
            rw [List.length_cons] at hl
            refine ih (k := k - 1) (.inr ⟨l1, l2, ?_, by omega⟩) ?_
            · rw [serve_out]; simp only [if_true]
            · simp only [turns, if_true] at hk; omega
        · have hk' : k < turns c es := by simpa [turns, hd] using hk
          refine ih (k := k) ?_ hk'
          cases hout : s.out d with
          | nil => rw [step_nil hout]; exact .inr ⟨l1, l2, h, hl⟩
          | cons cmd rest =>
            rw [step_taken hout]
            refine .inr ⟨l1, l2, ?_, hl⟩
            rw [serve_out]
            simp only [show ¬ c = d from fun e => hd e.symm, if_false]
            exact h

/-- **C134 (partial).** A publication returns once the server has taken what its connection had written and the two commands of the
publication, whatever else happens meanwhile on this connection and others. -/
theorem C134_returns_partial (a b : List Ev) (c m : Nat) (ch : Str) (ht : ((run init a).out c).length + 1 < turns c b) :
    m ∈ (run init (a ++ [.publish c m ch] ++ b)).returned := by
  have h : Ahead c m (((run init a).out c).length + 1) (run init (a ++ [.publish c m ch])) := by
    rw [run_append]
    refine .inr ⟨(run init a).out c ++ [.pub m ch], [], ?_, by simp⟩
    show (write _ c _).out c = _
    rw [write_out, if_pos rfl]
    simp
  rw [run_append]
  exact ahead_run b h ht

/-- **C134 (partial).** So a message of the subscriber's own controller arrives after as many turns of its connection. -/
theorem C134_arrives_partial (a b e : List Ev) (c : Nat) (x : Sub) (m : Nat) (hf : Fresh (a ++ b) m)
    (ho : On e m x.ch) (he : By e m c)
    (ht : ((run init (a ++ [.subscribe c x] ++ b)).out c).length + 1 < turns c e) :
    Reached (run init (a ++ [.subscribe c x] ++ b ++ [.publish c m x.ch] ++ e)) x m := by
  have hr := C134_returns_partial (a ++ [.subscribe c x] ++ b) e c m x.ch ht
  have hfa : Fresh a m := fun c' ch' hm => hf c' ch' (List.mem_append_left _ hm)
  have hfb : ∀ c' ch', Ev.publish c' m ch' ∉ b := fun c' ch' hm => hf c' ch' (List.mem_append_right _ hm)
  have := C134_own_partial a (b ++ [.publish c m x.ch] ++ e) c x m hfa ?_ ?_ (by simpa using hr)
  · simpa using this
  · intro c' ch' hm
    simp only [List.append_assoc, List.mem_append, List.mem_singleton] at hm
    rcases hm with hm | hm | hm
    · exact absurd hm (hfb _ _)
    · cases hm; rfl
    · exact ho _ _ hm
  · intro c' ch' hm
    simp only [List.append_assoc, List.mem_append, List.mem_singleton] at hm
    rcases hm with hm | hm | hm
    · exact absurd hm (hfb _ _)
    · cases hm; rfl
    · exact he _ _ hm

/-- **C134 is violated**: a subscription to any channel has been made, and another controller publishes on it; the publication
returns without an error, and the message has not reached the subscription or its group, nor does it later, as long as it is not published again. -/
theorem C134_violated_lost (x : Sub) (m : Nat) (pick : Str → Nat) (later : List Ev) (hl : Fresh later m) :
    let h := [.subscribe 0 x, .publish 1 m x.ch, .take 1 pick, .take 1 pick]
    m ∈ (run init h).returned ∧ ¬ Reached (run init (h ++ later)) x m := by
  refine ⟨(by simp [run, init, step, write, serve]), ?_⟩
  have key : ∀ (es : List Ev) (s : St), Fresh es m → (∀ d ∈ s.got, d.msg ≠ m) → (∀ c ch, .pub m ch ∉ s.out c) →
      ∀ d ∈ (run s es).got, d.msg ≠ m := by
    intro es
    induction es with
    | nil => intro s _ h _; exact h
    | cons e es ih =>
      intro s hf hg ho
      rw [run_cons]
      have hf' : Fresh es m := fun c ch hm => hf c ch (List.mem_cons_of_mem _ hm)
      have hw : ∀ c l, (∀ ch, .pub m ch ∉ l) → ∀ c' ch, .pub m ch ∉ (write s c l).out c' := by
        intro c l hl c' ch hm
        rw [write_out] at hm
        by_cases hc : c' = c
        · rw [if_pos hc] at hm
          exact (List.mem_append.1 hm).elim (ho c' ch) (hl ch)
        · rw [if_neg hc] at hm
          exact ho c' ch hm
      cases e with
      | subscribe c y => exact ih _ hf' hg (hw c _ (by simp))
      | publish c k ch =>
        have hk : k ≠ m := fun e => hf c ch (e ▸ List.mem_cons_self)
        exact ih _ hf' hg (hw c _ (by intro ch' hm; simp at hm; exact hk hm.1.symm))
      | take c pick =>
        refine ih _ hf' ?_ ?_
        · cases hout : s.out c with
          | nil => rw [step_nil hout]; exact hg
          | cons cmd rest =>
            rw [step_taken hout]
            cases cmd with
            | sub => exact hg
            | ping => exact hg
            | pub k ch =>
              intro d hd
              rcases List.mem_append.1 hd with hd | hd
              · exact hg d hd
              · obtain ⟨y, _, rfl⟩ := List.mem_map.1 hd
                rintro rfl
                exact ho c ch (hout ▸ List.mem_cons_self)
        · cases hout : s.out c with
          | nil => rw [step_nil hout]; exact ho
          | cons cmd rest =>
            rw [step_taken hout]
            intro c' ch hm
            rw [serve_out] at hm
            by_cases hc : c' = c
            · simp only [hc, if_true] at hm
              exact ho c ch (hout ▸ List.mem_cons_of_mem _ hm)
            · simp only [hc, if_false] at hm
              exact ho c' ch hm
  rintro ⟨d, hd, he, _⟩
  rw [run_append] at hd
  refine key later _ hl ?_ ?_ d hd he
  · simp [run, init, step, write, serve, receivers]
  · intro c ch hm
    simp only [run, List.foldl, step, write, init, serve] at hm
    by_cases h0 : c = 0 <;> by_cases h1 : c = 1 <;> simp_all

/-! ## Non-vacuity -/

/-- The controllers 0 and 1 subscribe in one group, and 0 publishes: one of them gets the message. -/
def exHist : List Ev :=
  [.subscribe 1 ⟨7, ['g'], ['a']⟩, .take 1 (fun _ => 0), .subscribe 0 ⟨8, ['g'], ['a']⟩, .publish 0 5 ['a'], .take 0 (fun _ => 0),
    .take 0 (fun _ => 3), .take 0 (fun _ => 0)]

example : (run init exHist).got = [⟨⟨8, ['g'], ['a']⟩, 5⟩] ∧ (run init exHist).returned = [5] := by decide

example : (run init (exHist ++ [.publish 1 6 ['a'], .take 1 (fun _ => 0), .take 1 (fun _ => 0)])).got =
    [⟨⟨8, ['g'], ['a']⟩, 5⟩, ⟨⟨7, ['g'], ['a']⟩, 6⟩] := by decide

/-- Different groups each get the message. -/
example : receivers (fun _ => 1) [⟨1, ['g'], ['a']⟩, ⟨2, ['h'], ['a']⟩, ⟨3, ['g'], ['a']⟩] = [⟨3, ['g'], ['a']⟩, ⟨2, ['h'], ['a']⟩] := by decide

/-- Without a queue group, every subscription gets the message. -/
example : receivers (fun _ => 0) [⟨1, [], ['a']⟩, ⟨2, ['h'], ['a']⟩, ⟨3, [], ['a']⟩] = [⟨1, [], ['a']⟩, ⟨3, [], ['a']⟩, ⟨2, ['h'], ['a']⟩] := by
  decide

/-- A subscription that is made once, on a channel with another one: each gets the message once. -/
example : MadeOnce ([.subscribe 0 ⟨1, [], ['a']⟩, .subscribe 1 ⟨2, [], ['a']⟩] ++ [.publish 1 5 ['a']] ++ [.take 0 (fun _ => 0), .take 1 (fun _ => 0), .take 1 (fun _ => 0)]) ⟨1, [], ['a']⟩ :=
  .inr ⟨[], 0, _, rfl, by simp, by simp⟩

example : (run init ([.subscribe 0 ⟨1, [], ['a']⟩, .subscribe 1 ⟨2, [], ['a']⟩] ++ [.publish 1 5 ['a']] ++ [.take 0 (fun _ => 0), .take 1 (fun _ => 0), .take 1 (fun _ => 0)])).got =
    [⟨⟨1, [], ['a']⟩, 5⟩, ⟨⟨2, [], ['a']⟩, 5⟩] := by decide

/-- Three turns of the connection suffice after a subscription, among those of another. -/
def exTurns : List Ev := [.take 1 (fun _ => 0), .take 0 (fun _ => 0), .take 0 (fun _ => 0), .subscribe 0 ⟨3, [], ['b']⟩, .take 0 (fun _ => 0)]

example : ((run init [.subscribe 1 ⟨2, [], ['a']⟩, .subscribe 0 ⟨1, [], ['a']⟩]).out 0).length + 1 < turns 0 exTurns := by decide

example : 5 ∈ (run init ([.subscribe 1 ⟨2, [], ['a']⟩, .subscribe 0 ⟨1, [], ['a']⟩] ++ [.publish 0 5 ['a']] ++ exTurns)).returned ∧
    (run init ([.subscribe 1 ⟨2, [], ['a']⟩, .subscribe 0 ⟨1, [], ['a']⟩] ++ [.publish 0 5 ['a']] ++ exTurns)).got =
      [⟨⟨2, [], ['a']⟩, 5⟩, ⟨⟨1, [], ['a']⟩, 5⟩] := by decide

end Verif.NatsOrder
