import Verif.Spec.Middleware

namespace Verif.Middleware

variable {C M X E : Type}

/-! ## Lists of events -/

theorem starts_append (a b : List (Ev C M E)) : starts (a ++ b) = starts a ++ starts b := by
  induction a with
  | nil => rfl
  | cons e t ih => cases e <;> simp [starts, ih]

theorem opRuns_append (a b : List (Ev C M E)) : opRuns (a ++ b) = opRuns a ++ opRuns b := by
  induction a with
  | nil => rfl
  | cons e t ih => cases e <;> simp [opRuns, ih]

theorem opOutcomes_append (a b : List (Ev C M E)) :
    opOutcomes (a ++ b) = opOutcomes a ++ opOutcomes b := by
  induction a with
  | nil => rfl
  | cons e t ih => cases e <;> simp [opOutcomes, ih]

theorem mem_opOutcomes (t : List (Ev C M E)) (r : Res E) : r ∈ opOutcomes t ↔ .cbExit r ∈ t := by
  induction t with
  | nil => simp [opOutcomes]
  | cons e t ih => cases e <;> simp [opOutcomes, ih]

theorem lastWritten_append (m0 : M) (a b : List (Ev C M E)) :
    lastWritten m0 (a ++ b) = lastWritten (lastWritten m0 a) b := by
  induction a generalizing m0 with
  | nil => rfl
  | cons e t ih => cases e <;> simp [lastWritten, ih]

theorem length_opRuns (t : List (Ev C M E)) : (opRuns t).length = (starts t).count .op := by
  induction t with
  | nil => rfl
  | cons e t ih => cases e <;> simp [opRuns, starts, ih]

/-! ## Preservation principle for simple invariants -/

theorem runProg_pres {P : St C M X E → Prop}
    {next : C → St C M X E → Res E × St C M X E}
    (hnext : ∀ ctx s, P s → P (next ctx s).2)
    (hwrite : ∀ s m, P s → P (({ s with msg := m } : St C M X E).log (.wrote m))) :
    ∀ (p : MProg C M E) (s : St C M X E), P s → P (runProg next p s).2 := by
  intro p
  induction p with
  | ret e => intro s h; exact h
  | panic => intro s h; exact h
  | read k ih => intro s h; exact ih s.msg s h
  | write m k ih => intro s h; exact ih _ (hwrite s m h)
  | next ctx k ih =>
    intro s h
    have := hnext ctx s h
    simp only [runProg]
    split
    · rename_i e s' heq; rw [heq] at this; exact ih e s' this
    · rename_i s' heq; rw [heq] at this; exact this
  | nextR ctx k ih =>
    intro s h
    have := hnext ctx s h
    simp only [runProg]
    exact ih _ _ this

theorem callLevel_pres {P : St C M X E → Prop} (cb : Option (Callback C M X E))
    (hset : ∀ s l, P s → P (s.setCalled l))
    (henter : ∀ s l c, P s → P (s.log (.enter l c)))
    (hexit : ∀ s l r, P s → P (s.log (.exit l r)))
    (hwrite : ∀ s m, P s → P (({ s with msg := m } : St C M X E).log (.wrote m)))
    (hcb : ∀ f ctx s, cb = some f → P s →
      P (({ s.log (.cb ctx s.msg) with x := (f ctx s.msg s.x).2 } : St C M X E).log
          (.cbExit (f ctx s.msg s.x).1))) :
    ∀ (mws : List (Mw C M E)) (lvl : Nat) (ctx : C) (s : St C M X E),
      P s → P (callLevel cb mws lvl ctx s).2 := by
  intro mws
  induction mws with
  | nil =>
    intro lvl ctx s h
    unfold callLevel
    cases hc : cb with
    | none => exact h
    | some f =>
      simp only
      split
      · exact hcb f ctx (s.setCalled lvl) hc (hset s lvl h)
      · exact h
  | cons mw rest ih =>
    intro lvl ctx s h
    have hp := runProg_pres (P := P) (next := callLevel cb rest (lvl + 1))
      (fun ctx s hs => ih (lvl + 1) ctx s hs) hwrite (mw ctx)
      ((s.setCalled lvl).log (.enter lvl ctx)) (henter _ _ _ (hset _ _ h))
    unfold callLevel
    split
    · simp only
      split
      · rename_i s2 heq; rw [heq] at hp; exact ih _ _ _ (hexit _ _ _ hp)
      · rename_i r s2 _ heq; rw [heq] at hp; exact hexit _ _ _ hp
    · exact h

/-- History only grows. -/
theorem callLevel_trace_prefix (cb : Option (Callback C M X E)) (mws : List (Mw C M E)) (lvl : Nat)
    (ctx : C) (s : St C M X E) : s.trace <+: (callLevel cb mws lvl ctx s).2.trace := by
  apply callLevel_pres (P := fun s' => s.trace <+: s'.trace) cb
  · intro s' l h; exact h
  · intro s' l c h; exact h.trans (List.prefix_append _ _)
  · intro s' l r h; exact h.trans (List.prefix_append _ _)
  · intro s' m h; exact h.trans (List.prefix_append _ _)
  · intro f c s' _ h
    refine h.trans ?_
    simp only [St.log, List.append_assoc]
    exact List.prefix_append _ _
  · exact List.prefix_refl _

theorem runProg_trace_prefix (cb : Option (Callback C M X E)) (mws : List (Mw C M E)) (lvl : Nat)
    (p : MProg C M E) (s : St C M X E) :
    s.trace <+: (runProg (callLevel cb mws lvl) p s).2.trace := by
  apply runProg_pres (P := fun s' => s.trace <+: s'.trace)
  · intro ctx s' h; exact h.trans (callLevel_trace_prefix cb mws lvl ctx s')
  · intro s' m h; exact h.trans (List.prefix_append _ _)
  · exact List.prefix_refl _

/-! ## The order invariant -/

theorem take_fullOrder_succ {n d : Nat} (h : d < n) :
    (fullOrder n).take (d + 1) = (fullOrder n).take d ++ [.mw d] := by
  have hl : d < (fullOrder n).length := by simp [fullOrder]; omega
  rw [List.take_succ_eq_append_getElem hl]
  congr 1
  simp [fullOrder, h]

theorem take_fullOrder_last (n : Nat) :
    (fullOrder n).take (n + 1) = (fullOrder n).take n ++ [.op] := by
  have hl : n < (fullOrder n).length := by simp [fullOrder]
  rw [List.take_succ_eq_append_getElem hl]
  congr 1
  simp [fullOrder]

/-- `d` closures have been called: the first `d` of: middleware 0, …, middleware n-1, operation. -/
def Inv (n d : Nat) (s : St C M X E) : Prop :=
  (∀ j, s.called j = decide (j < d)) ∧ starts s.trace = (fullOrder n).take d ∧ d ≤ n + 1 ∧
  (opOutcomes s.trace).length = (if d = n + 1 then 1 else 0)

theorem inv_write {n d : Nat} {s : St C M X E} (h : Inv n d s) (m : M) :
    Inv n d (({ s with msg := m } : St C M X E).log (.wrote m)) := by
  obtain ⟨h1, h2, h3, h4⟩ := h
  refine ⟨h1, ?_, h3, ?_⟩
  · simp [St.log, starts_append, h2, starts]
  · simpa [St.log, opOutcomes_append, opOutcomes] using h4

theorem inv_exit {n d : Nat} {s : St C M X E} (h : Inv n d s) (l : Nat) (r : Res E) :
    Inv n d (s.log (.exit l r)) := by
  obtain ⟨h1, h2, h3, h4⟩ := h
  refine ⟨h1, ?_, h3, ?_⟩
  · simp [St.log, starts_append, h2, starts]
  · simpa [St.log, opOutcomes_append, opOutcomes] using h4

theorem inv_enter {n d : Nat} {s : St C M X E} {ctx : C} (h : Inv n d s) (hd : d < n) :
    Inv n (d + 1) ((s.setCalled d).log (.enter d ctx)) := by
  obtain ⟨h1, h2, h3, h4⟩ := h
  refine ⟨?_, ?_, by omega, ?_⟩
  · intro j
    simp only [St.log, St.setCalled, h1]
    by_cases hj : j = d
    · subst hj; simp
    · rw [if_neg hj]
      have : (j < d) ↔ (j < d + 1) := by omega
      simp [this]
  · rw [take_fullOrder_succ hd]
    simp [St.log, St.setCalled, starts_append, h2, starts]
  · have h5 : d ≠ n + 1 := by omega
    have h6 : d + 1 ≠ n + 1 := by omega
    simp only [h5, h6, if_false] at h4 ⊢
    simpa [St.log, St.setCalled, opOutcomes_append, opOutcomes] using h4

theorem inv_cb {n : Nat} {s : St C M X E} (h : Inv n n s) (ctx : C) (m : M) (x : X) (r : Res E) :
    Inv n (n + 1)
      (({ (s.setCalled n).log (.cb ctx m) with x := x } : St C M X E).log (.cbExit r)) := by
  obtain ⟨h1, h2, h3, h4⟩ := h
  refine ⟨?_, ?_, by omega, ?_⟩
  · intro j
    simp only [St.log, St.setCalled, h1]
    by_cases hj : j = n
    · subst hj; simp
    · rw [if_neg hj]
      have : (j < n) ↔ (j < n + 1) := by omega
      simp [this]
  · rw [take_fullOrder_last]
    simp [St.log, St.setCalled, starts_append, h2, starts]
  · have h5 : n ≠ n + 1 := by omega
    simp only [h5, if_false] at h4
    simp [St.log, St.setCalled, opOutcomes_append, opOutcomes, List.length_append, h4]

theorem runProg_inv {n l : Nat} {next : C → St C M X E → Res E × St C M X E}
    (hnext : ∀ ctx s d, Inv n d s → l ≤ d → ∃ d', d ≤ d' ∧ Inv n d' (next ctx s).2) :
    ∀ (p : MProg C M E) (s : St C M X E) (d : Nat), Inv n d s → l ≤ d →
      ∃ d', d ≤ d' ∧ Inv n d' (runProg next p s).2 := by
  intro p
  induction p with
  | ret e => intro s d h _; exact ⟨d, Nat.le_refl _, h⟩
  | panic => intro s d h _; exact ⟨d, Nat.le_refl _, h⟩
  | read k ih => intro s d h hl; exact ih s.msg s d h hl
  | write m k ih => intro s d h hl; exact ih _ d (inv_write h m) hl
  | next ctx k ih =>
    intro s d h hl
    obtain ⟨d1, hd1, hi1⟩ := hnext ctx s d h hl
    simp only [runProg]
    split
    · rename_i e s' heq
      rw [heq] at hi1
      obtain ⟨d2, hd2, hi2⟩ := ih e s' d1 hi1 (by omega)
      exact ⟨d2, by omega, hi2⟩
    · rename_i s' heq; rw [heq] at hi1; exact ⟨d1, hd1, hi1⟩
  | nextR ctx k ih =>
    intro s d h hl
    obtain ⟨d1, hd1, hi1⟩ := hnext ctx s d h hl
    simp only [runProg]
    obtain ⟨d2, hd2, hi2⟩ := ih _ _ d1 hi1 (by omega)
    exact ⟨d2, by omega, hi2⟩

theorem callLevel_inv (cb : Option (Callback C M X E)) :
    ∀ (mws : List (Mw C M E)) (lvl n : Nat), lvl + mws.length = n →
    ∀ (ctx : C) (s : St C M X E) (d : Nat), Inv n d s → lvl ≤ d →
      ∃ d', d ≤ d' ∧ Inv n d' (callLevel cb mws lvl ctx s).2 := by
  intro mws
  induction mws with
  | nil =>
    intro lvl n hn ctx s d h hl
    simp only [List.length_nil, Nat.add_zero] at hn
    subst hn
    unfold callLevel
    cases cb with
    | none => exact ⟨d, Nat.le_refl _, h⟩
    | some f =>
      simp only
      split
      · rename_i hc
        have hd : d = lvl := by
          have := h.1 lvl
          simp only [Bool.not_eq_true'] at hc
          rw [hc] at this
          have : ¬ lvl < d := by simpa using this.symm
          omega
        subst hd
        exact ⟨d + 1, by omega, inv_cb h ctx s.msg _ _⟩
      · exact ⟨d, Nat.le_refl _, h⟩
  | cons mw rest ih =>
    intro lvl n hn ctx s d h hl
    simp only [List.length_cons] at hn
    unfold callLevel
    split
    · rename_i hc
      have hd : d = lvl := by
        have := h.1 lvl
        simp only [Bool.not_eq_true'] at hc
        rw [hc] at this
        have : ¬ lvl < d := by simpa using this.symm
        omega
      subst hd
      have h1 : Inv n (d + 1) ((s.setCalled d).log (.enter d ctx)) := inv_enter h (by omega)
      obtain ⟨d1, hd1, hi1⟩ := runProg_inv (l := d + 1) (next := callLevel cb rest (d + 1))
        (fun ctx s d' hi hl => ih (d + 1) n (by omega) ctx s d' hi hl) (mw ctx) _ (d + 1) h1
        (Nat.le_refl _)
      simp only
      split
      · rename_i s2 heq; rw [heq] at hi1
        obtain ⟨d2, hd2, hi2⟩ := ih (d + 1) n (by omega) ctx _ d1 (inv_exit hi1 d (.ret none)) hd1
        exact ⟨d2, by omega, hi2⟩
      · rename_i r s2 _ heq; rw [heq] at hi1
        exact ⟨d1, by omega, inv_exit hi1 d r⟩
    · exact ⟨d, Nat.le_refl _, h⟩

theorem inv_start (n : Nat) (m : M) (x : X) : Inv n 0 (St.start m x : St C M X E) := by
  refine ⟨?_, ?_, by omega, ?_⟩ <;> simp [St.start, starts, opOutcomes]

/-! ## Refinement of the one-shot semantics -/

/-- The closure at `lvl` does nothing any more. -/
def Spent (cb : Option (Callback C M X E)) (mws : List (Mw C M E)) (lvl : Nat) (s : St C M X E) :
    Prop := s.called lvl = true ∨ (mws = [] ∧ cb = none)

theorem spent_call {cb : Option (Callback C M X E)} {mws : List (Mw C M E)} {lvl : Nat}
    {s : St C M X E} (h : Spent cb mws lvl s) (ctx : C) :
    callLevel cb mws lvl ctx s = (.ret none, s) := by
  rcases h with h | ⟨rfl, rfl⟩
  · cases mws with
    | nil => unfold callLevel; cases cb <;> simp [h]
    | cons mw rest => unfold callLevel; simp [h]
  · rfl

/-- The closures from `lvl` on have not been called. -/
def Fresh (lvl : Nat) (s : St C M X E) : Prop := ∀ j, lvl ≤ j → s.called j = false

theorem runProg_spec {cb : Option (Callback C M X E)} {rest : List (Mw C M E)} {lvl : Nat}
    (hnext : ∀ ctx (s : St C M X E), Fresh lvl s →
      (callLevel cb rest lvl ctx s).1 = (specChain cb rest ctx (s.msg, s.x)).1 ∧
      ((callLevel cb rest lvl ctx s).2.msg, (callLevel cb rest lvl ctx s).2.x) =
        (specChain cb rest ctx (s.msg, s.x)).2 ∧
      Spent cb rest lvl (callLevel cb rest lvl ctx s).2 ∧
      ∀ j, j < lvl → (callLevel cb rest lvl ctx s).2.called j = s.called j) :
    ∀ (p : MProg C M E) (ran : Bool) (s : St C M X E),
      (ran = false → Fresh lvl s) → (ran = true → Spent cb rest lvl s) →
      (runProg (callLevel cb rest lvl) p s).1 =
        (specProg (specChain cb rest) p ran (s.msg, s.x)).1 ∧
      ((runProg (callLevel cb rest lvl) p s).2.msg, (runProg (callLevel cb rest lvl) p s).2.x) =
        (specProg (specChain cb rest) p ran (s.msg, s.x)).2.2 ∧
      ((specProg (specChain cb rest) p ran (s.msg, s.x)).2.1 = false →
        Fresh lvl (runProg (callLevel cb rest lvl) p s).2) ∧
      ((specProg (specChain cb rest) p ran (s.msg, s.x)).2.1 = true →
        Spent cb rest lvl (runProg (callLevel cb rest lvl) p s).2) ∧
      ∀ j, j < lvl → (runProg (callLevel cb rest lvl) p s).2.called j = s.called j := by
  intro p
  induction p with
  | ret e => intro ran s h1 h2; exact ⟨rfl, rfl, h1, h2, fun _ _ => rfl⟩
  | panic => intro ran s h1 h2; exact ⟨rfl, rfl, h1, h2, fun _ _ => rfl⟩
  | read k ih => intro ran s h1 h2; exact ih s.msg ran s h1 h2
  | write m k ih =>
    intro ran s h1 h2
    exact ih ran (({ s with msg := m } : St C M X E).log (.wrote m)) h1 h2
  | next ctx k ih =>
    intro ran s h1 h2
    cases ran with
    | true =>
      have hs := spent_call (h2 rfl) ctx
      simp only [runProg, specProg, hs]
      exact ih none true s h1 h2
    | false =>
      obtain ⟨a1, a2, a3, a4⟩ := hnext ctx s (h1 rfl)
      simp only [runProg, specProg]
      generalize hc : callLevel cb rest lvl ctx s = o at a1 a2 a3 a4
      generalize hp : specChain cb rest ctx (s.msg, s.x) = q at a1 a2
      obtain ⟨r, s'⟩ := o
      obtain ⟨r', q'⟩ := q
      simp only at a1 a2 a3 a4
      subst a1; subst a2
      cases r with
      | panicked =>
        refine ⟨rfl, rfl, ?_, fun _ => a3, a4⟩
        intro h; simp at h
      | ret e =>
        simp only
        have := ih e true s' (fun h => by cases h) (fun _ => a3)
        refine ⟨this.1, this.2.1, this.2.2.1, this.2.2.2.1, fun j hj => ?_⟩
        rw [this.2.2.2.2 j hj, a4 j hj]
  | nextR ctx k ih =>
    intro ran s h1 h2
    cases ran with
    | true =>
      have hs := spent_call (h2 rfl) ctx
      simp only [runProg, specProg, hs]
      exact ih (.ret none) true s h1 h2
    | false =>
      obtain ⟨a1, a2, a3, a4⟩ := hnext ctx s (h1 rfl)
      simp only [runProg, specProg]
      generalize hc : callLevel cb rest lvl ctx s = o at a1 a2 a3 a4
      generalize hp : specChain cb rest ctx (s.msg, s.x) = q at a1 a2
      obtain ⟨r, s'⟩ := o
      obtain ⟨r', q'⟩ := q
      simp only at a1 a2 a3 a4
      subst a1; subst a2
      simp only
      have := ih r true s' (fun h => by cases h) (fun _ => a3)
      refine ⟨this.1, this.2.1, this.2.2.1, this.2.2.2.1, fun j hj => ?_⟩
      rw [this.2.2.2.2 j hj, a4 j hj]

theorem callLevel_spec (cb : Option (Callback C M X E)) :
    ∀ (mws : List (Mw C M E)) (lvl : Nat) (ctx : C) (s : St C M X E), Fresh lvl s →
      (callLevel cb mws lvl ctx s).1 = (specChain cb mws ctx (s.msg, s.x)).1 ∧
      ((callLevel cb mws lvl ctx s).2.msg, (callLevel cb mws lvl ctx s).2.x) =
        (specChain cb mws ctx (s.msg, s.x)).2 ∧
      Spent cb mws lvl (callLevel cb mws lvl ctx s).2 ∧
      ∀ j, j < lvl → (callLevel cb mws lvl ctx s).2.called j = s.called j := by
  intro mws
  induction mws with
  | nil =>
    intro lvl ctx s h
    have hf := h lvl (Nat.le_refl _)
    cases cb with
    | none =>
      refine ⟨rfl, rfl, Or.inr ⟨rfl, rfl⟩, fun _ _ => rfl⟩
    | some f =>
      unfold callLevel specChain
      simp only [hf, Bool.not_false, if_true]
      refine ⟨rfl, rfl, Or.inl ?_, ?_⟩
      · simp [St.log, St.setCalled]
      · intro j hj
        have : j ≠ lvl := by omega
        simp [St.log, St.setCalled, this]
  | cons mw rest ih =>
    intro lvl ctx s h
    have hf := h lvl (Nat.le_refl _)
    have hfresh : Fresh (lvl + 1) ((s.setCalled lvl).log (.enter lvl ctx)) := by
      intro j hj
      have : j ≠ lvl := by omega
      simp only [St.log, St.setCalled, this, if_false]
      exact h j (by omega)
    have hp := runProg_spec (cb := cb) (rest := rest) (lvl := lvl + 1) (ih (lvl + 1)) (mw ctx) false
      ((s.setCalled lvl).log (.enter lvl ctx)) (fun _ => hfresh) (fun h => by cases h)
    obtain ⟨b1, b2, b3, b4, b5⟩ := hp
    have hlow : ∀ j, j < lvl → ((s.setCalled lvl).log (.enter lvl ctx)).called j = s.called j := by
      intro j hj
      have : j ≠ lvl := by omega
      simp [St.log, St.setCalled, this]
    have hself : ((s.setCalled lvl).log (.enter lvl ctx)).called lvl = true := by
      simp [St.log, St.setCalled]
    have hmx : (((s.setCalled lvl).log (.enter lvl ctx)).msg, ((s.setCalled lvl).log (.enter lvl ctx)).x)
        = (s.msg, s.x) := rfl
    rw [hmx] at b1 b2 b3 b4
    unfold callLevel specChain
    simp only [hf, Bool.not_false, if_true]
    generalize hc : runProg (callLevel cb rest (lvl + 1)) (mw ctx)
      ((s.setCalled lvl).log (.enter lvl ctx)) = o at b1 b2 b3 b4 b5
    generalize hq : specProg (specChain cb rest) (mw ctx) false (s.msg, s.x) = q at b1 b2 b3 b4
    obtain ⟨r, s2⟩ := o
    obtain ⟨r', ran, q'⟩ := q
    simp only at b1 b2 b3 b4 b5
    subst b1; subst b2
    cases r with
    | panicked =>
      simp only
      refine ⟨by trivial, rfl, Or.inl ?_, ?_⟩
      · simpa [St.log] using (b5 lvl (by omega)).trans hself
      · intro j hj
        simpa [St.log] using (b5 j (by omega)).trans (hlow j hj)
    | ret e =>
      cases e with
      | some e =>
        simp only
        refine ⟨by trivial, rfl, Or.inl ?_, ?_⟩
        · simpa [St.log] using (b5 lvl (by omega)).trans hself
        · intro j hj
          simpa [St.log] using (b5 j (by omega)).trans (hlow j hj)
      | none =>
        simp only
        cases ran with
        | false =>
          have := ih (lvl + 1) ctx (s2.log (.exit lvl (.ret none))) (b3 rfl)
          obtain ⟨c1, c2, c3, c4⟩ := this
          refine ⟨c1, c2, Or.inl ?_, ?_⟩
          · rw [c4 lvl (by omega)]
            simpa [St.log] using (b5 lvl (by omega)).trans hself
          · intro j hj
            rw [c4 j (by omega)]
            simpa [St.log] using (b5 j (by omega)).trans (hlow j hj)
        | true =>
          have hsp : Spent cb rest (lvl + 1) (s2.log (.exit lvl (.ret none))) := b4 rfl
          rw [spent_call hsp]
          refine ⟨rfl, rfl, Or.inl ?_, ?_⟩
          · simpa [St.log] using (b5 lvl (by omega)).trans hself
          · intro j hj
            simpa [St.log] using (b5 j (by omega)).trans (hlow j hj)

/-- `executeMiddlewares` behaves like the one-shot semantics. -/
theorem executeMiddlewares_spec (mws : List (Mw C M E)) (ctx : C) (m : M) (x : X)
    (cb : Option (Callback C M X E)) :
    (executeMiddlewares mws ctx m x cb).1 = (specChain cb mws ctx (m, x)).1 ∧
    ((executeMiddlewares mws ctx m x cb).2.msg, (executeMiddlewares mws ctx m x cb).2.x) =
      (specChain cb mws ctx (m, x)).2 := by
  have := callLevel_spec cb mws 0 ctx (St.start m x) (fun _ _ => rfl)
  exact ⟨this.1, this.2.1⟩

/-! ## Executions in which no middleware fails -/

theorem allMwOk_of_prefix {a b : List (Ev C M E)} (h : a <+: b) (hb : AllMwOk b) : AllMwOk a :=
  fun i r hi => hb i r (h.subset hi)

theorem runProg_ok {n l : Nat} {cb : Option (Callback C M X E)} {rest : List (Mw C M E)}
    (hnext : ∀ ctx (s : St C M X E) d, Inv n d s → (d = l ∨ d = n + 1) →
      AllMwOk (callLevel cb rest l ctx s).2.trace → Inv n (n + 1) (callLevel cb rest l ctx s).2) :
    ∀ (p : MProg C M E) (s : St C M X E) (d : Nat), Inv n d s → (d = l ∨ d = n + 1) →
      AllMwOk (runProg (callLevel cb rest l) p s).2.trace →
      ∃ d', (d' = l ∨ d' = n + 1) ∧ Inv n d' (runProg (callLevel cb rest l) p s).2 := by
  intro p
  induction p with
  | ret e => intro s d h hd _; exact ⟨d, hd, h⟩
  | panic => intro s d h hd _; exact ⟨d, hd, h⟩
  | read k ih => intro s d h hd hok; exact ih s.msg s d h hd hok
  | write m k ih => intro s d h hd hok; exact ih _ d (inv_write h m) hd hok
  | next ctx k ih =>
    intro s d h hd hok
    have hn := hnext ctx s d h hd
    simp only [runProg] at hok ⊢
    generalize callLevel cb rest l ctx s = o at hok hn
    obtain ⟨r, s'⟩ := o
    cases r with
    | ret e =>
      have hpre := runProg_trace_prefix cb rest l (k e) s'
      exact ih e s' (n + 1) (hn (allMwOk_of_prefix hpre hok)) (Or.inr rfl) hok
    | panicked => exact ⟨n + 1, Or.inr rfl, hn hok⟩
  | nextR ctx k ih =>
    intro s d h hd hok
    have hn := hnext ctx s d h hd
    simp only [runProg] at hok ⊢
    generalize callLevel cb rest l ctx s = o at hok hn
    obtain ⟨r, s'⟩ := o
    have hpre := runProg_trace_prefix cb rest l (k r) s'
    exact ih r s' (n + 1) (hn (allMwOk_of_prefix hpre hok)) (Or.inr rfl) hok

theorem callLevel_ok (f : Callback C M X E) :
    ∀ (mws : List (Mw C M E)) (lvl n : Nat), lvl + mws.length = n →
    ∀ (ctx : C) (s : St C M X E) (d : Nat), Inv n d s → (d = lvl ∨ d = n + 1) →
      AllMwOk (callLevel (some f) mws lvl ctx s).2.trace →
      Inv n (n + 1) (callLevel (some f) mws lvl ctx s).2 := by
  intro mws
  induction mws with
  | nil =>
    intro lvl n hn ctx s d h hd _
    simp only [List.length_nil, Nat.add_zero] at hn
    subst hn
    have hc := h.1 lvl
    unfold callLevel
    rcases hd with hd | hd
    · subst hd
      have hc' : s.called d = false := by simpa using hc
      simp only [hc', Bool.not_false, if_true]
      exact inv_cb h ctx s.msg _ _
    · have hc' : s.called lvl = true := by rw [hc]; simp; omega
      simp only [hc', Bool.not_true, Bool.false_eq_true, if_false]
      exact hd ▸ h
  | cons mw rest ih =>
    intro lvl n hn ctx s d h hd hok
    simp only [List.length_cons] at hn
    have hc := h.1 lvl
    unfold callLevel at hok ⊢
    rcases hd with hd | hd
    · subst hd
      have hc' : s.called d = false := by simpa using hc
      simp only [hc', Bool.not_false, if_true] at hok ⊢
      have h1 : Inv n (d + 1) ((s.setCalled d).log (.enter d ctx)) := inv_enter h (by omega)
      have hp := runProg_ok (n := n) (l := d + 1) (cb := some f) (rest := rest)
        (fun ctx s d' hi hd' hok' => ih (d + 1) n (by omega) ctx s d' hi hd' hok') (mw ctx) _ (d + 1)
        h1 (Or.inl rfl)
      generalize runProg (callLevel (some f) rest (d + 1)) (mw ctx)
        ((s.setCalled d).log (.enter d ctx)) = o at hok hp
      obtain ⟨r, s2⟩ := o
      simp only at hp
      have hrr : r = .ret none := by
        cases r with
        | panicked => exact hok d .panicked (by simp [St.log])
        | ret e => cases e with
          | none => rfl
          | some e => exact hok d (.ret (some e)) (by simp [St.log])
      subst hrr
      simp only at hok ⊢
      have hpre := callLevel_trace_prefix (some f) rest (d + 1) ctx (s2.log (.exit d (.ret none)))
      have hpre2 : s2.trace <+: (s2.log (.exit d (.ret none))).trace := by
        simp [St.log]
      obtain ⟨d', hd', hi'⟩ := hp (allMwOk_of_prefix (hpre2.trans hpre) hok)
      exact ih (d + 1) n (by omega) ctx _ d' (inv_exit hi' d _) hd' hok
    · have hlt : lvl < d := by omega
      have hc' : s.called lvl = true := by rw [hc]; simpa using hlt
      simp only [hc', Bool.not_true, Bool.false_eq_true, if_false]
      exact hd ▸ h

/-- If no middleware fails and the operation (if executed) succeeds, the chain succeeds. -/
theorem callLevel_ok_result (f : Callback C M X E) :
    ∀ (mws : List (Mw C M E)) (lvl : Nat) (ctx : C) (s : St C M X E),
      AllMwOk (callLevel (some f) mws lvl ctx s).2.trace →
      (∀ r, .cbExit r ∈ (callLevel (some f) mws lvl ctx s).2.trace → r = .ret none) →
      (callLevel (some f) mws lvl ctx s).1 = .ret none := by
  intro mws
  induction mws with
  | nil =>
    intro lvl ctx s _ hcb
    unfold callLevel at hcb ⊢
    cases hc : s.called lvl with
    | true => simp
    | false =>
      simp only [hc, Bool.not_false, if_true] at hcb ⊢
      exact hcb _ (by simp [St.log])
  | cons mw rest ih =>
    intro lvl ctx s hok hcb
    unfold callLevel at hok hcb ⊢
    cases hc : s.called lvl with
    | true => simp
    | false =>
      simp only [hc, Bool.not_false, if_true] at hok hcb ⊢
      generalize runProg (callLevel (some f) rest (lvl + 1)) (mw ctx)
        ((s.setCalled lvl).log (.enter lvl ctx)) = o at hok hcb
      obtain ⟨r, s2⟩ := o
      cases r with
      | panicked => exact hok lvl .panicked (by simp [St.log])
      | ret e =>
        cases e with
        | some e => exact hok lvl (.ret (some e)) (by simp [St.log])
        | none => exact ih (lvl + 1) ctx _ hok hcb

/-! ## Middlewares that report failures -/

/-- Neither a middleware nor the operation failed. -/
def AllOk (t : List (Ev C M E)) : Prop := AllMwOk t ∧ ∀ r, .cbExit r ∈ t → r = .ret none

theorem allOk_snoc {t : List (Ev C M E)} (h : AllOk t) {e : Ev C M E}
    (h1 : ∀ i r, e = .exit i r → r = .ret none) (h2 : ∀ r, e = .cbExit r → r = .ret none) :
    AllOk (t ++ [e]) := by
  refine ⟨fun i r hi => ?_, fun r hr => ?_⟩
  · simp only [List.mem_append, List.mem_singleton] at hi
    rcases hi with hi | hi
    · exact h.1 i r hi
    · exact h1 i r hi.symm
  · simp only [List.mem_append, List.mem_singleton] at hr
    rcases hr with hr | hr
    · exact h.2 r hr
    · exact h2 r hr.symm

theorem reports_failed {next : C → St C M X E → Res E × St C M X E} :
    ∀ (p : MProg C M E) (s : St C M X E), Reports true p → (runProg next p s).1 ≠ .ret none := by
  intro p
  induction p with
  | ret e =>
    intro s h
    have := h rfl
    simp only [runProg, ne_eq, Res.ret.injEq]
    exact this
  | panic => intro s _; simp [runProg]
  | read k ih => intro s h; exact ih s.msg s (h s.msg)
  | write m k ih => intro s h; exact ih _ h
  | next ctx k ih =>
    intro s h
    simp only [runProg]
    split
    · rename_i e s' _; exact ih e s' (by simpa using h e)
    · simp
  | nextR ctx k ih =>
    intro s h
    simp only [runProg]
    cases hr : (next ctx s).1 with
    | ret e => exact ih _ _ (by simpa using h.1 e)
    | panicked => exact ih _ _ h.2

theorem runProg_reports {l : Nat} {cb : Option (Callback C M X E)} {rest : List (Mw C M E)}
    (hnext : ∀ ctx (s : St C M X E), AllOk s.trace →
      (callLevel cb rest l ctx s).1 = .ret none → AllOk (callLevel cb rest l ctx s).2.trace) :
    ∀ (p : MProg C M E) (s : St C M X E), Reports false p → AllOk s.trace →
      (runProg (callLevel cb rest l) p s).1 = .ret none →
      AllOk (runProg (callLevel cb rest l) p s).2.trace := by
  intro p
  induction p with
  | ret e => intro s _ h _; exact h
  | panic => intro s _ _ h; simp [runProg] at h
  | read k ih => intro s hr h hres; exact ih s.msg s (hr s.msg) h hres
  | write m k ih =>
    intro s hr h hres
    exact ih _ hr (allOk_snoc h (by intro i r h; cases h) (by intro r h; cases h)) hres
  | next ctx k ih =>
    intro s hr h hres
    have hn := hnext ctx s h
    simp only [runProg] at hres ⊢
    generalize callLevel cb rest l ctx s = o at hres hn
    obtain ⟨r, s'⟩ := o
    cases r with
    | panicked => simp at hres
    | ret e =>
      cases e with
      | some e => exact absurd hres (reports_failed (k (some e)) s' (by simpa using hr (some e)))
      | none => exact ih none s' (by simpa using hr none) (hn rfl) hres
  | nextR ctx k ih =>
    intro s hr h hres
    have hn := hnext ctx s h
    simp only [runProg] at hres ⊢
    generalize callLevel cb rest l ctx s = o at hres hn
    obtain ⟨r, s'⟩ := o
    cases r with
    | panicked => exact absurd hres (reports_failed (k .panicked) s' hr.2)
    | ret e =>
      cases e with
      | some e => exact absurd hres (reports_failed (k (.ret (some e))) s' (by simpa using hr.1 (some e)))
      | none => exact ih (.ret none) s' (by simpa using hr.1 none) (hn rfl) hres

theorem callLevel_reports (cb : Option (Callback C M X E)) :
    ∀ (mws : List (Mw C M E)) (lvl : Nat), (∀ mw ∈ mws, ∀ ctx, Reports false (mw ctx)) →
    ∀ (ctx : C) (s : St C M X E), AllOk s.trace → (callLevel cb mws lvl ctx s).1 = .ret none →
      AllOk (callLevel cb mws lvl ctx s).2.trace := by
  intro mws
  induction mws with
  | nil =>
    intro lvl _ ctx s h hres
    unfold callLevel at hres ⊢
    cases cb with
    | none => exact h
    | some f =>
      cases hc : s.called lvl with
      | true => simpa [hc] using h
      | false =>
        simp only [hc, Bool.not_false, if_true] at hres ⊢
        refine allOk_snoc (allOk_snoc h ?_ ?_) ?_ ?_
        · intro i r h; cases h
        · intro r h; cases h
        · intro i r h; cases h
        · intro r h; cases h; exact hres
  | cons mw rest ih =>
    intro lvl hrep ctx s h hres
    unfold callLevel at hres ⊢
    cases hc : s.called lvl with
    | true => simpa [hc] using h
    | false =>
      simp only [hc, Bool.not_false, if_true] at hres ⊢
      have ih' := ih (lvl + 1) (fun m hm => hrep m (List.mem_cons_of_mem _ hm))
      have hent : AllOk ((s.setCalled lvl).log (.enter lvl ctx)).trace :=
        allOk_snoc h (by intro i r h; cases h) (by intro r h; cases h)
      have hp := runProg_reports (l := lvl + 1) (cb := cb) (rest := rest) ih' (mw ctx) _
        (hrep mw List.mem_cons_self ctx) hent
      generalize runProg (callLevel cb rest (lvl + 1)) (mw ctx)
        ((s.setCalled lvl).log (.enter lvl ctx)) = o at hres hp
      obtain ⟨r, s2⟩ := o
      cases r with
      | panicked => simp at hres
      | ret e =>
        cases e with
        | some e => simp at hres
        | none =>
          simp only at hres ⊢
          refine ih' ctx _ (allOk_snoc (hp rfl) ?_ ?_) hres
          · intro i r h; cases h; rfl
          · intro r h; cases h

/-! ## Middlewares that pass the outcome on -/

theorem specProg_passesOn_ran {rest : C → M × X → Res E × (M × X)} :
    ∀ (p : MProg C M E) (e : Option E) (s : M × X), PassesOn e p →
      ∃ s', specProg rest p true s = (.ret e, true, s') ∧ s'.2 = s.2 := by
  intro p
  induction p with
  | ret e' => intro e s h; exact ⟨s, by simp only [specProg]; rw [h], rfl⟩
  | panic => intro e s h; exact absurd h (by simp [PassesOn])
  | read k ih => intro e s h; exact ih s.1 e s (h s.1)
  | write m k ih => intro e s h; exact ih e (m, s.2) h
  | next ctx k ih =>
    intro e s h
    simp only [specProg]
    exact ih none e s (by simpa using h none)
  | nextR ctx k ih =>
    intro e s h
    simp only [specProg]
    exact ih (.ret none) e s (by simpa using h.1 none)

/-- A pass-on body either does not run the rest and returns nil, or runs it once and has its outcome. -/
theorem specProg_passesOn {rest : C → M × X → Res E × (M × X)} :
    ∀ (p : MProg C M E) (s : M × X), PassesOn none p →
      (∃ s', specProg rest p false s = (.ret none, false, s') ∧ s'.2 = s.2) ∨
      (∃ ctx s1 s2 s', s1.2 = s.2 ∧ rest ctx s1 = ((specProg rest p false s).1, s2) ∧ s'.2 = s2.2 ∧
        (specProg rest p false s).2 = (true, s')) := by
  intro p
  induction p with
  | ret e' => intro s h; left; exact ⟨s, by simp only [specProg]; rw [h], rfl⟩
  | panic => intro s h; exact absurd h (by simp [PassesOn])
  | read k ih => intro s h; exact ih s.1 s (h s.1)
  | write m k ih => intro s h; exact ih (m, s.2) h
  | next ctx k ih =>
    intro s h
    right
    simp only [specProg]
    generalize hr : rest ctx s = o
    obtain ⟨r, s'⟩ := o
    cases r with
    | panicked => exact ⟨ctx, s, s', s', rfl, hr, rfl, rfl⟩
    | ret e =>
      obtain ⟨s'', h1, h2⟩ := specProg_passesOn_ran (rest := rest) (k e) e s' (by simpa using h e)
      simp only [h1]
      exact ⟨ctx, s, s', s'', rfl, hr, h2, rfl⟩
  | nextR ctx k ih =>
    intro s h
    right
    simp only [specProg]
    generalize hr : rest ctx s = o
    obtain ⟨r, s'⟩ := o
    cases r with
    | panicked =>
      simp only [h.2, specProg]
      exact ⟨ctx, s, s', s', rfl, hr, rfl, rfl⟩
    | ret e =>
      obtain ⟨s'', h1, h2⟩ := specProg_passesOn_ran (rest := rest) (k (.ret e)) e s'
        (by simpa using h.1 e)
      simp only [h1]
      exact ⟨ctx, s, s', s'', rfl, hr, h2, rfl⟩

theorem specChain_passesOn (f : Callback C M X E) :
    ∀ (mws : List (Mw C M E)), (∀ mw ∈ mws, ∀ ctx, PassesOn none (mw ctx)) →
    ∀ (ctx : C) (s : M × X), ∃ ctx' m',
      (specChain (some f) mws ctx s).1 = (f ctx' m' s.2).1 ∧
      (specChain (some f) mws ctx s).2.2 = (f ctx' m' s.2).2 := by
  intro mws
  induction mws with
  | nil => intro _ ctx s; exact ⟨ctx, s.1, rfl, rfl⟩
  | cons mw rest ih =>
    intro hp ctx s
    have ih' := ih (fun m hm => hp m (List.mem_cons_of_mem _ hm))
    rcases specProg_passesOn (rest := specChain (some f) rest) (mw ctx) s
      (hp mw List.mem_cons_self ctx) with ⟨s', h1, h2⟩ | ⟨c, s1, s2, s', h1, h2, h3, h4⟩
    · simp only [specChain, h1]
      obtain ⟨c', m', h3, h4⟩ := ih' ctx s'
      exact ⟨c', m', by rw [h3, h2], by rw [h4, h2]⟩
    · obtain ⟨c', m', h5, h6⟩ := ih' c s1
      refine ⟨c', m', ?_, ?_⟩
      · rw [h2, h1] at h5
        simp only at h5
        rw [← h5]
        simp only [specChain]
        generalize specProg (specChain (some f) rest) (mw ctx) false s = o at h4
        obtain ⟨r, ran, q⟩ := o
        simp only [Prod.mk.injEq] at h4
        obtain ⟨rfl, rfl⟩ := h4
        cases r with
        | panicked => rfl
        | ret e => cases e <;> rfl
      · rw [h2, h1] at h6
        simp only at h6
        rw [← h6, ← h3]
        simp only [specChain]
        generalize specProg (specChain (some f) rest) (mw ctx) false s = o at h4
        obtain ⟨r, ran, q⟩ := o
        simp only [Prod.mk.injEq] at h4
        obtain ⟨rfl, rfl⟩ := h4
        cases r with
        | panicked => rfl
        | ret e => cases e <;> rfl

/-- Replacing a tail of the chain by an equivalent one. -/
theorem specChain_congr (cb : Option (Callback C M X E)) (pre a b : List (Mw C M E))
    (h : ∀ ctx s, specChain cb a ctx s = specChain cb b ctx s) :
    ∀ ctx s, specChain cb (pre ++ a) ctx s = specChain cb (pre ++ b) ctx s := by
  induction pre with
  | nil => exact h
  | cons mw rest ih =>
    intro ctx s
    have : specChain cb (rest ++ a) = specChain cb (rest ++ b) := by
      funext c s; exact ih c s
    simp only [List.cons_append, specChain, this]

end Verif.Middleware
