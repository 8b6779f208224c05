import Verif.Proofs.Middleware

/-! # C06–C10: the middleware chain -/

namespace Verif.Middleware

variable {C M X E : Type}

/-- **C06.** Whatever the middlewares do, what gets started while processing one message is a prefix
of: middleware 0, middleware 1, …, last middleware, operation. So each middleware is entered at most
once, in order, none is skipped, and the operation is executed at most once and last. -/
theorem C06_starts_in_order (mws : List (Mw C M E)) (ctx : C) (m : M) (x : X)
    (cb : Option (Callback C M X E)) :
    starts (executeMiddlewares mws ctx m x cb).2.trace <+: fullOrder mws.length := by
  obtain ⟨d, _, hi⟩ := callLevel_inv cb mws 0 mws.length (by omega) ctx (St.start m x) 0
    (inv_start _ m x) (Nat.le_refl _)
  unfold executeMiddlewares
  rw [hi.2.1]
  exact List.take_prefix _ _

theorem nodup_fullOrder (n : Nat) : (fullOrder n).Nodup := by
  unfold fullOrder
  rw [List.nodup_append]
  refine ⟨?_, by simp, ?_⟩
  · rw [List.nodup_iff_pairwise_ne, List.pairwise_map]
    exact (List.nodup_range (n := n)).imp (fun h he => h (Start.mw.inj he))
  · intro a ha b hb
    simp only [List.mem_map] at ha
    simp only [List.mem_singleton] at hb
    obtain ⟨i, _, rfl⟩ := ha
    rw [hb]; simp

/-- **C06**, counting form: the operation is executed at most once. -/
theorem C06_operation_at_most_once (mws : List (Mw C M E)) (ctx : C) (m : M) (x : X)
    (cb : Option (Callback C M X E)) :
    (opRuns (executeMiddlewares mws ctx m x cb).2.trace).length ≤ 1 := by
  rw [length_opRuns]
  have h := C06_starts_in_order mws ctx m x cb
  exact Nat.le_trans (h.sublist.count_le _) (List.nodup_iff_count.mp (nodup_fullOrder _) _)

/-- A middleware calling `next` twice and ignoring what it returns, between two others. -/
def greedy : Mw Unit Nat String := fun c => .next c (fun _ => .next c (fun _ => .ret none))

example : starts (executeMiddlewares [greedy, logging, greedy] () 7 [] 
      (some (fun _ m x => (.ret none, x ++ [m])))).2.trace
    = [.mw 0, .mw 1, .mw 2, .op] := by decide

/-- **C07.** If during the processing of a message no middleware returned an error or panicked (in
particular if none hides an error of `next` by failing itself), the operation is executed exactly
once, after all middlewares, whether or not they called `next`. -/
theorem C07_operation_executed (mws : List (Mw C M E)) (ctx : C) (m : M) (x : X)
    (f : Callback C M X E)
    (hok : AllMwOk (executeMiddlewares mws ctx m x (some f)).2.trace) :
    starts (executeMiddlewares mws ctx m x (some f)).2.trace = fullOrder mws.length ∧
    (opRuns (executeMiddlewares mws ctx m x (some f)).2.trace).length = 1 := by
  have hi := callLevel_ok f mws 0 mws.length (by omega) ctx (St.start m x) 0
    (inv_start _ m x) (Or.inl rfl) hok
  have h1 : starts (executeMiddlewares mws ctx m x (some f)).2.trace = fullOrder mws.length := by
    unfold executeMiddlewares
    rw [hi.2.1]
    apply List.take_of_length_le
    simp [fullOrder]
  refine ⟨h1, ?_⟩
  rw [length_opRuns, h1]
  have : Start.op ∈ fullOrder mws.length := by simp [fullOrder]
  exact Nat.le_antisymm (List.nodup_iff_count.mp (nodup_fullOrder _) _) (List.count_pos_iff.mpr this)

/-- Two middlewares that never call `next`, one that does: no failure, the operation is executed. -/
example : AllMwOk (executeMiddlewares [logging, greedy, logging] () 7 []
      (some (fun _ m x => (.ret (none : Option String), x ++ [m])))).2.trace ∧
    (executeMiddlewares [logging, greedy, logging] () 7 []
      (some (fun _ m x => (.ret (none : Option String), x ++ [m])))).2.x = [7] := by
  refine ⟨?_, by decide⟩
  intro i r h
  simp [executeMiddlewares, callLevel, logging, greedy, runProg, St.log, St.setCalled, St.start] at h
  rcases h with h | h | h <;> exact h.2

/-- **C08.** When every middleware reports failures of `next`, the chain succeeds exactly when the
operation was executed once and succeeded, and no middleware failed. -/
theorem C08_success_iff (mws : List (Mw C M E)) (ctx : C) (m : M) (x : X) (f : Callback C M X E)
    (hrep : ∀ mw ∈ mws, ∀ ctx, Reports false (mw ctx)) :
    (executeMiddlewares mws ctx m x (some f)).1 = .ret none ↔
      AllMwOk (executeMiddlewares mws ctx m x (some f)).2.trace ∧
      opOutcomes (executeMiddlewares mws ctx m x (some f)).2.trace = [.ret none] := by
  constructor
  · intro h
    have hok := callLevel_reports (some f) mws 0 hrep ctx (St.start m x)
      (by simp [AllOk, AllMwOk, St.start]) h
    refine ⟨hok.1, ?_⟩
    have hi := callLevel_ok f mws 0 mws.length (by omega) ctx (St.start m x) 0
      (inv_start _ m x) (Or.inl rfl) hok.1
    have hlen := hi.2.2.2
    simp only [if_true] at hlen
    have hall := hok.2
    unfold executeMiddlewares
    match hl : opOutcomes (callLevel (some f) mws 0 ctx (St.start m x)).2.trace, hlen with
    | [r], _ =>
      rw [hall r ((mem_opOutcomes _ _).mp (by rw [hl]; simp))]
  · intro ⟨h1, h2⟩
    refine callLevel_ok_result f mws 0 ctx _ h1 ?_
    intro r hr
    have := (mem_opOutcomes _ _).mpr hr
    unfold executeMiddlewares at h2
    rw [h2] at this
    simpa using this

/-- **C08.** When middlewares pass the outcome of `next` on unchanged, the outcome of the chain is
exactly the outcome of the operation (error, success or panic), executed on some context and message. -/
theorem C08_error_passed_on (mws : List (Mw C M E)) (ctx : C) (m : M) (x : X) (f : Callback C M X E)
    (hpass : ∀ mw ∈ mws, ∀ ctx, PassesOn none (mw ctx)) :
    ∃ ctx' m', ((executeMiddlewares mws ctx m x (some f)).1,
      (executeMiddlewares mws ctx m x (some f)).2.x) = f ctx' m' x := by
  obtain ⟨h1, h2⟩ := executeMiddlewares_spec mws ctx m x (some f)
  obtain ⟨c, m', h3, h4⟩ := specChain_passesOn f mws hpass ctx (m, x)
  refine ⟨c, m', ?_⟩
  rw [h1, h3]
  have : (executeMiddlewares mws ctx m x (some f)).2.x = (f c m' x).2 := by
    rw [← h4, ← h2]
  rw [this]

/-- A timing-style middleware: calls `next` once and returns what it returned. -/
def wrapOnce : Mw Unit Nat String := fun c => .next c (fun e => .ret e)

example : ∀ mw ∈ [wrapOnce, logging, wrapOnce], ∀ ctx, PassesOn none (mw ctx) := by
  simp [wrapOnce, logging, PassesOn]

example : ∀ mw ∈ [wrapOnce, logging, wrapOnce], ∀ ctx, Reports false (mw ctx) := by
  intro mw hmw ctx
  simp only [List.mem_cons, List.not_mem_nil, or_false] at hmw
  rcases hmw with rfl | rfl | rfl
  · intro r; cases r <;> simp [Reports]
  · simp [logging, Reports]
  · intro r; cases r <;> simp [Reports]

example : (executeMiddlewares [wrapOnce, logging, wrapOnce] () 7 []
      (some (fun _ m x => (.ret (some "boom"), x ++ [m])))).1 = .ret (some "boom") := by decide

/-- Why C08 needs its hypothesis: a middleware hiding the error of `next` makes the chain succeed
although the operation failed. -/
theorem C08_hiding_middleware_hides :
    ∃ mw : Mw Unit Nat String, (executeMiddlewares [mw] () 7 ()
      (some (fun _ _ x => (.ret (some "boom"), x)))).1 = .ret none :=
  ⟨fun c => .next c (fun _ => .ret none), rfl⟩

/-- Effect on the outside world of the executions of the operation recorded in a history. -/
def applyRuns (f : Callback C M X E) (x : X) : List (C × M) → X
  | [] => x
  | (c, m) :: t => applyRuns f (f c m x).2 t

theorem applyRuns_append (f : Callback C M X E) (x : X) (a b : List (C × M)) :
    applyRuns f x (a ++ b) = applyRuns f (applyRuns f x a) b := by
  induction a generalizing x with
  | nil => rfl
  | cons e t ih => simp [applyRuns, ih]

/-- The recorded operation executions are the real ones: the outside world is changed by them and
nothing else. -/
theorem C09_world_changed_by_operation_only (mws : List (Mw C M E)) (ctx : C) (m : M) (x : X)
    (f : Callback C M X E) :
    (executeMiddlewares mws ctx m x (some f)).2.x =
      applyRuns f x (opRuns (executeMiddlewares mws ctx m x (some f)).2.trace) := by
  refine callLevel_pres (P := fun s => s.x = applyRuns f x (opRuns s.trace)) (some f)
    ?_ ?_ ?_ ?_ ?_ mws 0 ctx _ rfl
  · intro s l h; exact h
  · intro s l c h; simpa [St.log, opRuns_append, opRuns] using h
  · intro s l r h; simpa [St.log, opRuns_append, opRuns] using h
  · intro s m h; simpa [St.log, opRuns_append, opRuns] using h
  · intro g c s hg h
    cases hg
    simp only [St.log, opRuns_append, opRuns, List.append_nil, applyRuns_append, applyRuns]
    rw [← h]

/-- Outcomes of the executions of the operation recorded in a history. -/
def outcomesOf (f : Callback C M X E) (x : X) : List (C × M) → List (Res E)
  | [] => []
  | (c, m) :: t => (f c m x).1 :: outcomesOf f (f c m x).2 t

theorem outcomesOf_append (f : Callback C M X E) (x : X) (a b : List (C × M)) :
    outcomesOf f x (a ++ b) = outcomesOf f x a ++ outcomesOf f (applyRuns f x a) b := by
  induction a generalizing x with
  | nil => rfl
  | cons e t ih => simp [outcomesOf, applyRuns, ih]

/-- The recorded outcomes of the operation are the real ones. -/
theorem C09_outcomes_are_real (mws : List (Mw C M E)) (ctx : C) (m : M) (x : X)
    (f : Callback C M X E) :
    opOutcomes (executeMiddlewares mws ctx m x (some f)).2.trace =
      outcomesOf f x (opRuns (executeMiddlewares mws ctx m x (some f)).2.trace) := by
  refine (callLevel_pres (P := fun s => opOutcomes s.trace = outcomesOf f x (opRuns s.trace) ∧
    s.x = applyRuns f x (opRuns s.trace)) (some f) ?_ ?_ ?_ ?_ ?_ mws 0 ctx _ ⟨rfl, rfl⟩).1
  · intro s l h; exact h
  · intro s l c h; simpa [St.log, opRuns_append, opRuns, opOutcomes_append, opOutcomes] using h
  · intro s l r h; simpa [St.log, opRuns_append, opRuns, opOutcomes_append, opOutcomes] using h
  · intro s m h; simpa [St.log, opRuns_append, opRuns, opOutcomes_append, opOutcomes] using h
  · intro g c s hg h
    cases hg
    simp only [St.log, opRuns_append, opRuns, opOutcomes_append, opOutcomes, List.append_nil,
      applyRuns_append, applyRuns, outcomesOf_append, outcomesOf]
    rw [h.1, ← h.2]
    exact ⟨rfl, rfl⟩

/-- **C09.** The operation is given the message as left by the last write of a middleware before it
(the original message if there is none). -/
theorem C09_operation_sees_last_write (mws : List (Mw C M E)) (ctx : C) (m : M) (x : X)
    (cb : Option (Callback C M X E)) (pre post : List (Ev C M E)) (c : C) (m' : M)
    (h : (executeMiddlewares mws ctx m x cb).2.trace = pre ++ .cb c m' :: post) :
    m' = lastWritten m pre := by
  have key := callLevel_pres
    (P := fun s => s.msg = lastWritten m s.trace ∧
      ∀ pre post c m', s.trace = pre ++ .cb c m' :: post → m' = lastWritten m pre) cb
    ?_ ?_ ?_ ?_ ?_ mws 0 ctx (St.start m x) ?_
  · exact key.2 pre post c m' h
  · intro s l hs; exact hs
  · intro s l _ hs
    refine ⟨by simp [St.log, lastWritten_append, lastWritten, hs.1], fun pre post c m' he => ?_⟩
    simp only [St.log] at he
    rcases List.eq_nil_or_concat post with rfl | ⟨post', e, rfl⟩
    · have := List.append_inj_right' he rfl; simp at this
    · rw [List.concat_eq_append, ← List.cons_append, ← List.append_assoc] at he
      exact hs.2 pre post' c m' (List.append_inj_left' he rfl)
  · intro s l r hs
    refine ⟨by simp [St.log, lastWritten_append, lastWritten, hs.1], fun pre post c m' he => ?_⟩
    simp only [St.log] at he
    rcases List.eq_nil_or_concat post with rfl | ⟨post', e, rfl⟩
    · have := List.append_inj_right' he rfl; simp at this
    · rw [List.concat_eq_append, ← List.cons_append, ← List.append_assoc] at he
      exact hs.2 pre post' c m' (List.append_inj_left' he rfl)
  · intro s mm hs
    refine ⟨by simp [St.log, lastWritten_append, lastWritten], fun pre post c m' he => ?_⟩
    simp only [St.log] at he
    rcases List.eq_nil_or_concat post with rfl | ⟨post', e, rfl⟩
    · have := List.append_inj_right' he rfl; simp at this
    · rw [List.concat_eq_append, ← List.cons_append, ← List.append_assoc] at he
      exact hs.2 pre post' c m' (List.append_inj_left' he rfl)
  · intro f c0 s _ hs
    refine ⟨by simp [St.log, lastWritten_append, lastWritten, hs.1], fun pre post c m' he => ?_⟩
    simp only [St.log] at he
    rcases List.eq_nil_or_concat post with rfl | ⟨post', e, rfl⟩
    · have := List.append_inj_right' he rfl; simp at this
    · rw [List.concat_eq_append, ← List.cons_append, ← List.append_assoc] at he
      have he := List.append_inj_left' he rfl
      rcases List.eq_nil_or_concat post' with rfl | ⟨post2, e2, rfl⟩
      · have h2 := List.append_inj_right' he rfl
        have h1 := List.append_inj_left' he rfl
        simp only [List.cons.injEq, Ev.cb.injEq, and_true] at h2
        rw [← h1, ← h2.2, hs.1]
      · rw [List.concat_eq_append, ← List.cons_append, ← List.append_assoc] at he
        exact hs.2 pre post2 c m' (List.append_inj_left' he rfl)
  · simp [St.start, lastWritten]

/-- A rewriting middleware followed by one that rewrites after `next`: the operation sees the first
rewrite, not the second. -/
example : (executeMiddlewares
      [(fun c => .write 8 (.next c (fun e => .write 9 (.ret e))) : Mw Unit Nat String)] () 7 []
      (some (fun _ m x => (.ret none, x ++ [m])))).2.x = [8] := by decide

/-- Observable outcome of a chain: result, final message, outside world. -/
def outcome (o : Res E × St C M X E) : Res E × M × X := (o.1, o.2.msg, o.2.x)

theorem outcome_spec (mws : List (Mw C M E)) (ctx : C) (m : M) (x : X)
    (cb : Option (Callback C M X E)) :
    outcome (executeMiddlewares mws ctx m x cb) = specChain cb mws ctx (m, x) := by
  obtain ⟨h1, h2⟩ := executeMiddlewares_spec mws ctx m x cb
  unfold outcome
  rw [h1, h2]

/-- **C10.** Adding the logging middleware anywhere changes neither the outcome, nor the message, nor
what the operation does to the outside world. -/
theorem C10_logging_harmless (pre post : List (Mw C M E)) (ctx : C) (m : M) (x : X)
    (cb : Option (Callback C M X E)) :
    outcome (executeMiddlewares (pre ++ logging :: post) ctx m x cb) =
      outcome (executeMiddlewares (pre ++ post) ctx m x cb) := by
  rw [outcome_spec, outcome_spec]
  exact specChain_congr cb pre (_ :: post) post (fun _ _ => rfl) ctx (m, x)

/-- **C10.** The same for the intercepter. -/
theorem C10_intercepter_harmless (pre post : List (Mw C M E)) (ctx : C) (m : M) (x : X)
    (cb : Option (Callback C M X E)) :
    outcome (executeMiddlewares (pre ++ intercepter :: post) ctx m x cb) =
      outcome (executeMiddlewares (pre ++ post) ctx m x cb) := by
  rw [outcome_spec, outcome_spec]
  exact specChain_congr cb pre (_ :: post) post (fun _ _ => rfl) ctx (m, x)

/-- The rest of the chain never panics, whatever it is started with. -/
def NeverPanics (cb : Option (Callback C M X E)) (mws : List (Mw C M E)) : Prop :=
  ∀ ctx m x, (executeMiddlewares mws ctx m x cb).1 ≠ .panicked

/-- **C10.** Adding the recovery middleware anywhere is harmless when nothing after it panics. -/
theorem C10_recovery_harmless (pre post : List (Mw C M E)) (ctx : C) (m : M) (x : X)
    (cb : Option (Callback C M X E)) (hnp : NeverPanics cb post) :
    outcome (executeMiddlewares (pre ++ recovery :: post) ctx m x cb) =
      outcome (executeMiddlewares (pre ++ post) ctx m x cb) := by
  rw [outcome_spec, outcome_spec]
  refine specChain_congr cb pre _ _ (fun c s => ?_) ctx (m, x)
  have := hnp c s.1 s.2
  rw [(executeMiddlewares_spec post c s.1 s.2 cb).1] at this
  simp only [specChain, recovery, specProg]
  generalize specChain cb post c s = o at this
  obtain ⟨r, s'⟩ := o
  cases r with
  | panicked => exact absurd rfl this
  | ret e => cases e <;> rfl

/-- **C10.** With the recovery middleware first, no panic escapes, whatever the other middlewares and
the operation do. -/
theorem C10_recovery_first_no_panic (post : List (Mw C M E)) (ctx : C) (m : M) (x : X)
    (cb : Option (Callback C M X E)) :
    (executeMiddlewares (recovery :: post) ctx m x cb).1 ≠ .panicked := by
  rw [(executeMiddlewares_spec (recovery :: post) ctx m x cb).1]
  simp only [specChain, recovery, specProg]
  generalize specChain cb post ctx (m, x) = o
  obtain ⟨r, s'⟩ := o
  cases r with
  | panicked => simp [specProg]
  | ret e => cases e <;> simp [specProg]

/-- A panicking operation behind recovery: the chain returns nil. -/
example : (executeMiddlewares [recovery, logging] () 7 ()
    (some (fun _ _ x => (.panicked, x)) : Option (Callback Unit Nat Unit String))).1 = .ret none := by
  decide

example : NeverPanics (some (fun _ m x => (.ret none, x ++ [m])) : Option (Callback Unit Nat (List Nat) String))
    [wrapOnce] := by
  intro ctx m x h; cases h

end Verif.Middleware
