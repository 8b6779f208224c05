import Verif.Spec.Walk
import Verif.Props.Refs

/-!
# C74: every reference is resolved or reported
-/

namespace Verif.Walk

/-! ## Sequences of steps -/

theorem seq_ok {τ : Type} (a b : Out τ) : (a.seq b).status = .ok ↔ a.status = .ok ∧ b.status = .ok := by
  unfold Out.seq
  cases h : a.status <;> simp [h]

theorem seq_log {τ : Type} (a b : Out τ) (h : a.status = .ok) : (a.seq b).log = a.log ++ b.log := by
  unfold Out.seq
  rw [h]

theorem runKids_ok {τ : Type} (l : String) : ∀ rs : List (String × Out τ),
    (runKids l rs).status = .ok ↔ ∀ o, (l, o) ∈ rs → o.status = .ok
  | [] => by simp [runKids, Out.nil]
  | (l', o) :: rs => by
    have ih := runKids_ok l rs
    simp only [runKids, List.foldr_cons] at ih ⊢
    split
    · rename_i h
      rw [seq_ok, ih]
      constructor
      · rintro ⟨h1, h2⟩ o' ho
        rcases List.mem_cons.1 ho with heq | ho
        · cases heq; exact h1
        · exact h2 o' ho
      · intro h3
        exact ⟨h3 o (by rw [← h]; exact List.mem_cons_self), fun o' ho => h3 o' (List.mem_cons_of_mem _ ho)⟩
    · rename_i h
      rw [ih]
      constructor
      · intro h2 o' ho
        rcases List.mem_cons.1 ho with heq | ho
        · cases heq; exact absurd rfl h
        · exact h2 o' ho
      · exact fun h3 o' ho => h3 o' (List.mem_cons_of_mem _ ho)

theorem runKids_log {τ : Type} (l : String) : ∀ rs : List (String × Out τ), (∀ o, (l, o) ∈ rs → o.status = .ok) →
    ∀ e, e ∈ (runKids l rs).log ↔ ∃ o, (l, o) ∈ rs ∧ e ∈ o.log
  | [], _, e => by simp [runKids, Out.nil]
  | (l', o) :: rs, hok, e => by
    have hok' : ∀ o, (l, o) ∈ rs → o.status = .ok := fun o' ho => hok o' (List.mem_cons_of_mem _ ho)
    have ih := runKids_log l rs hok' e
    simp only [runKids, List.foldr_cons] at ih ⊢
    split
    · rename_i h
      subst h
      rw [seq_log _ _ (hok o List.mem_cons_self), List.mem_append, ih]
      constructor
      · rintro (h1 | ⟨o', h1, h2⟩)
        · exact ⟨o, List.mem_cons_self, h1⟩
        · exact ⟨o', List.mem_cons_of_mem _ h1, h2⟩
      · rintro ⟨o', h1, h2⟩
        rcases List.mem_cons.1 h1 with heq | h1
        · cases heq; exact .inl h2
        · exact .inr ⟨o', h1, h2⟩
    · rename_i h
      rw [ih]
      constructor
      · rintro ⟨o', h1, h2⟩
        exact ⟨o', List.mem_cons_of_mem _ h1, h2⟩
      · rintro ⟨o', h1, h2⟩
        rcases List.mem_cons.1 h1 with heq | h1
        · cases heq; exact absurd rfl h
        · exact ⟨o', h1, h2⟩

theorem runSteps_ok {τ : Type} (env : Env τ) (op : Option Nat) (n : Node) (rs : List (String × Out τ)) :
    ∀ steps : List Step, (runSteps env op n rs steps).status = .ok ↔ ∀ s ∈ steps, (runStep env op n rs s).status = .ok
  | [] => by simp [runSteps, Out.nil]
  | s :: steps => by
    have ih := runSteps_ok env op n rs steps
    simp only [runSteps, List.foldr_cons] at ih ⊢
    rw [seq_ok, ih]
    simp

theorem runSteps_log {τ : Type} (env : Env τ) (op : Option Nat) (n : Node) (rs : List (String × Out τ)) :
    ∀ steps : List Step, (∀ s ∈ steps, (runStep env op n rs s).status = .ok) → ∀ e,
      (e ∈ (runSteps env op n rs steps).log ↔ ∃ s ∈ steps, e ∈ (runStep env op n rs s).log)
  | [], _, e => by simp [runSteps, Out.nil]
  | s :: steps, hok, e => by
    have ih := runSteps_log env op n rs steps (fun s' hs => hok s' (List.mem_cons_of_mem _ hs)) e
    simp only [runSteps, List.foldr_cons] at ih ⊢
    rw [seq_log _ _ (hok s List.mem_cons_self), List.mem_append, ih]
    simp

theorem mem_visitAll {τ : Type} (table : Kind → List Step) (env : Env τ) (op : Option Nat) (l : String) (o : Out τ) :
    ∀ kids : List (String × Node), (l, o) ∈ visitAll table env op kids ↔ ∃ m, (l, m) ∈ kids ∧ o = visit table env op m
  | [] => by simp [visitAll]
  | (l', m) :: kids => by
    simp only [visitAll, List.mem_cons, mem_visitAll table env op l o kids, Prod.mk.injEq]
    constructor
    · rintro (⟨rfl, rfl⟩ | ⟨m', h1, h2⟩)
      · exact ⟨m, .inl ⟨rfl, rfl⟩, rfl⟩
      · exact ⟨m', .inr h1, h2⟩
    · rintro ⟨m', ⟨rfl, rfl⟩ | h1, h2⟩
      · exact .inl ⟨rfl, h2⟩
      · exact .inr ⟨m', h1, h2⟩

/-! ## What a visit does to one element -/

/-- The members a table of methods does not enter. -/
def skipped (table : Kind → List Step) : Kind → String → Prop := fun k l => Step.kids l ∉ table k

/-- The steps of an element that are not about its children succeed. -/
def Fine {τ : Type} (table : Kind → List Step) (env : Env τ) (op : Option Nat) (x : Node) : Prop :=
  ∀ s ∈ table x.kind, (∀ l, s ≠ .kids l) → (runStep env op x [] s).status = .ok

theorem runStep_rs {τ : Type} (env : Env τ) (op : Option Nat) (x : Node) (rs rs' : List (String × Out τ)) (s : Step)
    (h : ∀ l, s ≠ .kids l) : runStep env op x rs s = runStep env op x rs' s := by
  cases s <;> first | rfl | exact absurd rfl (h _)

theorem opFor_eq (k : Kind) (id : Nat) (op : Option Nat) :
    opFor k id op = if k = .operation then some id else if k = .components then none else op := by
  cases k <;> rfl

theorem within_inv {skip : Kind → String → Prop} {op op' : Option Nat} {k : Kind} {id : Nat} {ref loc : String}
    {kids : List (String × Node)} {x : Node} (h : Within skip op (.mk k id ref loc kids) op' x) :
    (op' = op ∧ x = .mk k id ref loc kids) ∨
      ∃ l m, (l, m) ∈ kids ∧ ¬ skip k l ∧ Within skip (opFor k id op) m op' x := by
  cases h with
  | here => exact .inl ⟨rfl, rfl⟩
  | inside h1 h2 h3 => exact .inr ⟨_, _, h1, h2, by rw [opFor_eq]; exact h3⟩

mutual
theorem visit_ok {τ : Type} (table : Kind → List Step) (env : Env τ) : ∀ (n : Node) (op : Option Nat),
    (visit table env op n).status = .ok ↔ ∀ op' x, Within (skipped table) op n op' x → Fine table env op' x
  | .mk k id ref loc kids, op => by
    have ih := visitAll_ok table env kids (opFor k id op)
    rw [visit, runSteps_ok]
    constructor
    · intro h op' x hx
      rcases within_inv hx with ⟨rfl, rfl⟩ | ⟨l, m, h1, h2, h3⟩
      · intro s hs hk
        rw [runStep_rs env op' _ [] (visitAll table env (opFor k id op') kids) s hk]
        exact h s hs
      · have hl : Step.kids l ∈ table k := Classical.byContradiction h2
        have h4 := h _ hl
        simp only [runStep] at h4
        rw [runKids_ok] at h4
        exact (ih l m h1).1 (h4 _ ((mem_visitAll ..).2 ⟨m, h1, rfl⟩)) op' x h3
    · intro h s hs
      by_cases hk : ∃ l, s = .kids l
      · obtain ⟨l, rfl⟩ := hk
        simp only [runStep]
        rw [runKids_ok]
        intro o ho
        obtain ⟨m, h1, rfl⟩ := (mem_visitAll ..).1 ho
        refine (ih l m h1).2 (fun op' x hx => h op' x ?_)
        exact .inside h1 (fun h2 => h2 hs) (by rw [← opFor_eq]; exact hx)
      · have hk' : ∀ l, s ≠ .kids l := fun l hl => hk ⟨l, hl⟩
        rw [runStep_rs env op _ _ [] s hk']
        exact h op _ (.here op _) s hs hk'
theorem visitAll_ok {τ : Type} (table : Kind → List Step) (env : Env τ) : ∀ (kids : List (String × Node)) (op : Option Nat)
    (l : String) (m : Node), (l, m) ∈ kids →
    ((visit table env op m).status = .ok ↔ ∀ op' x, Within (skipped table) op m op' x → Fine table env op' x)
  | [], _, _, _, h => by cases h
  | (l', m') :: kids, op, l, m, h => by
    have h1 := visit_ok table env m' op
    have h2 := visitAll_ok table env kids op l m
    rcases List.mem_cons.1 h with heq | h
    · cases heq; exact h1
    · exact h2 h
end

mutual
theorem visit_log {τ : Type} (table : Kind → List Step) (env : Env τ) : ∀ (n : Node) (op : Option Nat),
    (visit table env op n).status = .ok → ∀ e, (e ∈ (visit table env op n).log ↔
      ∃ op' x s, Within (skipped table) op n op' x ∧ s ∈ table x.kind ∧ (∀ l, s ≠ .kids l) ∧
        e ∈ (runStep env op' x [] s).log)
  | .mk k id ref loc kids, op, hok, e => by
    have ih := visitAll_log table env kids (opFor k id op)
    rw [visit, runSteps_ok] at hok
    rw [visit, runSteps_log _ _ _ _ _ hok]
    constructor
    · rintro ⟨s, hs, he⟩
      by_cases hk : ∃ l, s = .kids l
      · obtain ⟨l, rfl⟩ := hk
        have h4 := hok _ hs
        simp only [runStep] at h4 he
        rw [runKids_ok] at h4
        obtain ⟨o, ho, he⟩ := (runKids_log l _ h4 e).1 he
        obtain ⟨m, h1, rfl⟩ := (mem_visitAll ..).1 ho
        obtain ⟨op', x, s, h5, h6⟩ := (ih l m h1 (h4 _ ho) e).1 he
        exact ⟨op', x, s, .inside h1 (fun h2 => h2 hs) (by rw [← opFor_eq]; exact h5), h6⟩
      · have hk' : ∀ l, s ≠ .kids l := fun l hl => hk ⟨l, hl⟩
        rw [runStep_rs env op _ _ [] s hk'] at he
        exact ⟨op, _, s, .here op _, hs, hk', he⟩
    · rintro ⟨op', x, s, hx, hs, hk, he⟩
      rcases within_inv hx with ⟨rfl, rfl⟩ | ⟨l, m, h1, h2, h3⟩
      · refine ⟨s, hs, ?_⟩
        rw [runStep_rs env op' _ _ [] s hk]
        exact he
      · have hl : Step.kids l ∈ table k := Classical.byContradiction h2
        have h4 := hok _ hl
        simp only [runStep] at h4
        rw [runKids_ok] at h4
        have ho := (mem_visitAll table env (opFor k id op) l _ kids).2 ⟨m, h1, rfl⟩
        refine ⟨_, hl, ?_⟩
        simp only [runStep]
        exact (runKids_log l _ h4 e).2 ⟨_, ho, (ih l m h1 (h4 _ ho) e).2 ⟨op', x, s, h3, hs, hk, he⟩⟩
theorem visitAll_log {τ : Type} (table : Kind → List Step) (env : Env τ) : ∀ (kids : List (String × Node)) (op : Option Nat)
    (l : String) (m : Node), (l, m) ∈ kids → (visit table env op m).status = .ok →
    ∀ e, (e ∈ (visit table env op m).log ↔
      ∃ op' x s, Within (skipped table) op m op' x ∧ s ∈ table x.kind ∧ (∀ l, s ≠ .kids l) ∧
        e ∈ (runStep env op' x [] s).log)
  | [], _, _, _, h => by cases h
  | (l', m') :: kids, op, l, m, h => by
    have h1 := visit_log table env m' op
    have h2 := visitAll_log table env kids op l m
    rcases List.mem_cons.1 h with heq | h
    · cases heq; exact h1
    · exact h2 h
end

/-! ## The tables -/

/-- The step of an element that resolves its reference. -/
def asked : Kind → Kind
  | .correlationID => .channel
  | k => k

theorem v3_kids (k : Kind) (l : String) (k' : Kind) (h : (l, k') ∈ fields3 k) (hm : ¬ missed k l) : Step.kids l ∈ v3 k := by
  have hall : ∀ e ∈ fields3 k, Step.kids e.1 ∈ v3 k ∨ missed k e.1 := by
    unfold missed
    cases k <;> decide
  rcases hall _ h with h | h
  · exact h
  · exact absurd h hm

theorem v3_missed (k : Kind) (l : String) (h : missed k l) : Step.kids l ∉ v3 k := by
  rcases h with ⟨rfl, rfl⟩ | ⟨rfl, rfl⟩ | ⟨rfl, rfl⟩ <;> decide

theorem v3_ref (k : Kind) (h : refs3 k = true) : Step.ref (asked k) ∈ v3 k := by
  cases k <;> first | decide | cases h

theorem v3_ref_only (k k' : Kind) (h : Step.ref k' ∈ v3 k) : k' = asked k ∧ refs3 k = true := by
  have hall : ∀ s ∈ v3 k, ∀ k', s = .ref k' → k' = asked k ∧ refs3 k = true := by
    cases k <;> simp [v3, asked, refs3]
  exact hall _ h k' rfl

theorem v3_location (k : Kind) : Step.location ∈ v3 k ↔ k = .replyAddress := by
  cases k <;> simp [v3]

theorem v3_reply (k : Kind) : Step.reply ∈ v3 k ↔ k = .operation := by
  cases k <;> simp [v3]

theorem v2_kids (k : Kind) (l : String) (k' : Kind) (h : (l, k') ∈ fields2 k) : Step.kids l ∈ v2 k := by
  have hall : ∀ e ∈ fields2 k, Step.kids e.1 ∈ v2 k := by
    cases k <;> decide
  exact hall _ h

theorem v2_ref (k : Kind) (h : refs2 k = true) : Step.ref k ∈ v2 k := by
  cases k <;> first | decide | cases h

/-- In a well-formed tree, entering everything but what is missed is entering what the methods enter. -/
theorem within_skip {fields : Kind → List (String × Kind)} {refs : Kind → Bool} {table : Kind → List Step}
    {skip : Kind → String → Prop} (hk : ∀ k l k', (l, k') ∈ fields k → ¬ skip k l → Step.kids l ∈ table k)
    {op op' : Option Nat} {n x : Node} (h : Within skip op n op' x) (hwf : WF fields refs n) :
    Within (skipped table) op n op' x ∧ WF fields refs x := by
  induction h with
  | here op n => exact ⟨.here op n, hwf⟩
  | inside h1 h2 _ ih =>
    cases hwf with
    | mk shape _ all =>
      obtain ⟨h4, h5⟩ := ih (all _ _ h1)
      exact ⟨.inside h1 (fun hs => hs (hk _ _ _ (shape _ _ h1) h2)) h4, h5⟩

theorem within_skip_v3 {op op' : Option Nat} {n x : Node} (h : Within (skipped v3) op n op' x) :
    Within missed op n op' x := by
  induction h with
  | here op n => exact .here op n
  | inside h1 h2 _ ih => exact .inside h1 (fun hm => h2 (v3_missed _ _ hm)) ih

theorem resolveRef_ok {τ : Type} (env : Env τ) (k : Kind) (id : Nat) (ref : String) (h : ref ≠ "") :
    (resolveRef env k id ref).status = .ok ↔ ∃ t, env.lookup k ref = .found t ∧ (resolveRef env k id ref).log = [(id, t)] := by
  unfold resolveRef
  rw [if_neg h]
  cases env.lookup k ref <;> simp

theorem resolveRef_log {τ : Type} (env : Env τ) (k : Kind) (id : Nat) (ref : String) (e : Nat × τ)
    (he : e ∈ (resolveRef env k id ref).log) : ref ≠ "" ∧ e.1 = id ∧ env.lookup k ref = .found e.2 := by
  unfold resolveRef at he
  split at he
  · cases he
  · rename_i h
    cases hl : env.lookup k ref with
    | found t =>
      rw [hl] at he
      simp only [List.mem_singleton] at he
      subst he
      exact ⟨h, rfl, rfl⟩
    | error => rw [hl] at he; cases he
    | panic => rw [hl] at he; cases he

/-! ## The theorems -/

/-- What must hold of an element for a run of v3 to succeed: its reference is found, its location is found in the message
of an operation around it, its reply has a channel. -/
structure Sound {τ : Type} (env : Env τ) (op : Option Nat) (x : Node) : Prop where
  ref : x.ref ≠ "" → ∃ t, env.lookup (asked x.kind) x.ref = .found t
  location : x.kind = .replyAddress → x.loc ≠ "" → ∃ i, op = some i ∧ env.located i x.loc = .ok
  reply : x.kind = .operation → ∀ r, ("reply", r) ∈ x.kids → ∃ c, ("channel", c) ∈ r.kids

theorem replyWithoutChannel_false (kids : List (String × Node)) :
    replyWithoutChannel kids = false ↔ ∀ r, ("reply", r) ∈ kids → ∃ c, ("channel", c) ∈ r.kids := by
  simp only [replyWithoutChannel, List.any_eq_false, Bool.and_eq_true, beq_iff_eq, Bool.not_eq_true', not_and,
    List.any_eq_false, Prod.forall]
  constructor
  · intro h r hr
    apply Classical.byContradiction
    intro hn
    exact h _ r hr rfl (fun l c hc hl => hn ⟨c, by rw [← hl]; exact hc⟩)
  · rintro h l r hr rfl hn
    obtain ⟨c, hc⟩ := h r hr
    exact hn _ c hc rfl

theorem fine_iff_sound {τ : Type} (env : Env τ) (op : Option Nat) (x : Node) (hwf : WF fields3 refs3 x) :
    Fine v3 env op x ↔ Sound env op x := by
  have hnr : refs3 x.kind = false → x.ref = "" := by
    cases hwf with
    | mk _ noRef _ => exact noRef
  constructor
  · intro h
    refine ⟨fun hr => ?_, fun hk hl => ?_, fun hk => ?_⟩
    · have hrf : refs3 x.kind = true := by
        cases hb : refs3 x.kind with
        | true => rfl
        | false => exact absurd (hnr hb) hr
      obtain ⟨t, h1, _⟩ := (resolveRef_ok _ _ _ _ hr).1 (h _ (v3_ref _ hrf) (by intro l hl; cases hl))
      exact ⟨t, h1⟩
    · have h1 := h _ ((v3_location _).2 hk) (by intro l hl; cases hl)
      simp only [runStep, location] at h1
      rw [if_neg hl] at h1
      cases op with
      | none => cases h1
      | some i => exact ⟨i, rfl, h1⟩
    · have h1 := h _ ((v3_reply _).2 hk) (by intro l hl; cases hl)
      simp only [runStep, generateReply] at h1
      rw [← replyWithoutChannel_false]
      cases hb : replyWithoutChannel x.kids with
      | false => rfl
      | true => rw [hb] at h1; cases h1
  · intro h s hs hk
    cases s with
    | ref k =>
      obtain ⟨rfl, _⟩ := v3_ref_only _ _ hs
      simp only [runStep]
      by_cases hr : x.ref = ""
      · simp [resolveRef, hr, Out.nil]
      · obtain ⟨t, ht⟩ := h.ref hr
        simp [resolveRef, hr, ht]
    | kids l => exact absurd rfl (hk l)
    | location =>
      simp only [runStep, location]
      by_cases hl : x.loc = ""
      · simp [hl, Out.nil]
      · obtain ⟨i, rfl, h1⟩ := h.location ((v3_location _).1 hs) hl
        simp [hl, h1]
    | reply =>
      have h1 := (replyWithoutChannel_false _).2 (h.reply ((v3_reply _).1 hs))
      simp [runStep, generateReply, h1]

/-- **C74: exactly when a document is accepted (v3).** For every document: `setDependencies` succeeds if and only if every
element it looks at is sound, that is its reference designates an element of the right kind, its location can be looked for,
its reply has a channel. -/
theorem C74_accepted_iff_partial {τ : Type} (env : Env τ) (doc : Node) (hwf : WF fields3 refs3 doc) :
    (visit v3 env none doc).status = .ok ↔ ∀ op x, Within missed none doc op x → Sound env op x := by
  rw [visit_ok]
  constructor
  · intro h op x hx
    obtain ⟨h1, h2⟩ := within_skip (fun k l k' => v3_kids k l k') hx hwf
    exact (fine_iff_sound env op x h2).1 (h op x h1)
  · intro h op x hx
    have h1 := within_skip_v3 hx
    exact (fine_iff_sound env op x (within_skip (fun k l k' => v3_kids k l k') h1 hwf).2).2 (h op x h1)

/-- **C74 (partial): resolved (v3).** When processing succeeds, every reference of the document outside the members that are
not looked at, correlation IDs excepted, is set to what it designates. Missing: references of the correlation IDs and of the
tags of operations (`C74_violated_…`). -/
theorem C74_resolved_partial {τ : Type} (env : Env τ) (doc : Node) (hwf : WF fields3 refs3 doc)
    (hok : (visit v3 env none doc).status = .ok) (op : Option Nat) (x : Node) (hx : Within missed none doc op x)
    (hk : x.kind ≠ .correlationID) (hr : x.ref ≠ "") :
    ∃ t, env.lookup x.kind x.ref = .found t ∧ (x.id, t) ∈ (visit v3 env none doc).log := by
  obtain ⟨h1, h2⟩ := within_skip (fun k l k' => v3_kids k l k') hx hwf
  have hask : asked x.kind = x.kind := by
    revert hk
    cases x.kind <;> simp [asked]
  have hrf : refs3 x.kind = true := by
    cases h2 with
    | mk _ noRef _ =>
      rename_i k _ _ _ _ _ _
      cases hb : refs3 k with
      | true => exact hb
      | false => exact absurd (noRef hb) hr
  have hs := v3_ref _ hrf
  rw [hask] at hs
  have h3 := (visit_ok v3 env doc none).1 hok op x h1 _ hs (by intro l hl; cases hl)
  obtain ⟨t, h4, h5⟩ := (resolveRef_ok _ _ _ _ hr).1 h3
  refine ⟨t, h4, (visit_log v3 env doc none hok _).2 ⟨op, x, _, h1, hs, (by intro l hl; cases hl), ?_⟩⟩
  simp only [runStep]
  rw [h5]
  exact List.mem_singleton_self _

/-- **C74: nothing else is set (v3).** Every `ReferenceTo` that is set belongs to an element with that reference. -/
theorem C74_only {τ : Type} (env : Env τ) (doc : Node) (hok : (visit v3 env none doc).status = .ok) (i : Nat) (t : τ)
    (h : (i, t) ∈ (visit v3 env none doc).log) :
    ∃ op x, Within noSkip none doc op x ∧ x.id = i ∧ x.ref ≠ "" ∧ env.lookup (asked x.kind) x.ref = .found t := by
  obtain ⟨op, x, s, h1, h2, h3, h4⟩ := (visit_log v3 env doc none hok _).1 h
  have hw : ∀ {op op' : Option Nat} {n x : Node}, Within (skipped v3) op n op' x → Within noSkip op n op' x := by
    intro op op' n x h
    induction h with
    | here op n => exact .here op n
    | inside h1 _ _ ih => exact .inside h1 (fun h => h) ih
  refine ⟨op, x, hw h1, ?_⟩
  cases s with
  | ref k =>
    obtain ⟨rfl, _⟩ := v3_ref_only _ _ h2
    obtain ⟨h5, h6, h7⟩ := resolveRef_log env _ _ _ _ h4
    exact ⟨h6.symm, h5, h7⟩
  | kids l => exact absurd rfl (h3 l)
  | location =>
    simp only [runStep, location] at h4
    split at h4
    · cases h4
    · split at h4 <;> cases h4
  | reply => cases h4

/-- **C74: resolved (v2).** When processing succeeds, every reference of the document is set to what it designates. -/
theorem C74_resolved_v2 {τ : Type} (env : Env τ) (doc : Node) (hwf : WF fields2 refs2 doc)
    (hok : (visit v2 env none doc).status = .ok) (op : Option Nat) (x : Node) (hx : Within noSkip none doc op x)
    (hr : x.ref ≠ "") :
    ∃ t, env.lookup x.kind x.ref = .found t ∧ (x.id, t) ∈ (visit v2 env none doc).log := by
  obtain ⟨h1, h2⟩ := within_skip (fun k l k' h _ => v2_kids k l k' h) hx hwf
  have hrf : refs2 x.kind = true := by
    cases h2 with
    | mk _ noRef _ =>
      rename_i k _ _ _ _ _ _
      cases hb : refs2 k with
      | true => exact hb
      | false => exact absurd (noRef hb) hr
  have hs := v2_ref _ hrf
  have h3 := (visit_ok v2 env doc none).1 hok op x h1 _ hs (by intro l hl; cases hl)
  obtain ⟨t, h4, h5⟩ := (resolveRef_ok _ _ _ _ hr).1 h3
  refine ⟨t, h4, (visit_log v2 env doc none hok _).2 ⟨op, x, _, h1, hs, (by intro l hl; cases hl), ?_⟩⟩
  simp only [runStep]
  rw [h5]
  exact List.mem_singleton_self _

/-! ## Several files -/

theorem process_ok {τ : Type} (table : Kind → List Step) : ∀ files : List (Env τ × Node),
    (process table files).status = .ok ↔ ∀ f ∈ files, (visit table f.1 none f.2).status = .ok
  | [] => by simp [process, Out.nil]
  | (env, doc) :: rest => by
    rw [process, seq_ok, process_ok table rest]
    simp

theorem process_log {τ : Type} (table : Kind → List Step) : ∀ files : List (Env τ × Node),
    (∀ f ∈ files, (visit table f.1 none f.2).status = .ok) → ∀ e,
      (e ∈ (process table files).log ↔ ∃ f ∈ files, e ∈ (visit table f.1 none f.2).log)
  | [], _, e => by simp [process, Out.nil]
  | (env, doc) :: rest, h, e => by
    rw [process, seq_log _ _ (h _ List.mem_cons_self), List.mem_append,
      process_log table rest (fun f hf => h f (List.mem_cons_of_mem _ hf)) e]
    simp

/-- **C74: several files.** A document and its dependencies are accepted if and only if each of them is, and what is resolved
is what is resolved in each of them. -/
theorem C74_files {τ : Type} (table : Kind → List Step) (files : List (Env τ × Node)) :
    ((process table files).status = .ok ↔ ∀ f ∈ files, (visit table f.1 none f.2).status = .ok) ∧
    ((process table files).status = .ok → ∀ e, e ∈ (process table files).log ↔
      ∃ f ∈ files, e ∈ (visit table f.1 none f.2).log) :=
  ⟨process_ok table files, fun h => process_log table files ((process_ok table files).1 h)⟩

/-! ## How it ends when it fails -/

theorem seq_status {τ : Type} (a b : Out τ) : (a.seq b).status = a.status ∨ (a.seq b).status = b.status := by
  unfold Out.seq
  cases h : a.status <;> simp [h]

theorem runKids_status {τ : Type} (l : String) : ∀ rs : List (String × Out τ), (runKids l rs).status ≠ .ok →
    ∃ o, (l, o) ∈ rs ∧ o.status = (runKids l rs).status
  | [], h => absurd rfl h
  | (l', o) :: rs, h => by
    have ih := runKids_status l rs
    simp only [runKids, List.foldr_cons] at ih h ⊢
    split at h
    · rename_i hl
      rw [if_pos hl]
      rcases seq_status o (rs.foldr (fun e acc => if e.1 = l then e.2.seq acc else acc) .nil) with e | e
      · exact ⟨o, hl ▸ .head _, e.symm⟩
      · rw [e] at h ⊢
        obtain ⟨o', h1, h2⟩ := ih h
        exact ⟨o', .tail _ h1, h2⟩
    · rename_i hl
      rw [if_neg hl]
      obtain ⟨o', h1, h2⟩ := ih h
      exact ⟨o', .tail _ h1, h2⟩

theorem runSteps_status {τ : Type} (env : Env τ) (op : Option Nat) (n : Node) (rs : List (String × Out τ)) :
    ∀ steps : List Step, (runSteps env op n rs steps).status ≠ .ok →
      ∃ s ∈ steps, (runStep env op n rs s).status = (runSteps env op n rs steps).status
  | [], h => absurd rfl h
  | s :: steps, h => by
    have ih := runSteps_status env op n rs steps
    simp only [runSteps, List.foldr_cons] at ih h ⊢
    rcases seq_status (runStep env op n rs s) (steps.foldr (fun s acc => (runStep env op n rs s).seq acc) .nil) with e | e
    · exact ⟨s, .head _, e.symm⟩
    · rw [e] at h ⊢
      obtain ⟨s', h1, h2⟩ := ih h
      exact ⟨s', .tail _ h1, h2⟩

mutual
theorem visit_status {τ : Type} (table : Kind → List Step) (env : Env τ) : ∀ (n : Node) (op : Option Nat),
    (visit table env op n).status ≠ .ok → ∃ op' x s, Within (skipped table) op n op' x ∧ s ∈ table x.kind ∧
      (∀ l, s ≠ .kids l) ∧ (runStep env op' x [] s).status = (visit table env op n).status
  | .mk k id ref loc kids, op, h => by
    have ih := visitAll_status table env kids (opFor k id op)
    rw [visit] at h ⊢
    obtain ⟨s, hs, he⟩ := runSteps_status _ _ _ _ _ h
    by_cases hk : ∃ l, s = .kids l
    · obtain ⟨l, rfl⟩ := hk
      rw [← he] at h ⊢
      simp only [runStep] at h ⊢
      obtain ⟨o, ho, h4⟩ := runKids_status l _ h
      obtain ⟨m, h1, rfl⟩ := (mem_visitAll ..).1 ho
      rw [← h4] at h ⊢
      obtain ⟨op', x, s, h5, h6⟩ := ih l m h1 h
      exact ⟨op', x, s, .inside h1 (fun h2 => h2 hs) (by rw [← opFor_eq]; exact h5), h6⟩
    · have hk' : ∀ l, s ≠ .kids l := fun l hl => hk ⟨l, hl⟩
      rw [runStep_rs env op _ _ [] s hk'] at he
      exact ⟨op, _, s, .here op _, hs, hk', he⟩
theorem visitAll_status {τ : Type} (table : Kind → List Step) (env : Env τ) : ∀ (kids : List (String × Node)) (op : Option Nat)
    (l : String) (m : Node), (l, m) ∈ kids → (visit table env op m).status ≠ .ok →
    ∃ op' x s, Within (skipped table) op m op' x ∧ s ∈ table x.kind ∧ (∀ l, s ≠ .kids l) ∧
      (runStep env op' x [] s).status = (visit table env op m).status
  | [], _, _, _, h => by cases h
  | (l', m') :: kids, op, l, m, h => by
    have h1 := visit_status table env m' op
    have h2 := visitAll_status table env kids op l m
    rcases List.mem_cons.1 h with heq | h
    · cases heq; exact h1
    · exact h2 h
end

/-- An error has a cause in the document: a reference whose lookup is an error, or the location of a reply address that is
not a required field. -/
theorem C74_error {τ : Type} (env : Env τ) (doc : Node) (h : (visit v3 env none doc).status = .error) :
    ∃ op x, Within missed none doc op x ∧ ((x.ref ≠ "" ∧ env.lookup (asked x.kind) x.ref = .error) ∨
      ∃ i, op = some i ∧ x.kind = .replyAddress ∧ x.loc ≠ "" ∧ env.located i x.loc = .error) := by
  obtain ⟨op, x, s, hw, hs, hk, he⟩ := visit_status v3 env doc none (by rw [h]; decide)
  rw [h] at he
  refine ⟨op, x, within_skip_v3 hw, ?_⟩
  cases s with
  | kids l => exact absurd rfl (hk l)
  | ref k =>
    obtain ⟨rfl, _⟩ := v3_ref_only _ _ hs
    simp only [runStep, resolveRef] at he
    split at he
    · cases he
    · rename_i hr
      refine .inl ⟨hr, ?_⟩
      cases hl : env.lookup (asked x.kind) x.ref with
      | found t => rw [hl] at he; cases he
      | error => rfl
      | panic => rw [hl] at he; cases he
  | location =>
    have hx := (v3_location _).1 hs
    simp only [runStep, location] at he
    split at he
    · cases he
    · rename_i hl
      cases op with
      | none => cases he
      | some i => exact .inr ⟨i, rfl, hx, hl, he⟩
  | reply =>
    simp only [runStep, generateReply] at he
    split at he <;> cases he

/-- A crash has a cause in the document too: a reference whose lookup crashes, a location of a reply address outside an
operation (or crashing itself), or an operation with a reply without a channel. -/
theorem C74_crash {τ : Type} (env : Env τ) (doc : Node) (h : (visit v3 env none doc).status = .panic) :
    ∃ op x, Within missed none doc op x ∧ ((x.ref ≠ "" ∧ env.lookup (asked x.kind) x.ref = .panic) ∨
      (x.kind = .replyAddress ∧ x.loc ≠ "" ∧ ∀ i, op = some i → env.located i x.loc = .panic) ∨
      (x.kind = .operation ∧ ∃ r, ("reply", r) ∈ x.kids ∧ ∀ c, ("channel", c) ∉ r.kids)) := by
  obtain ⟨op, x, s, hw, hs, hk, he⟩ := visit_status v3 env doc none (by rw [h]; decide)
  rw [h] at he
  refine ⟨op, x, within_skip_v3 hw, ?_⟩
  cases s with
  | kids l => exact absurd rfl (hk l)
  | ref k =>
    obtain ⟨rfl, _⟩ := v3_ref_only _ _ hs
    simp only [runStep, resolveRef] at he
    split at he
    · cases he
    · rename_i hr
      refine .inl ⟨hr, ?_⟩
      cases hl : env.lookup (asked x.kind) x.ref with
      | found t => rw [hl] at he; cases he
      | error => rw [hl] at he; cases he
      | panic => rfl
  | location =>
    have hx := (v3_location _).1 hs
    simp only [runStep, location] at he
    split at he
    · cases he
    · rename_i hl
      refine .inr (.inl ⟨hx, hl, fun i hi => ?_⟩)
      subst hi
      exact he
  | reply =>
    have hx := (v3_reply _).1 hs
    refine .inr (.inr ⟨hx, ?_⟩)
    simp only [runStep, generateReply] at he
    split at he
    · rename_i hr
      unfold replyWithoutChannel at hr
      obtain ⟨⟨l, r⟩, h1, h2⟩ := List.any_eq_true.1 hr
      simp only [Bool.and_eq_true, beq_iff_eq, Bool.not_eq_true', List.any_eq_false] at h2
      obtain ⟨rfl, h3⟩ := h2
      exact ⟨r, h1, fun c hc => h3 _ hc rfl⟩
    · cases he

/-! ## Order of maps -/

theorem zip_left {A B : Type} : ∀ (as : List (String × A)) (bs : List (String × B)), as.map (·.1) = bs.map (·.1) →
    ∀ a ∈ as, ∃ b ∈ bs, a.1 = b.1 ∧ (a, b) ∈ as.zip bs
  | [], _, _, a, ha => by cases ha
  | a' :: as, [], h, _, _ => by cases h
  | a' :: as, b' :: bs, h, a, ha => by
    simp only [List.map_cons, List.cons.injEq] at h
    rcases List.mem_cons.1 ha with rfl | ha
    · exact ⟨b', List.mem_cons_self, h.1, List.mem_cons_self⟩
    · obtain ⟨b, h1, h2, h3⟩ := zip_left as bs h.2 a ha
      exact ⟨b, List.mem_cons_of_mem _ h1, h2, List.mem_cons_of_mem _ h3⟩

theorem zip_right {A B : Type} : ∀ (as : List (String × A)) (bs : List (String × B)), as.map (·.1) = bs.map (·.1) →
    ∀ b ∈ bs, ∃ a ∈ as, a.1 = b.1 ∧ (a, b) ∈ as.zip bs
  | _, [], _, b, hb => by cases hb
  | [], b' :: bs, h, _, _ => by cases h
  | a' :: as, b' :: bs, h, b, hb => by
    simp only [List.map_cons, List.cons.injEq] at h
    rcases List.mem_cons.1 hb with rfl | hb
    · exact ⟨a', List.mem_cons_self, h.1, List.mem_cons_self⟩
    · obtain ⟨a, h1, h2, h3⟩ := zip_right as bs h.2 b hb
      exact ⟨a, List.mem_cons_of_mem _ h1, h2, List.mem_cons_of_mem _ h3⟩

theorem reordered_same {n n' : Node} (h : Reordered n n') :
    n'.kind = n.kind ∧ n'.id = n.id ∧ n'.ref = n.ref ∧ n'.loc = n.loc := by
  cases h; exact ⟨rfl, rfl, rfl, rfl⟩

theorem reordered_left {n n' : Node} (h : Reordered n n') (l : String) (m : Node) (hm : (l, m) ∈ n.kids) :
    ∃ m', (l, m') ∈ n'.kids ∧ Reordered m m' := by
  cases h with
  | mk perm labels all =>
    obtain ⟨⟨l', m'⟩, h1, h2, h3⟩ := zip_left _ _ labels (l, m) (perm.mem_iff.1 hm)
    cases h2
    exact ⟨m', h1, all _ h3⟩

theorem reordered_right {n n' : Node} (h : Reordered n n') (l : String) (m' : Node) (hm : (l, m') ∈ n'.kids) :
    ∃ m, (l, m) ∈ n.kids ∧ Reordered m m' := by
  cases h with
  | mk perm labels all =>
    obtain ⟨⟨l', m⟩, h1, h2, h3⟩ := zip_right _ _ labels (l, m') hm
    cases h2
    exact ⟨m, perm.mem_iff.2 h1, all _ h3⟩

theorem within_left {skip : Kind → String → Prop} {op op' : Option Nat} {n x : Node} (h : Within skip op n op' x) :
    ∀ n', Reordered n n' → ∃ x', Within skip op n' op' x' ∧ Reordered x x' := by
  induction h with
  | here op n => exact fun n' hn => ⟨n', .here op n', hn⟩
  | inside h1 h2 _ ih =>
    intro n' hn
    obtain ⟨m', h3, h4⟩ := reordered_left hn _ _ h1
    obtain ⟨x', h5, h6⟩ := ih m' h4
    refine ⟨x', ?_, h6⟩
    cases hn
    exact .inside h3 h2 h5

theorem within_right {skip : Kind → String → Prop} {op op' : Option Nat} {n' x' : Node} (h : Within skip op n' op' x') :
    ∀ n, Reordered n n' → ∃ x, Within skip op n op' x ∧ Reordered x x' := by
  induction h with
  | here op n' => exact fun n hn => ⟨n, .here op n, hn⟩
  | inside h1 h2 _ ih =>
    intro n hn
    obtain ⟨m, h3, h4⟩ := reordered_right hn _ _ h1
    obtain ⟨x, h5, h6⟩ := ih m h4
    refine ⟨x, ?_, h6⟩
    cases hn
    exact .inside h3 h2 h5

theorem sound_reordered {τ : Type} (env : Env τ) (op : Option Nat) {x x' : Node} (h : Reordered x x') :
    Sound env op x ↔ Sound env op x' := by
  obtain ⟨h1, h2, h3, h4⟩ := reordered_same h
  constructor
  · rintro ⟨a, b, c⟩
    refine ⟨by rw [h1, h3]; exact a, by rw [h1, h4]; exact b, fun hk r' hr => ?_⟩
    obtain ⟨r, hr1, hr2⟩ := reordered_right h _ _ hr
    obtain ⟨ch, hc⟩ := c (by rw [← h1]; exact hk) r hr1
    obtain ⟨ch', hc', _⟩ := reordered_left hr2 _ _ hc
    exact ⟨ch', hc'⟩
  · rintro ⟨a, b, c⟩
    refine ⟨by rw [← h1, ← h3]; exact a, by rw [← h1, ← h4]; exact b, fun hk r hr => ?_⟩
    obtain ⟨r', hr1, hr2⟩ := reordered_left h _ _ hr
    obtain ⟨ch', hc⟩ := c (by rw [h1]; exact hk) r' hr1
    obtain ⟨ch, hc', _⟩ := reordered_right hr2 _ _ hc
    exact ⟨ch, hc'⟩

theorem wf_reordered {fields : Kind → List (String × Kind)} {refs : Kind → Bool} {n : Node} (h : WF fields refs n) :
    ∀ n', Reordered n n' → WF fields refs n' := by
  induction h with
  | mk shape noRef all ih =>
    intro n' hn
    have hr := reordered_right hn
    cases hn with
    | mk perm labels hall =>
      refine .mk (fun l m' hm => ?_) noRef (fun l m' hm => ?_)
      · obtain ⟨m, h1, h2⟩ := hr l m' hm
        rw [(reordered_same h2).1]
        exact shape l m h1
      · obtain ⟨m, h1, h2⟩ := hr l m' hm
        exact ih l m h1 m' h2

/-- **C74: whether a document is accepted does not depend on the iteration order of maps (v3).** -/
theorem C74_order {τ : Type} (env : Env τ) (doc doc' : Node) (hwf : WF fields3 refs3 doc) (h : Reordered doc doc') :
    (visit v3 env none doc).status = .ok ↔ (visit v3 env none doc').status = .ok := by
  rw [C74_accepted_iff_partial env doc hwf, C74_accepted_iff_partial env doc' (wf_reordered hwf doc' h)]
  constructor
  · intro hs op x' hx
    obtain ⟨x, h1, h2⟩ := within_right hx doc h
    exact (sound_reordered env op h2).1 (hs op x h1)
  · intro hs op x hx
    obtain ⟨x', h1, h2⟩ := within_left hx doc' h
    exact (sound_reordered env op h2).2 (hs op x' h1)

/-! ## Witnesses, with the references of `Refs` -/

/-- The Go type of an element of a kind (the second argument of the casts of v3/specification.go:198-652). Nothing can be
referenced as an example of a message. -/
def tyOf : Kind → Refs.Ty
  | .schema => .schema
  | .message => .message
  | .channel => .channel
  | .server => .other "servers".toList
  | .serverVariable => .other "serverVariables".toList
  | .securityScheme => .other "securitySchemes".toList
  | .tag => .other "tags".toList
  | .externalDocs => .other "externalDocs".toList
  | .serverBindings => .other "serverBindings".toList
  | .channelBindings => .other "channelBindings".toList
  | .parameter => .other "parameters".toList
  | .messageBindings => .other "messageBindings".toList
  | .messageTrait => .other "messageTraits".toList
  | .correlationID => .other "correlationIds".toList
  | .operation => .other "operations".toList
  | .operationTrait => .other "operationTraits".toList
  | .operationBindings => .other "operationBindings".toList
  | .reply => .other "replies".toList
  | .replyAddress => .other "replyAddresses".toList
  | .messageExample => .other "(message examples)".toList
  | .spec => .other "(document)".toList
  | .info => .other "(info)".toList
  | .components => .other "(components)".toList

/-- `ReferenceX` on a document without dependencies. -/
def envOf (v : Refs.Version) (d : Refs.Doc) : Env Refs.Elem where
  lookup k ref := match Refs.lookup v d [] (tyOf k) ref.toList with
    | .found e => .found e
    | .error => .error
    | .panic => .panic
  located _ _ := .ok

/-- Correlation ID `c`, reply address `a`, reply `r`, tag `t`, message `M` and schema `S` among the components; channel `ch`. -/
def doc1 : Refs.Doc := ⟨[("S".toList, .mk 1 [])], [("M".toList, ⟨10, none, none⟩)],
  [(("correlationIds".toList, "c".toList), 2), (("replyAddresses".toList, "a".toList), 3), (("tags".toList, "t".toList), 4),
    (("replies".toList, "r".toList), 9)],
  [("ch".toList, ⟨5, []⟩)], [(("servers".toList, "prod".toList), 6)]⟩

def inComponents (kids : List (String × Node)) : Node :=
  .mk .spec 0 "" "" [("components", .mk .components 1 "" "" kids)]

/-- A message with the correlation ID `c`, given by reference. -/
def corrByRef : Node :=
  inComponents [("correlationIds", .mk .correlationID 2 "" "$message.header#/id" []),
    ("messages", .mk .message 10 "" "" [("correlationId", .mk .correlationID 11 "#/components/correlationIds/c" "" [])])]

/-- A payload by reference. -/
def good : Node :=
  inComponents [("schemas", .mk .schema 1 "" "" []),
    ("messages", .mk .message 10 "" "" [("payload", .mk .schema 11 "#/components/schemas/S" "" [])])]

/-- Non-vacuity: a well-formed document that is accepted, with a reference resolved. -/
example : WF fields3 refs3 good ∧ (visit v3 (envOf Refs.v3 doc1) none good).status = .ok ∧
    (visit v3 (envOf Refs.v3 doc1) none good).log = [(11, .schema (.mk 1 []))] := by
  refine ⟨?_, rfl, rfl⟩
  have leaf : ∀ id ref, WF fields3 refs3 (.mk .schema id ref "" []) := fun id ref =>
    .mk (by intro l m h; cases h) (by intro h; cases h) (by intro l m h; cases h)
  have msg : WF fields3 refs3 (.mk .message 10 "" "" [("payload", .mk .schema 11 "#/components/schemas/S" "" [])]) := by
    refine .mk (fun l m h => ?_) (fun h => rfl) (fun l m h => ?_) <;> cases List.mem_singleton.1 h
    · decide
    · exact leaf _ _
  refine .mk (fun l m h => ?_) (fun h => rfl) (fun l m h => ?_) <;> cases List.mem_singleton.1 h
  · decide
  · refine .mk (fun l m h => ?_) (fun h => rfl) (fun l m h => ?_)
    · rcases List.mem_cons.1 h with h | h
      · cases h; decide
      · cases List.mem_singleton.1 h; decide
    · rcases List.mem_cons.1 h with h | h
      · cases h; exact leaf _ _
      · cases List.mem_singleton.1 h; exact msg

/-- **C74 is violated** (1): the correlation ID of a message given by reference, which exists, is never resolved; the message
then has no location for its correlation ID, and nothing is reported. -/
theorem C74_violated_correlation_id :
    (visit v3 (envOf Refs.v3 doc1) none corrByRef).status = .ok ∧
    (visit v3 (envOf Refs.v3 doc1) none corrByRef).log = [] ∧
    (envOf Refs.v3 doc1).lookup .correlationID "#/components/correlationIds/c" = .found (.other "correlationIds".toList 2) := by
  exact ⟨rfl, rfl, rfl⟩

/-- **C74 is violated** (2): the tags of operations given by reference neither, even when they do not exist. -/
theorem C74_violated_operation_tags :
    (visit v3 (envOf Refs.v3 doc1) none (.mk .spec 0 "" "" [("operations", .mk .operation 1 "" ""
      [("channel", .mk .channel 2 "#/channels/ch" "" []), ("tags", .mk .tag 3 "#/components/tags/none" "" [])])])).status = .ok := by
  rfl

/-- **C74 is violated** (3): a correlation ID of the components that refers to another one, which exists, is an error, as a
channel is expected. -/
theorem C74_violated_correlation_id_components :
    (visit v3 (envOf Refs.v3 doc1) none (inComponents
      [("correlationIds", .mk .correlationID 7 "#/components/correlationIds/c" "" [])])).status = .error := by
  rfl

/-- **C74 is violated** (4): a reply address among the components, with the location AsyncAPI requires, crashes the
generator; no document with one is accepted, whatever the rest of it. -/
theorem C74_violated_reply_address :
    (visit v3 (envOf Refs.v3 doc1) none (inComponents
      [("replyAddresses", .mk .replyAddress 3 "" "$message.header#/replyTo" [])])).status = .panic ∧
    ∀ {τ : Type} (env : Env τ) (doc : Node), WF fields3 refs3 doc → ∀ x, Within missed none doc none x →
      x.kind = .replyAddress → x.loc ≠ "" → (visit v3 env none doc).status ≠ .ok := by
  refine ⟨rfl, fun env doc hwf x hx hk hl hok => ?_⟩
  obtain ⟨i, h, _⟩ := ((C74_accepted_iff_partial env doc hwf).1 hok none x hx).location hk hl
  cases h

/-- **C74 is violated** (5): a reply given by reference crashes the generator, as does a reply without channel. -/
theorem C74_violated_reply (ref : String) (h : ref = "" ∨ ref = "#/components/replies/r") :
    (visit v3 (envOf Refs.v3 doc1) none (.mk .spec 0 "" "" [("operations", .mk .operation 1 "" ""
      [("channel", .mk .channel 2 "#/channels/ch" "" []), ("reply", .mk .reply 3 ref "" [])])])).status = .panic := by
  rcases h with rfl | rfl <;> rfl

/-- **C74 is violated** (6): the servers of a channel, which AsyncAPI requires to be references to the servers at the root of
the document, are an error. -/
theorem C74_violated_servers : doc1.roots.get ("servers".toList, "prod".toList) = some 6 ∧
    (visit v3 (envOf Refs.v3 doc1) none (.mk .spec 0 "" "" [("channels", .mk .channel 5 "" ""
      [("servers", .mk .server 8 "#/servers/prod" "" [])]), ("servers", .mk .server 6 "" "" [])])).status = .error := by
  exact ⟨rfl, rfl⟩

end Verif.Walk
