import Verif.Proofs.Panics
import Verif.Spec.Panics2

/-! # No panic on tame documents of version 2 -/

namespace Verif.Panics2

open Panics (Heap Ptr M Ty Order SchemaPath MessagePath Safe Inv SchRel MsgRel SchemaOk MessageOk Absent Full FullMap
  absent_nil)

section
variable {h0 : Heap} {C : Str → Prop}

theorem safe_resolve {r : Roots} {path : List Str} (h : PathOk h0 r path) :
    Safe h0 C (resolve r path) (fun _ => True) := by
  cases h with
  | schema hp =>
    rw [resolve, if_pos rfl]
    unfold component
    dsimp only
    rw [if_neg (by decide), if_pos rfl]
    exact (Safe.schemaFrom hp).seq fun _ => Safe.pure trivial
  | message hp =>
    rw [resolve, if_pos rfl]
    unfold component
    dsimp only
    rw [if_pos rfl]
    exact Safe.messageFrom hp
  | parameter =>
    rw [resolve, if_pos rfl]
    unfold component
    dsimp only
    rw [if_neg (by decide), if_neg (by decide), if_pos rfl]
    exact Safe.pure trivial
  | kind h1 h2 h3 =>
    rw [resolve, if_pos rfl]
    unfold component
    dsimp only
    rw [if_neg h1, if_neg h2, if_neg h3]
    exact Safe.fail
  | elsewhere h1 =>
    rw [resolve, if_neg h1]
    exact Safe.fail

theorem safe_referenceAs {s : Doc} (hs : ∀ r, C r → RefOk h0 s r) (t : Ty) {ref : Str} (h : C ref) :
    Safe h0 C (referenceAs s t ref) (fun _ => True) := by
  refine Safe.seq (P := fun _ => True) ?_ fun x => ?_
  · have hr := hs ref h
    unfold reference
    split
    · rename_i file path hsplit
      refine Safe.bind (P := fun r => fileOf s file = some r) ?_ fun r hf => safe_resolve (hr file path r hsplit hf)
      unfold usedSpec
      refine Safe.ite (fun hf => Safe.pure (by simp [fileOf, hf])) fun hf => ?_
      cases hg : s.deps.get (Panics.trimDot file) with
      | none => exact Safe.fail
      | some r => exact Safe.pure (by simp [fileOf, hf, hg])
    · exact Safe.fail
  · obtain ⟨t', p⟩ := x
    refine Safe.ite (fun _ => ?_) fun _ => Safe.fail
    cases p with
    | none => exact Safe.fail
    | some a => exact Safe.pure trivial

/-! ## Metadata -/

theorem safe_metaSchema {o : Order} (ho : o.Ok) (n : Nat) {p : Ptr} (hp : p ≠ none) :
    Safe h0 C (metaSchema o n p) (fun _ => True) := by
  induction n generalizing p with
  | zero => rw [metaSchema]; exact Safe.tooDeep
  | succ n ih =>
    unfold metaSchema
    refine (Safe.deref hp).seq fun a => (Safe.sch a).bind fun s hs => ?_
    refine (Safe.eachOf ho fun e he => ih (hs.1.props e he)).seq fun _ => ?_
    refine (Safe.ite (fun _ => Safe.pure trivial) fun h => ih h).seq fun _ => ?_
    refine (Safe.each fun x hx => ih (hs.1.anyOf x hx)).seq fun _ => ?_
    refine (Safe.each fun x hx => ih (hs.1.oneOf x hx)).seq fun _ => ?_
    refine (Safe.each fun x hx => ih (hs.1.allOf x hx)).seq fun _ => ?_
    exact Safe.ite (fun _ => Safe.pure trivial) fun h => ih h

theorem safe_metaMessage {o : Order} (ho : o.Ok) (n : Nat) {p : Ptr} (hp : p ≠ none) :
    Safe h0 C (metaMessage o n p) (fun _ => True) := by
  induction n generalizing p with
  | zero => rw [metaMessage]; exact Safe.tooDeep
  | succ n ih =>
    unfold metaMessage
    refine (Safe.deref hp).seq fun a => (Safe.msg a).bind fun m hm => ?_
    refine (Safe.ite (fun _ => Safe.pure trivial) fun h => safe_metaSchema ho n h).seq fun _ => ?_
    refine (Safe.ite (fun _ => Safe.pure trivial) fun h => safe_metaSchema ho n h).seq fun _ => ?_
    exact (Safe.each fun x hx => ih (hm.1.oneOf x hx)).seq fun _ => Safe.correlation a

theorem safe_ifOp {f : Nat → M Unit} {p : Ptr} (h : ∀ a, p = some a → Safe h0 C (f a) (fun _ => True)) :
    Safe h0 C (ifOp f p) (fun _ => True) := by
  cases p with
  | none => exact Safe.pure trivial
  | some a => exact h a rfl

theorem safe_metaOperation {o : Order} (ho : o.Ok) (n : Nat) {p : Ptr} (h : OperationOk h0 p) :
    Safe h0 C (ifOp (metaOperation o n) p) (fun _ => True) := by
  refine safe_ifOp fun a ha => ?_
  unfold metaOperation
  refine (Safe.msg a).bind fun m hm => Safe.seq (P := fun _ => True) ?_ fun _ => safe_metaMessage ho n (Option.some_ne_none a)
  refine Safe.ite (fun _ => Safe.pure trivial) fun hne => ?_
  have hl : 4 ≤ (Str.split '/' m.ref).length := by
    rcases hm.2.2.2 with h1 | h1
    · exact absurd h1 hne
    · rw [h1] at hne ⊢; exact h a ha hne
  rw [List.getElem?_eq_getElem (show 3 < (Str.split '/' m.ref).length from hl)]
  exact Safe.pure trivial

theorem safe_metaPars {o : Order} (ho : o.Ok) {m : GoMap Str (Option Par)} (h : ParametersOk C m) :
    Safe h0 C (metaPars o m) (fun _ => True) := by
  unfold metaPars
  refine (Safe.ranged ho m).bind fun l hl => Safe.each fun e he => ?_
  have hn := h.1 e.2 (List.mem_map.2 ⟨e, hl e he, rfl⟩)
  cases hp : e.2 with
  | none => exact absurd hp hn
  | some p => exact Safe.pure trivial

theorem safe_metaRoots {o : Order} (ho : o.Ok) (n : Nat) {r : Roots} (h : RootsOk h0 C r) :
    Safe h0 C (metaRoots o n r) (fun _ => True) := by
  unfold metaRoots
  refine (Safe.ranged ho r.channels).bind fun l hl => Safe.seq (P := fun _ => True) (Safe.each fun e he => ?_) fun _ => ?_
  · have hm : e.2 ∈ r.channels.map (·.2) := List.mem_map.2 ⟨e, hl e he, rfl⟩
    cases hc : e.2 with
    | none => exact absurd hc (h.channels e.2 hm)
    | some c =>
      have hk := h.channel c (hc ▸ hm)
      exact (safe_metaOperation ho n hk.subscribe).seq fun _ => (safe_metaOperation ho n hk.publish).seq fun _ =>
        safe_metaPars ho hk.parameters
  refine (Safe.eachOf ho fun e he => safe_metaSchema ho n (h.schemas e he)).seq fun _ => ?_
  exact (Safe.eachOf ho fun e he => safe_metaMessage ho n (h.messages e he)).seq fun _ => safe_metaPars ho h.parameters

/-! ## Dependencies -/

theorem safe_setSchema {s : Doc} (hs : ∀ r, C r → RefOk h0 s r) {o : Order} (ho : o.Ok) (n : Nat) {p : Ptr} (hp : p ≠ none) :
    Safe h0 C (setSchema s o n p) (fun _ => True) := by
  induction n generalizing p with
  | zero => rw [setSchema]; exact Safe.tooDeep
  | succ n ih =>
    unfold setSchema
    refine (Safe.deref hp).seq fun a => ?_
    refine Safe.seq (P := fun _ => True) ?_ fun _ => ?_
    · unfold setSchemaReference
      refine (Safe.sch a).bind fun x hx => Safe.ite (fun _ => Safe.pure trivial) fun hne => ?_
      refine (safe_referenceAs hs .schema (hx.1.ref hne)).seq fun t => (Safe.sch a).bind fun x hx => ?_
      exact Safe.setSch (hx.same rfl rfl rfl rfl rfl)
    refine (Safe.sch a).bind fun s hs => (Safe.eachOf ho fun e he => ih (hs.1.props e he)).seq fun _ => ?_
    refine (Safe.sch a).seq fun _ => (Safe.ite (fun _ => Safe.pure trivial) fun h => ih h).seq fun _ => ?_
    refine (Safe.sch a).bind fun s hs => (Safe.visitMerge ho a hs.1.anyOf fun p h => ih h).seq fun _ => ?_
    refine (Safe.sch a).bind fun s hs => (Safe.visitMerge ho a hs.1.oneOf fun p h => ih h).seq fun _ => ?_
    refine (Safe.sch a).bind fun s hs => (Safe.visitMerge ho a hs.1.allOf fun p h => ih h).seq fun _ => ?_
    exact (Safe.sch a).seq fun _ => Safe.ite (fun _ => Safe.pure trivial) fun h => ih h

theorem safe_setHeaders {s : Doc} (hs : ∀ r, C r → RefOk h0 s r) {o : Order} (ho : o.Ok) (n : Nat) (p : Ptr) :
    Safe h0 C (setHeaders s o n p) (fun _ => True) := by
  cases p with
  | none => exact Safe.pure trivial
  | some b =>
    unfold setHeaders
    refine (safe_setSchema hs ho n (Option.some_ne_none b)).seq fun _ => (Safe.sch b).seq fun s => ?_
    exact (Safe.targetOf s).seq fun t => Safe.ite (fun _ => Safe.pure trivial) fun _ => Safe.fail

theorem safe_setMessage {s : Doc} (hs : ∀ r, C r → RefOk h0 s r) {o : Order} (ho : o.Ok) (n : Nat) {p : Ptr} (hp : p ≠ none) :
    Safe h0 C (setMessage s o n p) (fun _ => True) := by
  induction n generalizing p with
  | zero => rw [setMessage]; exact Safe.tooDeep
  | succ n ih =>
    unfold setMessage
    refine (Safe.deref hp).seq fun a => (Safe.msg a).seq fun m => ?_
    refine (Safe.ite (fun _ => Safe.pure trivial) fun h => safe_setSchema hs ho n h).seq fun _ => ?_
    refine Safe.seq (P := fun _ => True) ?_ fun _ => ?_
    · unfold setMessageReference
      refine (Safe.msg a).bind fun x hx => Safe.ite (fun _ => Safe.pure trivial) fun hne => ?_
      refine (safe_referenceAs hs .message (hx.1.ref hne)).seq fun t => (Safe.msg a).bind fun x hx => ?_
      exact Safe.setMsg ⟨hx.1.same rfl rfl rfl rfl rfl rfl, hx.2⟩
    refine (Safe.msg a).seq fun m => (safe_setHeaders hs ho n m.headers).seq fun _ => ?_
    refine (Safe.msg a).bind fun m hm => Safe.seq (P := fun _ => True) (Safe.each fun v hv => ?_) fun _ => ?_
    · refine (ih (hm.1.oneOf v hv)).seq fun _ => (Safe.deref (hm.1.oneOf v hv)).seq fun b => (Safe.msg b).bind fun m2 h2 => ?_
      exact (Safe.mergeMessage (fun _ h => safe_referenceAs hs .message h) ho n (p := .heap a) trivial h2.1).seq fun _ =>
        Safe.pure trivial
    unfold setCorrelation
    refine (Safe.msg a).bind fun m hm => ?_
    cases m.corr with
    | some _ => exact Safe.pure trivial
    | none =>
      refine Safe.ite (fun _ => Safe.pure trivial) fun hne => ?_
      exact (safe_referenceAs hs .message (hm.1.ref hne)).seq fun _ => Safe.pure trivial

theorem safe_setPars {s : Doc} (hs : ∀ r, C r → RefOk h0 s r) {o : Order} (ho : o.Ok) {m : GoMap Str (Option Par)}
    (h : ParametersOk C m) : Safe h0 C (setPars s o m) (fun _ => True) := by
  unfold setPars
  refine (Safe.ranged ho m).bind fun l hl => Safe.each fun e he => ?_
  have hm : e.2 ∈ m.map (·.2) := List.mem_map.2 ⟨e, hl e he, rfl⟩
  cases hp : e.2 with
  | none => exact absurd hp (h.1 e.2 hm)
  | some p =>
    refine Safe.ite (fun _ => Safe.pure trivial) fun hne => ?_
    exact (safe_referenceAs hs _ (h.2 p (hp ▸ hm) hne)).seq fun _ => Safe.pure trivial

theorem safe_setRoots {s : Doc} (hs : ∀ r, C r → RefOk h0 s r) {o : Order} (ho : o.Ok) (n : Nat) (h : RootsOk h0 C s.main) :
    Safe h0 C (setRoots s o n) (fun _ => True) := by
  unfold setRoots
  refine (Safe.ranged ho _).bind fun l hl => Safe.seq (P := fun _ => True) (Safe.each fun e he => ?_) fun _ => ?_
  · have hm : e.2 ∈ s.main.channels.map (·.2) := List.mem_map.2 ⟨e, hl e he, rfl⟩
    cases hc : e.2 with
    | none => exact absurd hc (h.channels e.2 hm)
    | some c =>
      have hk := h.channel c (hc ▸ hm)
      refine (safe_ifOp fun a _ => safe_setMessage hs ho n (Option.some_ne_none a)).seq fun _ => ?_
      refine (safe_ifOp fun a _ => safe_setMessage hs ho n (Option.some_ne_none a)).seq fun _ => ?_
      exact safe_setPars hs ho hk.parameters
  refine (Safe.eachOf ho fun e he => safe_setSchema hs ho n (h.schemas e he)).seq fun _ => ?_
  exact (Safe.eachOf ho fun e he => safe_setMessage hs ho n (h.messages e he)).seq fun _ => safe_setPars hs ho h.parameters

theorem safe_follow (n a : Nat) : Safe h0 C (follow n a) (fun _ => True) := by
  induction n generalizing a with
  | zero => exact Safe.tooDeep
  | succ n ih =>
    unfold follow
    refine (Safe.msg a).seq fun m => ?_
    cases m.refTo with
    | none => exact Safe.pure trivial
    | some b => exact ih b

end

theorem init {s : Store} {d : Doc} (T : Tame s d) : Inv s.heap (Calm s.heap d) s.heap where
  schemas a := ⟨T.schemas a, fun _ _ _ h => h⟩
  messages a := ⟨T.messages a, fun _ h => h, fun _ h => h, .inr rfl⟩
  messageTraits _ := ⟨_, rfl⟩
  operationTraits _ := ⟨_, rfl⟩
  channels _ := ⟨_, rfl⟩
  replies _ := ⟨_, rfl⟩
  addresses _ := ⟨_, rfl⟩
  operations _ := ⟨rfl, rfl, rfl, rfl, rfl, rfl, fun _ => rfl, Panics.namedOk_nil, Panics.namedOk_nil⟩
  next := Nat.le_refl _

theorem safe_generate {s : Store} {d : Doc} (T : Tame s d) {o : Order} (ho : o.Ok) (n : Nat) (sides : Bool) :
    Safe s.heap (Calm s.heap d) (generate d o n sides) (fun _ => True) := by
  have main : d ∈ documents d := List.mem_cons_self ..
  have dep : ∀ e ∈ d.deps, { main := e.2 } ∈ documents d := fun e he =>
    List.mem_cons_of_mem _ (List.mem_map.2 ⟨e, he, rfl⟩)
  have R := T.roots d main
  unfold generate process
  refine Safe.seq (P := fun _ => True) ?_ fun _ => Safe.seq (P := fun _ => True) ?_ fun _ => ?_
  · refine (Safe.ranged ho d.deps).bind fun l hl => ?_
    refine (Safe.each fun e he => safe_metaRoots ho n (T.roots _ (dep e (hl e he)))).seq fun _ => ?_
    refine (safe_metaRoots ho n R).seq fun _ => (Safe.ranged ho d.deps).bind fun l hl => ?_
    refine Safe.seq (P := fun _ => True) (Safe.each fun e he => ?_) fun _ => safe_setRoots (fun r hr => hr d main) ho n R
    exact safe_setRoots (fun r hr => hr _ (dep e (hl e he))) ho n (T.roots _ (dep e (hl e he)))
  · unfold customImports
    refine (Safe.eachOf ho fun e he => Safe.imports ho n (R.schemas e he)).seq fun _ => ?_
    refine (Safe.eachOf ho fun e he => Safe.messageImports ho n (R.messages e he)).seq fun _ => ?_
    refine (Safe.ranged ho _).bind fun l hl => Safe.each fun e he => ?_
    cases hp : e.2 with
    | none => exact absurd hp (R.parameters.1 e.2 (List.mem_map.2 ⟨e, hl e he, rfl⟩))
    | some p => exact Safe.ite (fun _ => Safe.pure trivial) fun h => Safe.imports ho n h
  · refine Safe.ite (fun _ => ?_) fun _ => Safe.pure trivial
    refine (Safe.ranged ho _).bind fun l hl => Safe.each fun e he => ?_
    cases hc : e.2 with
    | none => exact absurd hc (R.channels e.2 (List.mem_map.2 ⟨e, hl e he, rfl⟩))
    | some c => exact (safe_ifOp fun a _ => safe_follow n a).seq fun _ => safe_ifOp fun a _ => safe_follow n a

theorem no_panic {s : Store} {d : Doc} (T : Tame s d) {o : Order} (ho : o.Ok) (n : Nat) (sides : Bool) :
    run d o n sides s ≠ .error .panic := by
  have h := safe_generate T ho n sides s.heap (init T)
  unfold run
  cases hr : generate d o n sides s.heap with
  | ok x => nofun
  | error e => rw [hr] at h; intro he; cases he; exact h rfl

end Verif.Panics2
