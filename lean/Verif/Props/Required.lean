import Verif.Model.Required
import Verif.Props.Deep

/-! # C105: a property is required exactly when its object requires it -/

namespace Verif.Required

open SchemaMerge (Ref Sch Heap mergeWith adopt)
open Process (Doc setReference setDependencies processAll visitAll visitMerge visitRest comps core mem_comps IsList set_self
  set_other reference_other reference_props merge_refTo)

/-! ## Marking -/

/-- `m` is `n` or is written in it. -/
inductive In : Node → Node → Prop
  | self {n : Node} : In n n
  | kid {n c m : Node} {o : Option Str} : (o, c) ∈ n.kids → In c m → In n m

mutual
/-- The schemas of a tree. -/
def ids : Node → List Nat
  | .mk id kids => id :: idsAll kids
def idsAll : List (Option Str × Node) → List Nat
  | [] => []
  | (_, c) :: rest => ids c ++ idsAll rest
end

/-- The same schema but for the mark. -/
def Same (a b : Sch) : Prop := { a with isRequired := b.isRequired } = b

theorem Same.refl (a : Sch) : Same a a := rfl

theorem Same.trans {a b c : Sch} (h1 : Same a b) (h2 : Same b c) : Same a c := by
  unfold Same at *
  rw [← h2, ← h1]

theorem Same.required {a b : Sch} (h : Same a b) : a.required = b.required := by rw [← h]
theorem Same.props {a b : Sch} (h : Same a b) : a.props = b.props := by rw [← h]
theorem Same.comps {a b : Sch} (h : Same a b) : Process.comps a = Process.comps b := by rw [← h]; rfl
theorem Same.refTo {a b : Sch} (h : Same a b) : a.refTo = b.refTo := by rw [← h]

mutual
theorem mark_same (h : Heap) : ∀ (n : Node) (r : Bool) (p : Nat), Same (h p) (mark h n r p)
  | .mk id kids, r, p => by
    rw [mark]
    have := markAll_same h (h id).required kids
    by_cases hp : p = id
    · subst hp
      rw [set_self]
      exact (this p).trans rfl
    · rw [set_other _ _ _ _ hp]; exact this p
theorem markAll_same (h : Heap) (req : List Str) : ∀ (kids : List (Option Str × Node)) (p : Nat),
    Same (h p) (markAll h req kids p)
  | [], p => by rw [markAll]; exact .refl _
  | (o, c) :: rest, p => by
    rw [markAll]
    exact (mark_same h c _ p).trans (markAll_same _ req rest p)
end

mutual
theorem mark_outside (h : Heap) : ∀ (n : Node) (r : Bool) (p : Nat), p ∉ ids n → mark h n r p = h p
  | .mk id kids, r, p, hp => by
    rw [ids, List.mem_cons, not_or] at hp
    rw [mark, set_other _ _ _ _ hp.1]
    exact markAll_outside h _ kids p hp.2
theorem markAll_outside (h : Heap) (req : List Str) : ∀ (kids : List (Option Str × Node)) (p : Nat), p ∉ idsAll kids →
    markAll h req kids p = h p
  | [], p, _ => by rw [markAll]
  | (o, c) :: rest, p, hp => by
    rw [idsAll, List.mem_append, not_or] at hp
    rw [markAll, markAll_outside _ req rest p hp.2, mark_outside h c _ p hp.1]
end

/-- A root gets the mark it is called with. -/
theorem mark_root (h : Heap) (n : Node) (r : Bool) : (mark h n r n.id).isRequired = r := by
  obtain ⟨id, kids⟩ := n
  rw [mark, Node.id, set_self]

theorem id_mem_ids (n : Node) : n.id ∈ ids n := by
  obtain ⟨id, kids⟩ := n
  rw [ids]; exact List.mem_cons_self

theorem ids_kid : ∀ {kids : List (Option Str × Node)} {o : Option Str} {c : Node}, (o, c) ∈ kids → ∀ p ∈ ids c, p ∈ idsAll kids
  | (_, _) :: _, _, _, h, p, hp => by
    rw [idsAll, List.mem_append]
    rcases List.mem_cons.1 h with e | h
    · cases e; exact .inl hp
    · exact .inr (ids_kid h p hp)

theorem In.mem {n m : Node} (h : In n m) : ∀ p ∈ ids m, p ∈ ids n := by
  induction h with
  | self => exact fun p hp => hp
  | @kid n c m o hk _ ih =>
    intro p hp
    obtain ⟨id, kids⟩ := n
    rw [ids]
    exact List.mem_cons_of_mem _ (ids_kid hk p (ih p hp))

mutual
/-- Each child gets the mark that its parent's list of required names says. -/
theorem mark_child (h : Heap) : ∀ (n : Node) (r : Bool), (ids n).Nodup → ∀ (m c : Node) (o : Option Str), In n m →
    (o, c) ∈ m.kids → (mark h n r c.id).isRequired = wanted (h m.id).required o
  | .mk id kids, r, hn, m, c, o, hm, hc => by
    rw [ids, List.nodup_cons] at hn
    have hcid : c.id ∈ idsAll kids := by
      cases hm with
      | self => exact ids_kid hc _ (id_mem_ids c)
      | kid hk hm =>
        refine ids_kid hk _ (hm.mem _ ?_)
        obtain ⟨i, ks⟩ := m
        rw [ids]; exact List.mem_cons_of_mem _ (ids_kid hc _ (id_mem_ids c))
    have hne : c.id ≠ id := fun e => hn.1 (e ▸ hcid)
    rw [mark, set_other _ _ _ _ hne]
    cases hm with
    | self => exact markAll_here h _ kids hn.2 o c hc
    | kid hk hm => exact markAll_below h _ kids hn.2 _ _ hk m c o hm hc
theorem markAll_here (h : Heap) (req : List Str) : ∀ (kids : List (Option Str × Node)), (idsAll kids).Nodup →
    ∀ (o : Option Str) (c : Node), (o, c) ∈ kids → (markAll h req kids c.id).isRequired = wanted req o
  | (o', c') :: rest, hn, o, c, hc => by
    rw [idsAll, List.nodup_append] at hn
    rw [markAll]
    rcases List.mem_cons.1 hc with e | hc
    · cases e
      rw [markAll_outside _ _ _ _ (fun hp => hn.2.2 _ (id_mem_ids _) _ hp rfl), mark_root]
    · exact markAll_here _ req rest hn.2.1 o c hc
theorem markAll_below (h : Heap) (req : List Str) : ∀ (kids : List (Option Str × Node)), (idsAll kids).Nodup →
    ∀ (o' : Option Str) (k : Node), (o', k) ∈ kids → ∀ (m c : Node) (o : Option Str), In k m → (o, c) ∈ m.kids →
    (markAll h req kids c.id).isRequired = wanted (h m.id).required o
  | (o1, c1) :: rest, hn, o', k, hk, m, c, o, hm, hc => by
    rw [idsAll, List.nodup_append] at hn
    rw [markAll]
    rcases List.mem_cons.1 hk with e | hk
    · cases e
      have hcid : c.id ∈ ids c1 := hm.mem _ (by
        obtain ⟨i, ks⟩ := m
        rw [ids]; exact List.mem_cons_of_mem _ (ids_kid hc _ (id_mem_ids c)))
      rw [markAll_outside _ _ _ _ (fun hp => hn.2.2 _ hcid _ hp rfl)]
      exact mark_child h _ _ hn.1 m c o hm hc
    · rw [markAll_below _ req rest hn.2.1 o' k hk m c o hm hc]
      rw [← (mark_same h c1 (wanted req o1) m.id).required]
end

theorem markRoots_same : ∀ (ns : List Node) (h : Heap) (p : Nat), Same (h p) (markRoots h ns p)
  | [], h, p => by rw [markRoots]; exact .refl _
  | n :: ns, h, p => by rw [markRoots]; exact (mark_same h n _ p).trans (markRoots_same ns _ p)

theorem markRoots_outside : ∀ (ns : List Node) (h : Heap) (p : Nat), p ∉ ns.flatMap ids → markRoots h ns p = h p
  | [], h, p, _ => by rw [markRoots]
  | n :: ns, h, p, hp => by
    rw [List.flatMap_cons, List.mem_append, not_or] at hp
    rw [markRoots, markRoots_outside ns _ p hp.2, mark_outside h n _ p hp.1]

theorem markRoots_root : ∀ (ns : List Node) (h : Heap), (ns.flatMap ids).Nodup → ∀ n ∈ ns,
    (markRoots h ns n.id).isRequired = false
  | n :: ns, h, hn, m, hm => by
    rw [List.flatMap_cons, List.nodup_append] at hn
    rw [markRoots]
    rcases List.mem_cons.1 hm with rfl | hm
    · rw [markRoots_outside _ _ _ (fun hp => hn.2.2 _ (id_mem_ids m) _ hp rfl), mark_root]
    · exact markRoots_root ns _ hn.2.1 m hm

theorem markRoots_child : ∀ (ns : List Node) (h : Heap), (ns.flatMap ids).Nodup → ∀ n ∈ ns, ∀ (m c : Node) (o : Option Str),
    In n m → (o, c) ∈ m.kids → (markRoots h ns c.id).isRequired = wanted (h m.id).required o
  | n :: ns, h, hn, n', hn', m, c, o, hm, hc => by
    rw [List.flatMap_cons, List.nodup_append] at hn
    rw [markRoots]
    rcases List.mem_cons.1 hn' with rfl | hn'
    · have hcid : c.id ∈ ids n' := hm.mem _ (by
        obtain ⟨i, ks⟩ := m
        rw [ids]; exact List.mem_cons_of_mem _ (ids_kid hc _ (id_mem_ids c)))
      rw [markRoots_outside _ _ _ (fun hp => hn.2.2 _ hcid _ hp rfl)]
      exact mark_child h n' _ hn.1 m c o hm hc
    · rw [markRoots_child ns _ hn.2.1 n' hn' m c o hm hc, ← (mark_same h n false m.id).required]

/-! ## Documents -/

/-- A document: trees of schemas, each schema at one place. -/
structure Document (h : Heap) (ns : List Node) : Prop where
  once : (ns.flatMap ids).Nodup
  /-- The trees hold the properties of the schemas. -/
  props : ∀ n ∈ ns, ∀ m, In n m → ∀ k x, (h m.id).props.get k = some x → ∃ c, x = .ptr c.id ∧ (some k, c) ∈ m.kids
  /-- All schemas are in a tree. -/
  all : ∀ s, (h s).props ≠ [] → ∃ n ∈ ns, ∃ m, In n m ∧ m.id = s
  fresh : ∀ s, (h s).refTo = none ∧ (h s).isRequired = false

mutual
theorem ids_cases : ∀ (n : Node) (p : Nat), p ∈ ids n → p = n.id ∨ ∃ m o c, In n m ∧ (o, c) ∈ m.kids ∧ c.id = p
  | .mk id kids, p, hp => by
    rw [ids, List.mem_cons] at hp
    rcases hp with rfl | hp
    · exact .inl rfl
    · obtain ⟨o, c, hc, h⟩ := idsAll_cases kids p hp
      rcases h with rfl | ⟨m, o', c', hm, hc', e⟩
      · exact .inr ⟨_, o, c, .self, hc, rfl⟩
      · exact .inr ⟨m, o', c', .kid (n := .mk id kids) hc hm, hc', e⟩
theorem idsAll_cases : ∀ (kids : List (Option Str × Node)) (p : Nat), p ∈ idsAll kids → ∃ o c, (o, c) ∈ kids ∧
    (p = c.id ∨ ∃ m o' c', In c m ∧ (o', c') ∈ m.kids ∧ c'.id = p)
  | [], p, hp => by rw [idsAll] at hp; cases hp
  | (o, c) :: rest, p, hp => by
    rw [idsAll, List.mem_append] at hp
    rcases hp with hp | hp
    · exact ⟨o, c, .head _, ids_cases c p hp⟩
    · obtain ⟨o', c', h1, h2⟩ := idsAll_cases rest p hp
      exact ⟨o', c', .tail _ h1, h2⟩
end

/-- `t` is a property, or a pattern property, that its parent requires. -/
def RequiredChild (h : Heap) (ns : List Node) (t : Nat) : Prop :=
  ∃ n ∈ ns, ∃ m c k, In n m ∧ (some k, c) ∈ m.kids ∧ c.id = t ∧ k ∈ (h m.id).required

theorem unmarked {h : Heap} {ns : List Node} (hd : Document h ns) {t : Nat} (ht : ¬ RequiredChild h ns t) :
    (markRoots h ns t).isRequired = false := by
  by_cases hm : t ∈ ns.flatMap ids
  · obtain ⟨n, hn, ht'⟩ := List.mem_flatMap.1 hm
    rcases ids_cases n t ht' with rfl | ⟨m, o, c, hin, hc, rfl⟩
    · exact markRoots_root ns h hd.once n hn
    · rw [markRoots_child ns h hd.once n hn m c o hin hc]
      cases o with
      | none => rfl
      | some k =>
        cases hw : wanted (h m.id).required (some k) with
        | false => rfl
        | true => exact absurd ⟨n, hn, m, c, k, hin, hc, rfl, (Dedup.isInSlice_iff _ _).1 hw⟩ ht
  · rw [markRoots_outside ns h t hm]; exact (hd.fresh t).2

/-- After `generateMetadata`, a property is marked exactly when its parent requires it. -/
theorem marked {h : Heap} {ns : List Node} (hd : Document h ns) {s : Nat} {k : Str} {x : Ref}
    (hx : (h s).props.get k = some x) : ∃ c, x = .ptr c ∧
      ((markRoots h ns c).isRequired = true ↔ k ∈ (h s).required) := by
  have hne : (h s).props ≠ [] := by intro e; rw [e] at hx; cases hx
  obtain ⟨n, hn, m, hm, rfl⟩ := hd.all s hne
  obtain ⟨c, rfl, hc⟩ := hd.props n hn m hm k x hx
  refine ⟨c.id, rfl, ?_⟩
  rw [markRoots_child ns h hd.once n hn m c (some k) hm hc]
  exact Dedup.isInSlice_iff _ _

/-! ## Processing -/

variable {d : Doc} {ord : Heap → Nat → List Ref}

theorem visitMerge_inv {P : Heap → Prop} {Q : Nat → Ref → Prop} {visit : Heap → Ref → Option Heap}
    (hv : ∀ h v h', P h → visit h v = some h' → P h')
    (hm : ∀ (h : Heap) s v, P h → Q s v → P (h.set s (mergeWith h.look (h s) (h.look v)))) {s : Nat} :
    ∀ (vs : List Ref) (h h' : Heap), P h → (∀ v ∈ vs, Q s v) → visitMerge visit s h vs = some h' → P h'
  | [], h, h', hp, _, e => by cases e; exact hp
  | v :: vs, h, h', hp, hq, e => by
    rw [visitMerge] at e
    cases e1 : visit h v with
    | none => rw [e1] at e; cases e
    | some h1 =>
      rw [e1] at e
      exact visitMerge_inv hv hm vs _ h' (hm h1 s v (hv h v h1 hp e1) (hq v (.head _))) (fun w hw => hq w (.tail _ hw)) e

/-- What references and merges keep is kept by processing. -/
theorem visit_inv {P : Heap → Prop} {Q : Nat → Ref → Prop} (hr : ∀ h s, P h → P (setReference d h s))
    (hq : ∀ (h : Heap) s v, P h → v ∈ comps (h s) → Q s v)
    (hm : ∀ (h : Heap) s v, P h → Q s v → P (h.set s (mergeWith h.look (h s) (h.look v)))) :
    ∀ (n : Nat) (h : Heap) (v : Ref) (h' : Heap), P h → setDependencies d ord n h v = some h' → P h'
  | 0, _, _, _, _, e => by cases e
  | n + 1, h, .wrap w req, h', hi, e => by cases e; exact hi
  | n + 1, h, .ptr s, h', hi, e => by
    have hv : ∀ h v h', P h → setDependencies d ord n h v = some h' → P h' := fun h v h' => visit_inv hr hq hm n h v h'
    rw [setDependencies] at e
    obtain ⟨h1, e1, e⟩ := Option.bind_eq_some_iff.1 e
    have p1 := Process.visitAll_stable hv _ _ _ (hr h s hi) e1
    unfold visitRest at e
    obtain ⟨h2, e2, e⟩ := Option.bind_eq_some_iff.1 e
    obtain ⟨h3, e3, e⟩ := Option.bind_eq_some_iff.1 e
    obtain ⟨h4, e4, e⟩ := Option.bind_eq_some_iff.1 e
    obtain ⟨h5, e5, e⟩ := Option.bind_eq_some_iff.1 e
    have p2 := Process.visitAll_stable hv _ _ _ p1 e2
    have lists : ∀ (f : Sch → List Ref), IsList f → ∀ g g', P g →
        visitMerge (setDependencies d ord n) s g (f (g s)) = some g' → P g' := fun f hf g g' hg eg =>
      visitMerge_inv hv hm _ _ _ hg (fun v hvm => hq g s v hg ((mem_comps _ _).2 ⟨f, hf, hvm⟩)) eg
    have p3 := lists _ (.inr (.inl rfl)) _ _ p2 e3
    have p4 := lists _ (.inr (.inr rfl)) _ _ p3 e4
    have p5 := lists _ (.inl rfl) _ _ p4 e5
    exact Process.visitAll_stable hv _ _ _ p5 e

theorem process_inv {P : Heap → Prop} {Q : Nat → Ref → Prop} (hr : ∀ h s, P h → P (setReference d h s))
    (hq : ∀ (h : Heap) s v, P h → v ∈ comps (h s) → Q s v)
    (hm : ∀ (h : Heap) s v, P h → Q s v → P (h.set s (mergeWith h.look (h s) (h.look v)))) {n : Nat} {h h' : Heap}
    {roots : List Nat} (hp : P h) (e : processAll d ord n h roots = some h') : P h' :=
  Process.visitAll_stable (visit_inv hr hq hm n) _ _ _ hp e

/-- `q` is `s`, what it refers to, a branch of it, and so on. -/
inductive Part (d : Doc) (h0 : Heap) : Nat → Nat → Prop
  | self {s : Nat} : Part d h0 s s
  | ref {s t q : Nat} : d.refs s = some t → Part d h0 t q → Part d h0 s q
  | branch {s q : Nat} {b : Ref} : b ∈ comps (h0 s) → Part d h0 (core b) q → Part d h0 s q

/-- What processing keeps: marks, where properties come from, with their marks. -/
structure Inv (d : Doc) (h0 h : Heap) : Prop where
  flag : ∀ p, (h p).isRequired = (h0 p).isRequired
  prop : ∀ s k x, (h s).props.get k = some x → ∃ q y, Part d h0 s q ∧ (h0 q).props.get k = some y ∧
    (h.look x).isRequired = (h0.look y).isRequired
  comp : ∀ s, ∀ x ∈ comps (h s), ∀ q, Part d h0 (core x) q → Part d h0 s q
  target : ∀ s r, (h s).refTo = some r → ∃ t, d.refs s = some t ∧ r = .ptr t

theorem look_flag {h h' : Heap} (e : ∀ p, (h' p).isRequired = (h p).isRequired) (x : Ref) :
    (h'.look x).isRequired = (h.look x).isRequired := by
  cases x with
  | ptr p => exact e p
  | wrap r b => rfl

theorem inv_start {h0 : Heap} (hf : ∀ s, (h0 s).refTo = none) : Inv d h0 h0 where
  flag _ := rfl
  prop s k x hx := ⟨s, x, .self, hx, rfl⟩
  comp s x hx q hq := .branch hx hq
  target s r hr := by rw [hf s] at hr; cases hr

theorem reference_flag {h0 h : Heap} (hu : ∀ c t, d.refs c = some t → (h0 t).isRequired = false)
    (hf : ∀ p, (h p).isRequired = (h0 p).isRequired) (s p : Nat) : (setReference d h s p).isRequired = (h p).isRequired := by
  unfold setReference
  cases hr : d.refs s with
  | none => rfl
  | some t =>
    by_cases hp : p = s
    · subst hp
      simp only [set_self]
      rw [hf t, hu _ _ hr, Bool.false_or]
    · simp only [set_other _ _ _ _ hp]

theorem inv_reference {h0 h : Heap} (hu : ∀ c t, d.refs c = some t → (h0 t).isRequired = false) (hi : Inv d h0 h) (s : Nat) :
    Inv d h0 (setReference d h s) := by
  have hfl := reference_flag hu hi.flag s
  refine ⟨fun p => by rw [hfl, hi.flag], fun q k x hx => ?_, fun q x hx q' hq' => ?_, fun q r hq => ?_⟩
  · rw [reference_props] at hx
    obtain ⟨q', y, h1, h2, h3⟩ := hi.prop q k x hx
    exact ⟨q', y, h1, h2, by rw [look_flag hfl, h3]⟩
  · by_cases hqs : q = s
    · subst hqs
      cases hr : d.refs q with
      | none =>
        have : setReference d h q = h := by unfold setReference; rw [hr]
        rw [this] at hx; exact hi.comp q x hx q' hq'
      | some t =>
        obtain ⟨f, hf, hx⟩ := (mem_comps _ _).1 hx
        rw [Process.list_reference f hf h q t hr] at hx
        rcases Process.alternatives_mem hx with ⟨_, hx⟩ | hx
        · exact .ref hr (hi.comp t x ((mem_comps _ _).2 ⟨f, hf, hx⟩) q' hq')
        · exact hi.comp q x ((mem_comps _ _).2 ⟨f, hf, hx⟩) q' hq'
    · rw [reference_other h s q hqs] at hx; exact hi.comp q x hx q' hq'
  · by_cases hqs : q = s
    · subst hqs
      unfold setReference at hq
      cases hr : d.refs q with
      | none => rw [hr] at hq; rw [← hr]; exact hi.target q r hq
      | some t =>
        rw [hr] at hq
        simp only [set_self] at hq
        exact ⟨t, rfl, (Option.some.inj hq).symm⟩
    · rw [reference_other h s q hqs] at hq; exact hi.target q r hq

theorem set_flag (h : Heap) (s : Nat) (v : Ref) (p : Nat) :
    (h.set s (mergeWith h.look (h s) (h.look v)) p).isRequired = (h p).isRequired := by
  by_cases hp : p = s
  · subst hp; rw [set_self]; rfl
  · rw [set_other _ _ _ _ hp]

theorem adopt_flag (h : Heap) (v : Ref) : (h.look (adopt h.look v)).isRequired = (h.look v).isRequired := by
  unfold adopt
  split <;> rfl

theorem inv_target {h0 h : Heap} (hi : Inv d h0 h) (v r : Ref) (hr : (h.look v).refTo = some r) {q : Nat}
    (hq : Part d h0 (core r) q) : Part d h0 (core v) q := by
  cases v with
  | ptr b =>
    obtain ⟨t, ht, rfl⟩ := hi.target b r hr
    exact .ref ht hq
  | wrap w req =>
    have : w = r := Option.some.inj hr
    subst this; exact hq

theorem inv_look {h0 h : Heap} (hi : Inv d h0 h) (v : Ref) (k : Str) (x : Ref) (hx : (h.look v).props.get k = some x) :
    ∃ q y, Part d h0 (core v) q ∧ (h0 q).props.get k = some y ∧ (h.look x).isRequired = (h0.look y).isRequired := by
  cases v with
  | ptr b => exact hi.prop b k x hx
  | wrap w req => cases hx

theorem inv_merge {h0 h : Heap} (hi : Inv d h0 h) (s : Nat) (v : Ref)
    (hv : ∀ q, Part d h0 (core v) q → Part d h0 s q) : Inv d h0 (h.set s (mergeWith h.look (h s) (h.look v))) := by
  have hfl := set_flag h s v
  refine ⟨fun p => by rw [hfl, hi.flag], fun q k x hx => ?_, fun q x hx q' hq' => ?_, fun q r hq => ?_⟩
  · rw [look_flag hfl]
    by_cases hqs : q = s
    · subst hqs
      rw [set_self, (SchemaMerge.C48_properties _ _ _).2 k] at hx
      cases hk : (h q).props.get k with
      | some y =>
        rw [hk] at hx
        cases hx
        exact hi.prop q k _ hk
      | none =>
        rw [hk] at hx
        have hx : SchemaMerge.brings h.look (h.look v) k = some x := hx
        unfold SchemaMerge.brings at hx
        cases hk2 : (h.look v).props.get k with
        | some y =>
          rw [hk2] at hx
          cases hx
          obtain ⟨q', z, h1, h2⟩ := inv_look hi v k _ hk2
          exact ⟨q', z, hv _ h1, h2⟩
        | none =>
          rw [hk2] at hx
          cases hr : (h.look v).refTo with
          | none => rw [hr] at hx; cases hx
          | some r =>
            rw [hr] at hx
            have hx : ((h.look r).props.get k).map (adopt h.look) = some x := hx
            cases hk3 : (h.look r).props.get k with
            | none => rw [hk3] at hx; cases hx
            | some y =>
              rw [hk3] at hx
              cases hx
              obtain ⟨q', z, h1, h2, h3⟩ := inv_look hi r k _ hk3
              exact ⟨q', z, hv _ (inv_target hi v r hr h1), h2, by rw [adopt_flag, h3]⟩
    · rw [set_other _ _ _ _ hqs] at hx; exact hi.prop q k x hx
  · by_cases hqs : q = s
    · subst hqs
      rw [set_self] at hx
      rcases Process.merge_comps h _ _ x hx with hx | hx | ⟨r, hr, x', hx', hc⟩
      · exact hi.comp q x hx q' hq'
      · cases v with
        | ptr b => exact hv _ (hi.comp b x hx q' hq')
        | wrap w req => simp [Heap.look, comps] at hx
      · rw [hc] at hq'
        refine hv _ (inv_target hi v r hr ?_)
        cases r with
        | ptr t => exact hi.comp t x' hx' q' hq'
        | wrap w req => simp [Heap.look, comps] at hx'
    · rw [set_other _ _ _ _ hqs] at hx; exact hi.comp q x hx q' hq'
  · by_cases hqs : q = s
    · subst hqs; rw [set_self, merge_refTo] at hq; exact hi.target q r hq
    · rw [set_other _ _ _ _ hqs] at hq; exact hi.target q r hq

theorem part_same {h h0 : Heap} (e : ∀ p, Same (h p) (h0 p)) {s q : Nat} (hp : Part d h0 s q) : Part d h s q := by
  induction hp with
  | self => exact .self
  | ref hr _ ih => exact .ref hr ih
  | branch hb _ ih => exact .branch (by rw [(e _).comps]; exact hb) ih

/-- The names a schema requires stay required, unless it is a reference. -/
theorem required_kept {h0 h' : Heap} {n : Nat} {roots : List Nat} (e : processAll d ord n h0 roots = some h') {s : Nat}
    (hs : d.refs s = none) {k : Str} (hk : k ∈ (h0 s).required) : k ∈ (h' s).required := by
  refine process_inv (P := fun h => k ∈ (h s).required) (Q := fun _ _ => True) (fun h q hp => ?_) (fun _ _ _ _ _ => trivial)
    (fun h q v hp _ => ?_) hk e
  · by_cases hq : s = q
    · subst hq; unfold setReference; rw [hs]; exact hp
    · rw [reference_other h q s hq]; exact hp
  · by_cases hq : s = q
    · subst hq; rw [set_self]; exact ((SchemaMerge.C48_required _ _ _).2 k).2 (.inl hp)
    · rw [set_other _ _ _ _ hq]; exact hp

/-- A schema that is neither a reference nor composed does not change. -/
theorem simple_kept {h0 h' : Heap} {n : Nat} {roots : List Nat} (e : processAll d ord n h0 roots = some h') {s : Nat}
    (hs : d.refs s = none) (hc : comps (h0 s) = []) : h' s = h0 s := by
  refine process_inv (P := fun h => h s = h0 s) (Q := fun q _ => q ≠ s) (fun h q hp => ?_) (fun h q v hp hv => ?_)
    (fun h q v hp hq => ?_) rfl e
  · by_cases hq : s = q
    · subst hq; unfold setReference; rw [hs]; exact hp
    · rw [reference_other h q s hq]; exact hp
  · rintro rfl; rw [hp, hc] at hv; cases hv
  · rw [set_other _ _ _ _ (Ne.symm hq)]; exact hp

theorem processed {h h' : Heap} {ns : List Node} (hd : Document h ns) (hr : ∀ c t, d.refs c = some t → ¬ RequiredChild h ns t)
    {n : Nat} {roots : List Nat} (e : processAll d ord n (markRoots h ns) roots = some h') : Inv d (markRoots h ns) h' :=
  process_inv (Q := fun s v => ∀ q, Part d (markRoots h ns) (core v) q → Part d (markRoots h ns) s q)
    (fun _ s hi => inv_reference (fun c t hc => unmarked hd (hr c t hc)) hi s)
    (fun _ s v hi hv => hi.comp s v hv) (fun _ s v hi hv => inv_merge hi s v hv)
    (inv_start (fun s => by rw [← (markRoots_same ns h s).refTo]; exact (hd.fresh s).1)) e

theorem field_some {h : Heap} {s : Nat} {k : Str} {x : Ref} (hx : (h s).props.get k = some x) :
    ∃ f, field h s k = some f ∧ (f.omitempty = true ↔ (h.look x).isRequired = false) ∧
      (f.pointer = true ↔ k ∉ (h s).required ∧ (h.look x).isRequired = false ∧ (h.look x).type ≠ "array".toList) := by
  refine ⟨_, by unfold field; rw [hx], ?_, ?_⟩
  · simp only [Validations.shouldAddOmitEmpty]
    cases (h.look x).isRequired <;> simp
  · have ha : ∀ t : Str, decide (t = array) = decide (t = "array".toList) := fun _ => rfl
    have hk : Dedup.isInSlice (h s).required k = false ↔ k ∉ (h s).required := by
      rw [← Dedup.isInSlice_iff, Bool.not_eq_true]
    simp only [Validations.isFieldPointer, ha, Bool.and_eq_true, Bool.not_eq_true', Bool.or_eq_false_iff,
      decide_eq_false_iff_not, hk, and_assoc, ne_eq]

/-- **C105, schemas of any kind.** In whatever order a document is processed, unless one of its references leads to a required
property of another schema: a field is left out when empty exactly when the schema that has the property does not require
it. That is the object itself, what it refers to, or a part of it. -/
theorem C105_composed_partial {h h' : Heap} {ns : List Node} (hd : Document h ns)
    (hr : ∀ c t, d.refs c = some t → ¬ RequiredChild h ns t) {n : Nat} {roots : List Nat}
    (e : processAll d ord n (markRoots h ns) roots = some h') (s : Nat) (k : Str) (f : Field) (hf : field h' s k = some f) :
    ∃ q, Part d h s q ∧ (h q).props.get k ≠ none ∧ (f.omitempty = true ↔ k ∉ (h q).required) ∧
      (f.pointer = true → k ∉ (h q).required ∧ k ∉ (h' s).required) := by
  have hi := processed hd hr e
  cases hx : (h' s).props.get k with
  | none => unfold field at hf; rw [hx] at hf; cases hf
  | some x =>
    obtain ⟨f', hf', h1, h2⟩ := field_some hx
    rw [hf] at hf'
    cases hf'
    obtain ⟨q, y, hq, hy, hxy⟩ := hi.prop s k x hx
    rw [← (markRoots_same ns h q).props] at hy
    obtain ⟨c, rfl, hc⟩ := marked hd hy
    have hflag : (h'.look x).isRequired = false ↔ k ∉ (h q).required := by
      rw [hxy, ← hc]
      show (markRoots h ns c).isRequired = false ↔ _
      simp
    refine ⟨q, part_same (markRoots_same ns h) hq, by rw [hy]; simp, h1.trans hflag, fun hp => ?_⟩
    exact ⟨hflag.1 (h2.1 hp).2.1, (h2.1 hp).1⟩

/-- **C105, objects that are neither references nor composed.** A field is left out when empty exactly when the object does
not require the property; then, and only then, it is a pointer (or an array). -/
theorem C105_object_partial {h h' : Heap} {ns : List Node} (hd : Document h ns)
    (hr : ∀ c t, d.refs c = some t → ¬ RequiredChild h ns t) {n : Nat} {roots : List Nat}
    (e : processAll d ord n (markRoots h ns) roots = some h') (s : Nat) (hs : d.refs s = none) (hc : comps (h s) = [])
    (k : Str) (x : Ref) (hx : (h s).props.get k = some x) :
    ∃ f, field h' s k = some f ∧ (f.omitempty = true ↔ k ∉ (h s).required) ∧
      (f.pointer = true ↔ k ∉ (h s).required ∧ (h'.look x).type ≠ "array".toList) := by
  have hi := processed hd hr e
  have hsame := markRoots_same ns h s
  have hk := simple_kept e hs (by rw [← hsame.comps]; exact hc)
  have hx' : (h' s).props.get k = some x := by rw [hk, ← hsame.props]; exact hx
  obtain ⟨f, hf, h1, h2⟩ := field_some hx'
  obtain ⟨c, rfl, hm⟩ := marked hd hx
  have hflag : (h'.look (.ptr c)).isRequired = false ↔ k ∉ (h s).required := by
    rw [← hm, ← hi.flag c]
    show (h' c).isRequired = false ↔ _
    simp
  refine ⟨f, hf, h1.trans hflag, h2.trans ?_⟩
  rw [hk, ← hsame.required, hflag]
  constructor
  · exact fun ⟨a, _, b⟩ => ⟨a, b⟩
  · exact fun ⟨a, b⟩ => ⟨a, a, b⟩

/-- **C105 is violated** (1): a composed object that requires a property its parts have but do not require themselves has a
plain field for it that is left out when empty. -/
theorem C105_violated_composed {h h' : Heap} {ns : List Node} (hd : Document h ns)
    (hr : ∀ c t, d.refs c = some t → ¬ RequiredChild h ns t) {n : Nat} {roots : List Nat}
    (e : processAll d ord n (markRoots h ns) roots = some h') (s : Nat) (hs : d.refs s = none) (k : Str)
    (hk : k ∈ (h s).required) (hparts : ∀ q, Part d h s q → (h q).props.get k ≠ none → k ∉ (h q).required) (f : Field)
    (hf : field h' s k = some f) : f = { pointer := false, omitempty := true } := by
  obtain ⟨q, hq, hqk, h1, h2⟩ := C105_composed_partial hd hr e s k f hf
  have h3 : k ∈ (h' s).required := required_kept e hs (by rw [← (markRoots_same ns h s).required]; exact hk)
  obtain ⟨p, o⟩ := f
  have ho : o = true := h1.2 (hparts q hq hqk)
  have hp : p = false := by
    cases p with
    | false => rfl
    | true => exact absurd h3 (h2 rfl).2
  rw [ho, hp]

/-! ## Examples -/

/-- Go ranges over the properties in the order they are written. -/
def inOrder (h : Heap) (s : Nat) : List Ref := (h s).props.map (·.2)

theorem in_iff (n m : Node) : In n m ↔ m = n ∨ ∃ o c, (o, c) ∈ n.kids ∧ In c m := by
  constructor
  · intro h
    cases h with
    | self => exact .inl rfl
    | kid hk h => exact .inr ⟨_, _, hk, h⟩
  · rintro (rfl | ⟨o, c, hk, h⟩)
    · exact .self
    · exact .kid hk h

def kId : Str := "id".toList

/-- `Base` with an optional `id`, and `Order`, which is a `Base` and requires `id`. -/
def exHeap : Heap := fun p =>
  if p = 0 then { type := SchemaMerge.object, props := [(kId, .ptr 1)] }
  else if p = 2 then { required := [kId], allOf := [.ptr 3] }
  else {}

def exDoc (copies : Bool) : Doc where
  copies := copies
  refs p := if p = 3 then some 0 else none
  before _ := []
  after _ := []

def exNodes : List Node := [.mk 0 [(some kId, .mk 1 [])], .mk 2 [(none, .mk 3 [])]]

theorem ex_in (n m : Node) (hn : n ∈ exNodes) (hm : In n m) :
    m = .mk 0 [(some kId, .mk 1 [])] ∨ m = .mk 1 [] ∨ m = .mk 2 [(none, .mk 3 [])] ∨ m = .mk 3 [] := by
  have leaf : ∀ i, In (.mk i []) m → m = .mk i [] := by
    intro i hi
    rcases (in_iff _ _).1 hi with rfl | ⟨o, c, hk, _⟩
    · rfl
    · cases hk
  simp only [exNodes, List.mem_cons, List.not_mem_nil, or_false] at hn
  rcases hn with rfl | rfl <;> rcases (in_iff _ _).1 hm with rfl | ⟨o, c, hk, hc⟩
  · exact .inl rfl
  · simp only [Node.kids, List.mem_cons, List.not_mem_nil, or_false, Prod.mk.injEq] at hk
    rw [hk.2] at hc; exact .inr (.inl (leaf 1 hc))
  · exact .inr (.inr (.inl rfl))
  · simp only [Node.kids, List.mem_cons, List.not_mem_nil, or_false, Prod.mk.injEq] at hk
    rw [hk.2] at hc; exact .inr (.inr (.inr (leaf 3 hc)))

theorem exDocument : Document exHeap exNodes where
  once := by decide
  props n hn m hm k x hx := by
    rcases ex_in n m hn hm with rfl | rfl | rfl | rfl
    · have : GoMap.get [(kId, Ref.ptr 1)] k = some x := hx
      rw [GoMap.get_cons] at this
      split at this
      · rename_i hk
        cases this
        exact ⟨.mk 1 [], rfl, by rw [← hk]; exact .head _⟩
      · cases this
    all_goals cases hx
  all s hs := by
    by_cases h0 : s = 0
    · subst h0; exact ⟨_, .head _, _, .self, rfl⟩
    · exfalso
      apply hs
      unfold exHeap
      rw [if_neg h0]
      split <;> rfl
  fresh s := by
    unfold exHeap
    repeat' split
    all_goals exact ⟨rfl, rfl⟩

theorem exFree (v : Bool) : ∀ c t, (exDoc v).refs c = some t → ¬ RequiredChild exHeap exNodes t := by
  intro c t ht
  rintro ⟨n, hn, m, c', k, hm, hk, rfl, hr⟩
  rcases ex_in n m hn hm with rfl | rfl | rfl | rfl
  · cases hr
  · cases hr
  · simp [Node.kids] at hk
  · cases hr

/-- `id` is a plain field that is left out when empty, although `Order` requires it. -/
example (v : Bool) : (processAll (exDoc v) inOrder 4 (markRoots exHeap exNodes) [0, 2]).map (fun h => field h 2 kId) =
    some (some { pointer := false, omitempty := true }) := by cases v <;> decide

/-- In `Base` it is a pointer. -/
example (v : Bool) : (processAll (exDoc v) inOrder 4 (markRoots exHeap exNodes) [0, 2]).map (fun h => field h 0 kId) =
    some (some { pointer := true, omitempty := true }) := by cases v <;> decide

/-- **C105 is violated** (2): an optional property that refers to a required property of another schema (written
`#/components/schemas/Base/id` for this generator) becomes required. -/
theorem C105_violated_reference (v : Bool) :
    ∃ (h : Heap) (ns : List Node) (d : Doc), d.copies = v ∧ (h 2).required = [] ∧ d.refs 3 = some 1 ∧ (h 2).props.get kId = some (.ptr 3) ∧
      (processAll d inOrder 4 (markRoots h ns) [0, 2]).map (fun h => field h 2 kId) =
        some (some { pointer := false, omitempty := false }) := by
  refine ⟨fun p => if p = 0 then { type := SchemaMerge.object, props := [(kId, .ptr 1)], required := [kId] }
      else if p = 2 then { type := SchemaMerge.object, props := [(kId, .ptr 3)] } else {},
    [.mk 0 [(some kId, .mk 1 [])], .mk 2 [(some kId, .mk 3 [])]],
    ⟨v, fun p => if p = 3 then some 1 else none, fun _ => [], fun _ => []⟩, rfl, rfl, rfl, rfl, ?_⟩
  cases v <;> decide

/-- **C105, references.** A reference to a schema that is not a required property of another does not change whether a
property is required, whatever else is processed. -/
theorem C105_reference_partial {h h' : Heap} {ns : List Node} (hd : Document h ns)
    (hr : ∀ c t, d.refs c = some t → ¬ RequiredChild h ns t) {n : Nat} {roots : List Nat}
    (e : processAll d ord n (markRoots h ns) roots = some h') (s : Nat) (k : Str) (c : Nat)
    (hx : (h s).props.get k = some (.ptr c)) : (h' c).isRequired = true ↔ k ∈ (h s).required := by
  obtain ⟨c', hc, hm⟩ := marked hd hx
  cases hc
  rw [(processed hd hr e).flag c]
  exact hm

end Verif.Required
