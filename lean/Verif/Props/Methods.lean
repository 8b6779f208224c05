import Verif.Model.Methods
import Verif.Props.Names
import Verif.Props.Naming

/-! # C91: the functions of a generated controller -/

namespace Verif.Methods
open Naming (Uni Bytes namify IsName Ascii C42_valid namify_name)
open Names (lit fullName uni0)
open Sides (Side)

theorem nodup_map_on {α β : Type} (f : α → β) : ∀ l : List α, l.Nodup → (∀ a ∈ l, ∀ b ∈ l, f a = f b → a = b) → (l.map f).Nodup
  | [], _, _ => by simp
  | a :: l, hn, h => by
    rw [List.nodup_cons] at hn
    rw [List.map_cons, List.nodup_cons]
    refine ⟨fun hm => ?_, nodup_map_on f l hn.2 (fun x hx y hy => h x (.tail _ hx) y (.tail _ hy))⟩
    obtain ⟨b, hb, e⟩ := List.mem_map.1 hm
    have := h b (.tail _ hb) a (.head _) e
    exact hn.1 (this ▸ hb)

theorem nodup_of_map {α β : Type} (f : α → β) (l : List α) (h : (l.map f).Nodup) : l.Nodup :=
  List.Pairwise.imp (fun hne e => hne (by rw [e])) (List.pairwise_map.1 h)

/-- A list that gives each element a block: no element twice when blocks of different elements are apart. -/
theorem nodup_blocks {α β : Type} (f : α → List β) : ∀ l : List α, (∀ a ∈ l, (f a).Nodup) →
    l.Pairwise (fun a b => ∀ x ∈ f a, ∀ y ∈ f b, x ≠ y) → (l.flatMap f).Nodup
  | [], _, _ => by simp
  | a :: l, h1, h2 => by
    rw [List.pairwise_cons] at h2
    rw [List.flatMap_cons, List.nodup_append]
    refine ⟨h1 a (.head _), nodup_blocks f l (fun x hx => h1 x (.tail _ hx)) h2.2, fun x hx y hy => ?_⟩
    obtain ⟨b, hb, hyb⟩ := List.mem_flatMap.1 hy
    exact h2.1 b hb x hx y hyb

/-- A Go identifier: letters and digits, and a letter first. -/
def Ident (m : Bytes) : Prop :=
  (∀ b ∈ m, Naming.isAlnum b = true) ∧ ∃ b t, m = b :: t ∧ (Naming.isUpper b = true ∨ Naming.isLower b = true)

theorem ident_lit {s : Bytes} (h : (s.all Naming.isAlnum && s.head?.any (fun b => Naming.isUpper b || Naming.isLower b)) = true) :
    Ident s := by
  rw [Bool.and_eq_true, List.all_eq_true] at h
  refine ⟨h.1, ?_⟩
  cases s with
  | nil => simp at h
  | cons b t => exact ⟨b, t, rfl, by simpa using h.2⟩

theorem ident_append {a n : Bytes} (ha : Ident a) (hn : ∀ b ∈ n, Naming.isAlnum b = true) : Ident (a ++ n) := by
  obtain ⟨h1, b, t, rfl, hb⟩ := ha
  refine ⟨fun x hx => ?_, b, t ++ n, rfl, hb⟩
  rcases List.mem_append.1 hx with h | h
  · exact h1 x h
  · exact hn x h

namespace V2

/-- The first letters of a method. -/
def head : Decl → Bytes
  | .wrap => lit "wra"
  | .exec => lit "exe"
  | .close => lit "Clo"
  | .subAll => lit "Sub"
  | .unsubAll => lit "Uns"
  | .sub _ => lit "Sub"
  | .listen _ => lit "lis"
  | .unsub _ => lit "Uns"
  | .pub _ => lit "Pub"
  | .wait _ => lit "Wai"
  | .waitNext _ => lit "wai"

theorem take_name (d : Decl) : d.name.take 3 = head d := by cases d <;> rfl

/-- Only the methods on all channels can have the name of another method. -/
theorem name_inj (d e : Decl) (h : d.name = e.name) (h1 : d = .subAll → e ≠ .sub (lit "All"))
    (h2 : e = .subAll → d ≠ .sub (lit "All")) (h3 : d = .unsubAll → e ≠ .unsub (lit "All"))
    (h4 : e = .unsubAll → d ≠ .unsub (lit "All")) : d = e := by
  have hh : head d = head e := by rw [← take_name, ← take_name, h]
  cases d <;> cases e <;> first
    | rfl
    | (simp only [head] at hh; exact absurd hh (by decide))
    | (simp only [Decl.name, List.append_assoc, List.append_cancel_left_eq, List.append_cancel_right_eq] at h; rw [h])
    | (exfalso; rename_i n; refine h1 rfl ?_
       rw [Decl.sub.injEq]; exact (List.append_cancel_left (as := lit "Subscribe") (show lit "Subscribe" ++ lit "All" = _ from h)).symm)
    | (exfalso; rename_i n; refine h2 rfl ?_
       rw [Decl.sub.injEq]; exact (List.append_cancel_left (as := lit "Subscribe") (show _ = lit "Subscribe" ++ lit "All" from h)))
    | (exfalso; rename_i n; refine h3 rfl ?_
       rw [Decl.unsub.injEq]; exact (List.append_cancel_left (as := lit "Unsubscribe") (show lit "Unsubscribe" ++ lit "All" = _ from h)).symm)
    | (exfalso; rename_i n; refine h4 rfl ?_
       rw [Decl.unsub.injEq]; exact (List.append_cancel_left (as := lit "Unsubscribe") (show _ = lit "Unsubscribe" ++ lit "All" from h)))

theorem sub_sublist : ∀ l : List Entry,
    (l.map (fun e => Decl.sub e.name)).Sublist (l.flatMap (fun e => [Decl.sub e.name, .listen e.name, .unsub e.name]))
  | [] => .slnil
  | e :: l => by
    rw [List.flatMap_cons, List.map_cons]
    exact ((sub_sublist l).cons _).cons _ |>.cons_cons _

theorem mem_waits {side : Side} {sub : List Entry} {d : Decl} (h : d ∈ waits side sub) :
    ∃ e ∈ sub, d = .wait e.name ∨ d = .waitNext e.name := by
  cases side with
  | app => simp [waits] at h
  | user =>
    simp only [waits, List.mem_flatMap, List.mem_filter, List.mem_cons, List.not_mem_nil, or_false] at h
    obtain ⟨e, ⟨he, _⟩, hd⟩ := h
    exact ⟨e, he, hd⟩

theorem names_pairwise {sub : List Entry} (h : (sub.map Entry.name).Nodup) : sub.Pairwise (fun a b => a.name ≠ b.name) :=
  List.pairwise_map.1 h

theorem waits_nodup (side : Side) (sub : List Entry) (h : (sub.map Entry.name).Nodup) : (waits side sub).Nodup := by
  cases side with
  | app => simp [waits]
  | user =>
    refine nodup_blocks _ _ (fun a _ => by simp) ?_
    refine List.Pairwise.imp ?_ ((names_pairwise h).sublist List.filter_sublist)
    intro a b hab x hx y hy
    simp only [List.mem_cons, List.not_mem_nil, or_false] at hx hy
    rcases hx with rfl | rfl <;> rcases hy with rfl | rfl <;> simp [hab]

theorem blocks_nodup (sub : List Entry) (h : (sub.map Entry.name).Nodup) :
    (sub.flatMap (fun e => [Decl.sub e.name, .listen e.name, .unsub e.name])).Nodup := by
  refine nodup_blocks _ _ (fun a _ => by simp) ?_
  refine List.Pairwise.imp ?_ (names_pairwise h)
  intro a b hab x hx y hy
  simp only [List.mem_cons, List.not_mem_nil, or_false] at hx hy
  rcases hx with rfl | rfl | rfl <;> rcases hy with rfl | rfl | rfl <;> simp [hab]

theorem decls_nodup (side : Side) (sub pub : List Entry) (h1 : (sub.map Entry.name).Nodup) (h2 : (pub.map Entry.name).Nodup) :
    (decls side sub pub).Nodup := by
  have hp : (pub.map (fun e => Decl.pub e.name)).Nodup := by
    have : pub.map (fun e => Decl.pub e.name) = (pub.map Entry.name).map Decl.pub := by simp
    rw [this]
    exact nodup_map_on _ _ h2 (fun a _ b _ e => by simpa using e)
  unfold decls
  rw [List.nodup_append, List.nodup_append, List.nodup_append, List.nodup_append]
  refine ⟨⟨⟨⟨by decide, by split <;> decide, ?_⟩, blocks_nodup sub h1, ?_⟩, hp, ?_⟩, waits_nodup side sub h1, ?_⟩
  · intro x hx y hy
    split at hy <;> simp only [List.mem_cons, List.not_mem_nil, or_false] at hx hy
    · rcases hx with rfl | rfl | rfl <;> rcases hy with rfl | rfl <;> simp
  · intro x hx y hy e
    subst e
    obtain ⟨e, _, hy⟩ := List.mem_flatMap.1 hy
    simp only [List.mem_cons, List.not_mem_nil, or_false] at hy
    rcases hy with rfl | rfl | rfl <;> (split at hx <;> simp at hx)
  · intro x hx y hy e
    subst e
    obtain ⟨e, _, rfl⟩ := List.mem_map.1 hy
    split at hx <;> simp at hx
  · intro x hx y hy e
    subst e
    obtain ⟨e, _, rfl | rfl⟩ := mem_waits hy <;> (split at hx <;> simp at hx)

theorem mem_sub {side : Side} {sub pub : List Entry} {n : Bytes} (h : Decl.sub n ∈ decls side sub pub) : n ∈ sub.map Entry.name := by
  unfold decls at h
  simp only [List.mem_append, List.mem_flatMap, List.mem_map, List.mem_cons, List.not_mem_nil, or_false, reduceCtorEq, false_or] at h
  rcases h with ((h | ⟨e, he, h⟩) | ⟨e, he, h⟩) | h
  · split at h <;> simp at h
  · simp only [Decl.sub.injEq] at h
    exact List.mem_map.2 ⟨e, he, h.symm⟩
  · cases h
  · obtain ⟨e, _, h | h⟩ := mem_waits h <;> cases h

theorem mem_unsub {side : Side} {sub pub : List Entry} {n : Bytes} (h : Decl.unsub n ∈ decls side sub pub) : n ∈ sub.map Entry.name := by
  unfold decls at h
  simp only [List.mem_append, List.mem_flatMap, List.mem_map, List.mem_cons, List.not_mem_nil, or_false, reduceCtorEq, false_or] at h
  rcases h with ((h | ⟨e, he, h⟩) | ⟨e, he, h⟩) | h
  · split at h <;> simp at h
  · simp only [Decl.unsub.injEq] at h
    exact List.mem_map.2 ⟨e, he, h.symm⟩
  · cases h
  · obtain ⟨e, _, h | h⟩ := mem_waits h <;> cases h

theorem block_mem {side : Side} {sub pub : List Entry} {e : Entry} (h : e ∈ sub) :
    Decl.sub e.name ∈ decls side sub pub ∧ Decl.listen e.name ∈ decls side sub pub ∧ Decl.unsub e.name ∈ decls side sub pub := by
  unfold decls
  simp only [List.mem_append, List.mem_flatMap, List.mem_cons, List.not_mem_nil, or_false]
  exact ⟨.inl (.inl (.inr ⟨e, h, by simp⟩)), .inl (.inl (.inr ⟨e, h, by simp⟩)), .inl (.inl (.inr ⟨e, h, by simp⟩))⟩

theorem fixed_mem (side : Side) (sub pub : List Entry) :
    Decl.wrap ∈ decls side sub pub ∧ Decl.exec ∈ decls side sub pub ∧
    (sub ≠ [] → Decl.subAll ∈ decls side sub pub ∧ Decl.unsubAll ∈ decls side sub pub) := by
  unfold decls
  refine ⟨by simp, by simp, fun h => ?_⟩
  have : sub.length ≠ 0 := fun e => h (List.eq_nil_of_length_eq_zero e)
  rw [if_pos this]
  exact ⟨by simp, by simp⟩

theorem methods_nodup_iff (side : Side) (sub pub : List Entry) :
    ((decls side sub pub).map Decl.name).Nodup ↔
      (sub.map Entry.name).Nodup ∧ (pub.map Entry.name).Nodup ∧ lit "All" ∉ sub.map Entry.name := by
  constructor
  · intro h
    have hd := nodup_of_map _ _ h
    unfold decls at hd
    rw [List.nodup_append, List.nodup_append, List.nodup_append] at hd
    obtain ⟨⟨⟨-, h2, -⟩, h3, -⟩, -⟩ := hd
    refine ⟨?_, ?_, ?_⟩
    · have := h2.sublist (sub_sublist sub)
      have e : sub.map (fun e => Decl.sub e.name) = (sub.map Entry.name).map Decl.sub := by simp
      rw [e] at this
      exact nodup_of_map _ _ this
    · have e : pub.map (fun e => Decl.pub e.name) = (pub.map Entry.name).map Decl.pub := by simp
      rw [e] at h3
      exact nodup_of_map _ _ h3
    · intro hm
      obtain ⟨e, he, en⟩ := List.mem_map.1 hm
      have ha := ((fixed_mem side sub pub).2.2 (List.ne_nil_of_mem he)).1
      have hb := (block_mem (side := side) (pub := pub) he).1
      rw [en] at hb
      have hne : ∀ l : List Decl, (l.map Decl.name).Nodup → Decl.subAll ∈ l → Decl.sub (lit "All") ∈ l → False := by
        intro l
        induction l with
        | nil => intro _ h; cases h
        | cons x l ih =>
          intro hn k1 k2
          rw [List.map_cons, List.nodup_cons] at hn
          rcases List.mem_cons.1 k1 with e1 | m1
          · rcases List.mem_cons.1 k2 with e2 | m2
            · rw [← e1] at e2; cases e2
            · exact hn.1 (List.mem_map.2 ⟨_, m2, by rw [← e1]; rfl⟩)
          · rcases List.mem_cons.1 k2 with e2 | m2
            · exact hn.1 (List.mem_map.2 ⟨_, m1, by rw [← e2]; rfl⟩)
            · exact ih hn.2 m1 m2
      exact hne _ h ha hb
  · rintro ⟨h1, h2, h3⟩
    refine nodup_map_on _ _ (decls_nodup side sub pub h1 h2) ?_
    intro a ha b hb e
    refine name_inj a b e ?_ ?_ ?_ ?_ <;> (rintro rfl rfl)
    · exact h3 (mem_sub hb)
    · exact h3 (mem_sub ha)
    · exact h3 (mem_unsub hb)
    · exact h3 (mem_unsub ha)

theorem calls_closed (side : Side) (sub pub : List Entry) : ∀ d ∈ decls side sub pub, ∀ x ∈ calls sub d, x ∈ decls side sub pub := by
  intro d hd x hx
  obtain ⟨hw, he, hall⟩ := fixed_mem side sub pub
  cases d with
  | wrap => simp only [calls, List.mem_cons, List.not_mem_nil, or_false] at hx; exact hx ▸ hw
  | exec => simp only [calls, List.mem_cons, List.not_mem_nil, or_false] at hx; exact hx ▸ hw
  | listen n => simp only [calls, List.mem_cons, List.not_mem_nil, or_false] at hx; exact hx ▸ he
  | pub n => simp only [calls, List.mem_cons, List.not_mem_nil, or_false] at hx; exact hx ▸ he
  | waitNext n => simp only [calls, List.mem_cons, List.not_mem_nil, or_false] at hx; exact hx ▸ he
  | unsub n => simp [calls] at hx
  | close =>
    simp only [calls] at hx
    split at hx
    · rename_i h
      simp only [List.mem_cons, List.not_mem_nil, or_false] at hx
      exact hx ▸ (hall (fun e => h (by rw [e]; rfl))).2
    · cases hx
  | subAll =>
    obtain ⟨e, h, rfl⟩ := List.mem_map.1 hx
    exact (block_mem (List.mem_filter.1 h).1).1
  | unsubAll =>
    obtain ⟨e, h, rfl⟩ := List.mem_map.1 hx
    exact (block_mem (List.mem_filter.1 h).1).2.2
  | sub n =>
    simp only [calls, List.mem_cons, List.not_mem_nil, or_false] at hx
    obtain ⟨e, h, rfl⟩ := List.mem_map.1 (mem_sub hd)
    exact hx ▸ (block_mem h).2.1
  | wait n =>
    simp only [calls, List.mem_cons, List.not_mem_nil, or_false] at hx
    subst hx
    have hm : Decl.wait n ∈ waits side sub := by
      unfold decls at hd
      simp only [List.mem_append, List.mem_flatMap, List.mem_map, List.mem_cons, List.not_mem_nil, or_false, reduceCtorEq,
        false_or, and_false, exists_false] at hd
      rcases hd with h | h
      · split at h <;> simp at h
      · exact h
    have hw : Decl.waitNext n ∈ waits side sub := by
      cases side with
      | app => simp [waits] at hm
      | user =>
        simp only [waits, List.mem_flatMap, List.mem_cons, List.not_mem_nil, or_false, Decl.wait.injEq, reduceCtorEq] at hm
        obtain ⟨e, he, rfl⟩ := hm
        exact List.mem_flatMap.2 ⟨e, he, by simp⟩
    unfold decls
    exact List.mem_append_right _ hw

theorem operationName_total (u : Uni) (c : Chan) : ∃ n, operationName u c = some n := by
  unfold operationName
  split
  · obtain ⟨r, h, -⟩ := C42_valid u ‹_›
    exact ⟨r, h⟩
  · split
    · obtain ⟨r, h, -⟩ := C42_valid u ‹_›
      exact ⟨r, h⟩
    · obtain ⟨r, h, -⟩ := C42_valid u c.path
      obtain ⟨r', h', -⟩ := C42_valid u r
      exact ⟨r', by rw [h]; exact h'⟩

theorem entries_total (u : Uni) : ∀ l : List Chan, ∃ es, entries u l = some es ∧
    es.map (fun e => some e.name) = l.map (operationName u)
  | [] => ⟨[], rfl, rfl⟩
  | c :: l => by
    obtain ⟨es, h1, h2⟩ := entries_total u l
    obtain ⟨n, hn⟩ := operationName_total u c
    refine ⟨⟨n, c.params, (c.subscribe.map Op.corr) == some true⟩ :: es, ?_, ?_⟩
    · rw [entries.eq_def]
      simp only [entry, hn, h1, Option.map_some]
    · rw [List.map_cons, List.map_cons, h2, hn]

/-- **C91** (v2). For every document and side the code is generated, and its methods are all different exactly when the
names of the operations it receives are different, the names of those it sends are different, and none of the former is
`All`. Every method the code calls is declared, and so is every function of the subscriber it uses; the functions of the
subscriber are different exactly when the names of what is received are. -/
theorem C91_v2_partial (u : Uni) (side : Side) (doc : List Chan) : ∃ c, code u side doc = some c ∧
    (c.methods.Nodup ↔ ((doc.filter (receives side)).map (operationName u)).Nodup ∧
      ((doc.filter (sends side)).map (operationName u)).Nodup ∧
      some (lit "All") ∉ (doc.filter (receives side)).map (operationName u)) ∧
    (∀ m ∈ c.called, m ∈ c.methods) ∧
    (c.handlers.Nodup ↔ ((doc.filter (receives side)).map (operationName u)).Nodup) ∧
    ∀ h ∈ c.handlersUsed, h ∈ c.handlers := by
  obtain ⟨sub, s1, s2⟩ := entries_total u (doc.filter (receives side))
  obtain ⟨pub, p1, p2⟩ := entries_total u (doc.filter (sends side))
  have key : ∀ l : List Entry, (l.map (fun e => some e.name)).Nodup ↔ (l.map Entry.name).Nodup := by
    intro l
    have e : l.map (fun e => some e.name) = (l.map Entry.name).map some := by simp
    rw [e]
    exact ⟨nodup_of_map _ _, fun h => nodup_map_on _ _ h (fun a _ b _ e => by simpa using e)⟩
  refine ⟨_, by unfold code; rw [s1, p1], ?_, ?_, ?_, ?_⟩
  · rw [← s2, ← p2, key, key]
    have : some (lit "All") ∈ sub.map (fun e => some e.name) ↔ lit "All" ∈ sub.map Entry.name := by simp
    rw [this]
    exact methods_nodup_iff side sub pub
  · intro m hm
    obtain ⟨d, hd, rfl⟩ := List.mem_map.1 hm
    obtain ⟨d', hd', hx⟩ := List.mem_flatMap.1 hd
    exact List.mem_map.2 ⟨d, calls_closed side sub pub d' hd' d hx, rfl⟩
  · rw [← s2, key]
    exact Iff.rfl
  · intro h hh
    obtain ⟨e, he, rfl⟩ := List.mem_map.1 hh
    exact List.mem_map.2 ⟨e, (List.mem_filter.1 he).1, rfl⟩

theorem name_ident (d : Decl) (h : ∀ n, d = .sub n ∨ d = .listen n ∨ d = .unsub n ∨ d = .pub n ∨ d = .wait n ∨ d = .waitNext n →
    ∀ b ∈ n, Naming.isAlnum b = true) : Ident d.name := by
  cases d with
  | wrap => exact ident_lit (by decide)
  | exec => exact ident_lit (by decide)
  | close => exact ident_lit (by decide)
  | subAll => exact ident_lit (by decide)
  | unsubAll => exact ident_lit (by decide)
  | sub n => exact ident_append (ident_lit (by decide)) (h n (by simp))
  | listen n =>
    exact ident_append (ident_append (ident_lit (by decide)) (h n (by simp))) (fun b hb => (ident_lit (by decide)).1 b hb)
  | unsub n => exact ident_append (ident_lit (by decide)) (h n (by simp))
  | pub n => exact ident_append (ident_lit (by decide)) (h n (by simp))
  | wait n => exact ident_append (ident_lit (by decide)) (h n (by simp))
  | waitNext n =>
    exact ident_append (ident_append (ident_lit (by decide)) (h n (by simp))) (fun b hb => (ident_lit (by decide)).1 b hb)

theorem decl_source {side : Side} {sub pub : List Entry} {d : Decl} (h : d ∈ decls side sub pub) :
    ∀ n, d = .sub n ∨ d = .listen n ∨ d = .unsub n ∨ d = .pub n ∨ d = .wait n ∨ d = .waitNext n →
      ∃ e ∈ sub ++ pub, e.name = n := by
  intro n hn
  unfold decls at h
  simp only [List.mem_append, List.mem_flatMap, List.mem_map, List.mem_cons, List.not_mem_nil, or_false] at h
  rcases h with (((h | h) | ⟨e, he, h⟩) | ⟨e, he, h⟩) | h
  · rcases h with rfl | rfl | rfl <;> simp at hn
  · split at h
    · simp only [List.mem_cons, List.not_mem_nil, or_false] at h
      rcases h with rfl | rfl <;> simp at hn
    · cases h
  · refine ⟨e, List.mem_append_left _ he, ?_⟩
    rcases h with rfl | rfl | rfl <;> simpa using hn
  · refine ⟨e, List.mem_append_right _ he, ?_⟩
    subst h
    simpa using hn
  · obtain ⟨e, he, h⟩ := mem_waits h
    refine ⟨e, List.mem_append_left _ he, ?_⟩
    rcases h with rfl | rfl <;> simpa using hn

theorem entries_source (u : Uni) : ∀ (l : List Chan) (es : List Entry), entries u l = some es →
    (∀ c ∈ l, ∃ e ∈ es, entry u c = some e) ∧ ∀ e ∈ es, ∃ c ∈ l, entry u c = some e
  | [], es, h => by
    cases h
    exact ⟨by simp, by simp⟩
  | c :: l, es, h => by
    rw [entries.eq_def] at h
    simp only at h
    split at h
    · rename_i e es' h1 h2
      cases h
      obtain ⟨i1, i2⟩ := entries_source u l es' h2
      refine ⟨fun x hx => ?_, fun x hx => ?_⟩
      · rcases List.mem_cons.1 hx with rfl | hx
        · exact ⟨e, .head _, h1⟩
        · obtain ⟨y, hy, e⟩ := i1 x hx
          exact ⟨y, .tail _ hy, e⟩
      · rcases List.mem_cons.1 hx with rfl | hx
        · exact ⟨c, .head _, h1⟩
        · obtain ⟨y, hy, e⟩ := i2 x hx
          exact ⟨y, .tail _ hy, e⟩
    · cases h

theorem operationName_alnum (u : Uni) (c : Chan) (n : Bytes) (h : operationName u c = some n) :
    ∀ b ∈ n, Naming.isAlnum b = true := by
  have key : ∀ s : Bytes, namify u s = some n → ∀ b ∈ n, Naming.isAlnum b = true := by
    intro s hs
    obtain ⟨r, h1, h2, -⟩ := C42_valid u s
    rw [hs] at h1
    cases h1
    exact h2
  unfold operationName at h
  split at h
  · exact key _ h
  · split at h
    · exact key _ h
    · obtain ⟨r, -, h⟩ := Option.bind_eq_some_iff.1 h
      exact key _ h

/-- The name a document gives to the functions of a channel: its first `operationId`, publish before subscribe, or its
path. -/
inductive Given : Chan → Bytes → Prop
  | publish {c o} (h : c.publish = some o) (h0 : o.id ≠ []) : Given c o.id
  | subscribe {c o} (hp : ∀ p, c.publish = some p → p.id = []) (h : c.subscribe = some o) (h0 : o.id ≠ []) : Given c o.id
  | path {c} (hp : ∀ p, c.publish = some p → p.id = []) (hs : ∀ p, c.subscribe = some p → p.id = []) : Given c c.path

theorem givenId_none {o : Option Op} (h : givenId o = none) : ∀ p, o = some p → p.id = [] := by
  rintro p rfl
  unfold givenId at h
  simp only at h
  split at h
  · assumption
  · cases h

theorem givenId_some {o : Option Op} {i : Bytes} (h : givenId o = some i) : ∃ p, o = some p ∧ p.id ≠ [] ∧ p.id = i := by
  cases o with
  | none => cases h
  | some p =>
    unfold givenId at h
    simp only at h
    split at h
    · cases h
    · exact ⟨p, rfl, by assumption, by simpa using h⟩

theorem given_name (u : Uni) (c : Chan) (n : Bytes) (h : operationName u c = some n) : ∃ g, Given c g ∧ namify u g = some n := by
  unfold operationName at h
  split at h
  · rename_i i hi
    obtain ⟨p, hp, h0, rfl⟩ := givenId_some hi
    exact ⟨_, .publish hp h0, h⟩
  · rename_i hp
    split at h
    · rename_i i hi
      obtain ⟨p, hs, h0, rfl⟩ := givenId_some hi
      exact ⟨_, .subscribe (givenId_none hp) hs h0, h⟩
    · rename_i hs
      obtain ⟨r, hr, h⟩ := Option.bind_eq_some_iff.1 h
      rw [Naming.C42_idempotent u _ _ hr] at h
      cases h
      exact ⟨_, .path (givenId_none hp) (givenId_none hs), hr⟩

/-- **C91** (v2). Every channel gets its functions, named after its first `operationId` or its path: one to subscribe and
one to unsubscribe and one of the subscriber where the side receives, one to publish where it sends, one to wait for an
answer where users receive messages with correlation ID. All methods have Go identifiers as names. -/
theorem C91_v2_complete (u : Uni) (side : Side) (doc : List Chan) : ∃ c, code u side doc = some c ∧
    (∀ m ∈ c.methods, Ident m) ∧
    ∀ ch ∈ doc, ∃ g n, Given ch g ∧ namify u g = some n ∧
      (receives side ch = true → lit "Subscribe" ++ n ∈ c.methods ∧ lit "Unsubscribe" ++ n ∈ c.methods ∧ n ∈ c.handlers ∧
        (ch.params = false → n ∈ c.handlersUsed)) ∧
      (sends side ch = true → lit "Publish" ++ n ∈ c.methods) ∧
      (side = .user → (∃ o, ch.subscribe = some o ∧ o.corr = true) → lit "WaitFor" ++ n ∈ c.methods) := by
  obtain ⟨sub, s1, s2⟩ := entries_total u (doc.filter (receives side))
  obtain ⟨pub, p1, p2⟩ := entries_total u (doc.filter (sends side))
  obtain ⟨a1, a2⟩ := entries_source u _ _ s1
  obtain ⟨b1, b2⟩ := entries_source u _ _ p1
  refine ⟨_, by unfold code; rw [s1, p1], ?_, ?_⟩
  · intro m hm
    obtain ⟨d, hd, rfl⟩ := List.mem_map.1 hm
    refine name_ident d (fun n hdn => ?_)
    obtain ⟨e, he, rfl⟩ := decl_source hd n hdn
    clear hdn
    have : ∃ c, entry u c = some e := by
      rcases List.mem_append.1 he with he | he
      · obtain ⟨c, _, h⟩ := a2 e he
        exact ⟨c, h⟩
      · obtain ⟨c, _, h⟩ := b2 e he
        exact ⟨c, h⟩
    obtain ⟨c, h⟩ := this
    obtain ⟨n, hn, rfl⟩ := Option.map_eq_some_iff.1 h
    exact operationName_alnum u c n hn
  · intro ch hch
    obtain ⟨n, hn⟩ := operationName_total u ch
    obtain ⟨g, hg, hgn⟩ := given_name u ch n hn
    refine ⟨g, n, hg, hgn, fun hr => ?_, fun hs => ?_, fun hu hc => ?_⟩
    · obtain ⟨e, he, h⟩ := a1 ch (List.mem_filter.2 ⟨hch, hr⟩)
      obtain ⟨n', hn', rfl⟩ := Option.map_eq_some_iff.1 h
      rw [hn] at hn'
      cases hn'
      obtain ⟨m1, -, m3⟩ := block_mem (side := side) (pub := pub) he
      exact ⟨List.mem_map.2 ⟨_, m1, rfl⟩, List.mem_map.2 ⟨_, m3, rfl⟩, List.mem_map.2 ⟨_, he, rfl⟩,
        fun hp => List.mem_map.2 ⟨_, List.mem_filter.2 ⟨he, by simp [hp]⟩, rfl⟩⟩
    · obtain ⟨e, he, h⟩ := b1 ch (List.mem_filter.2 ⟨hch, hs⟩)
      obtain ⟨n', hn', rfl⟩ := Option.map_eq_some_iff.1 h
      rw [hn] at hn'
      cases hn'
      refine List.mem_map.2 ⟨.pub n, ?_, rfl⟩
      unfold decls
      exact List.mem_append_left _ (List.mem_append_right _ (List.mem_map.2 ⟨_, he, rfl⟩))
    · subst hu
      obtain ⟨o, ho, hc⟩ := hc
      obtain ⟨e, he, h⟩ := a1 ch (List.mem_filter.2 ⟨hch, by simp [receives, ho]⟩)
      obtain ⟨n', hn', rfl⟩ := Option.map_eq_some_iff.1 h
      rw [hn] at hn'
      cases hn'
      refine List.mem_map.2 ⟨.wait n, ?_, rfl⟩
      unfold decls
      refine List.mem_append_right _ (List.mem_flatMap.2 ⟨_, List.mem_filter.2 ⟨he, ?_⟩, by simp⟩)
      simp [ho, hc]

/-- Users and orders: all methods are different. -/
def doc1 : List Chan :=
  [⟨lit "user/signed-up", some ⟨[], false⟩, some ⟨[], true⟩, false⟩, ⟨lit "orders.{id}", none, some ⟨lit "getOrder", true⟩, true⟩]

example : (code uni0 .user doc1).map Code.methods = some ([ "wrapMiddlewares", "executeMiddlewares", "Close", "SubscribeAll",
    "UnsubscribeAll", "SubscribeUserSignedUp", "listenToUserSignedUpNextMessage", "UnsubscribeUserSignedUp", "SubscribeGetOrder",
    "listenToGetOrderNextMessage", "UnsubscribeGetOrder", "PublishUserSignedUp", "WaitForUserSignedUp",
    "waitForUserSignedUpNextMessage", "WaitForGetOrder", "waitForGetOrderNextMessage"].map lit) := by decide

example : ((code uni0 .user doc1).map (fun c => decide c.methods.Nodup)) = some true := by decide

/-- **C91 is violated** (v2) by a channel named `all`: its methods are those for all channels. -/
theorem C91_violated_v2_all : ∃ doc c, code uni0 .app doc = some c ∧ doc.length = 1 ∧ lit "SubscribeAll" ∈ c.methods ∧
    ¬ c.methods.Nodup :=
  ⟨[⟨lit "all", some ⟨[], false⟩, none, false⟩], _, rfl, rfl, by decide, by decide⟩

/-- **C91 is violated** (v2): the `operationId` of one channel is the name of another one, and only the `operationId` of
the publish operation counts when a channel has two. -/
theorem C91_violated_v2_id : ∃ doc c, code uni0 .app doc = some c ∧ (doc.map Chan.path).Nodup ∧
    (doc.flatMap (fun c => [c.publish, c.subscribe])).Nodup ∧ ¬ c.methods.Nodup :=
  ⟨[⟨lit "ping", some ⟨lit "pong", false⟩, some ⟨lit "ask", false⟩, false⟩, ⟨lit "pong", some ⟨[], true⟩, some ⟨[], false⟩, false⟩],
    _, rfl, by decide, by decide, by decide⟩

end V2

namespace V3
open Sides.V3 (Action)

/-- The first letters of a method. -/
def head : Decl → Bytes
  | .wrap => lit "wra"
  | .exec => lit "exe"
  | .close => lit "Clo"
  | .subAll => lit "Sub"
  | .unsubAll => lit "Uns"
  | .sub _ => lit "Sub"
  | .listen _ => lit "lis"
  | .reply _ => lit "Rep"
  | .unsub _ => lit "Uns"
  | .send _ => lit "Sen"
  | .request _ => lit "Req"
  | .waitNext _ => lit "wai"

theorem take_name (side : Side) (d : Decl) : (d.name side).take 3 = head d := by cases side <;> cases d <;> rfl

theorem name_inj (side : Side) (d e : Decl) (h : d.name side = e.name side) (h1 : d = .subAll → e ≠ .sub (lit "AllChannels"))
    (h2 : e = .subAll → d ≠ .sub (lit "AllChannels")) (h3 : d = .unsubAll → e ≠ .unsub (lit "AllChannels"))
    (h4 : e = .unsubAll → d ≠ .unsub (lit "AllChannels")) : d = e := by
  have hh : head d = head e := by rw [← take_name, ← take_name, h]
  cases d <;> cases e <;> first
    | rfl
    | (simp only [head] at hh; exact absurd hh (by decide))
    | (simp only [Decl.name, List.append_assoc, List.append_cancel_left_eq, List.append_cancel_right_eq] at h; rw [h])
    | (exfalso; rename_i n; refine h1 rfl ?_
       rw [Decl.sub.injEq]
       exact (List.append_cancel_left (as := lit "SubscribeTo") (show lit "SubscribeTo" ++ lit "AllChannels" = _ from h)).symm)
    | (exfalso; rename_i n; refine h2 rfl ?_
       rw [Decl.sub.injEq]
       exact (List.append_cancel_left (as := lit "SubscribeTo") (show _ = lit "SubscribeTo" ++ lit "AllChannels" from h)))
    | (exfalso; rename_i n; refine h3 rfl ?_
       rw [Decl.unsub.injEq]
       exact (List.append_cancel_left (as := lit "UnsubscribeFrom") (show lit "UnsubscribeFrom" ++ lit "AllChannels" = _ from h)).symm)
    | (exfalso; rename_i n; refine h4 rfl ?_
       rw [Decl.unsub.injEq]
       exact (List.append_cancel_left (as := lit "UnsubscribeFrom") (show _ = lit "UnsubscribeFrom" ++ lit "AllChannels" from h)))

theorem mem_recvDecls {e : Entry} {d : Decl} : d ∈ recvDecls e ↔
    d = .sub e.name ∨ d = .listen e.name ∨ (e.reply = true ∧ d = .reply e.name) ∨ d = .unsub e.name := by
  unfold recvDecls
  cases e.reply <;> simp

theorem mem_sendDecls {e : Entry} {d : Decl} : d ∈ sendDecls e ↔
    d = .send e.name ∨ (e.reply = true ∧ (d = .request e.name ∨ d = .waitNext e.name)) := by
  unfold sendDecls
  cases e.reply <;> simp

theorem mem_decls {recv send : List Entry} {d : Decl} : d ∈ decls recv send ↔
    (d = .wrap ∨ d = .exec ∨ d = .close) ∨ (recv ≠ [] ∧ (d = .subAll ∨ d = .unsubAll)) ∨
    (∃ e ∈ recv, d ∈ recvDecls e) ∨ ∃ e ∈ send, d ∈ sendDecls e := by
  unfold decls
  simp only [List.mem_append, List.mem_flatMap, List.mem_cons, List.not_mem_nil, or_false]
  by_cases h : recv = []
  · simp [h]
  · have : recv.length ≠ 0 := fun e => h (List.eq_nil_of_length_eq_zero e)
    rw [if_pos this]
    simp [h, or_assoc]

theorem decls_nodup (recv send : List Entry) (h1 : (recv.map Entry.name).Nodup) (h2 : (send.map Entry.name).Nodup) :
    (decls recv send).Nodup := by
  have hr : (recv.flatMap recvDecls).Nodup := by
    refine nodup_blocks _ _ (fun a _ => by unfold recvDecls; cases a.reply <;> simp) ?_
    refine List.Pairwise.imp ?_ (List.pairwise_map.1 h1)
    intro a b hab x hx y hy
    rw [mem_recvDecls] at hx hy
    rcases hx with rfl | rfl | ⟨_, rfl⟩ | rfl <;> rcases hy with rfl | rfl | ⟨_, rfl⟩ | rfl <;> simp [hab]
  have hs : (send.flatMap sendDecls).Nodup := by
    refine nodup_blocks _ _ (fun a _ => by unfold sendDecls; cases a.reply <;> simp) ?_
    refine List.Pairwise.imp ?_ (List.pairwise_map.1 h2)
    intro a b hab x hx y hy
    rw [mem_sendDecls] at hx hy
    rcases hx with rfl | ⟨_, rfl | rfl⟩ <;> rcases hy with rfl | ⟨_, rfl | rfl⟩ <;> simp [hab]
  unfold decls
  rw [List.nodup_append, List.nodup_append, List.nodup_append]
  refine ⟨⟨⟨by decide, by split <;> decide, ?_⟩, hr, ?_⟩, hs, ?_⟩
  · intro x hx y hy
    split at hy <;> simp only [List.mem_cons, List.not_mem_nil, or_false] at hx hy
    · rcases hx with rfl | rfl | rfl <;> rcases hy with rfl | rfl <;> simp
  · intro x hx y hy e
    subst e
    obtain ⟨e, _, hy⟩ := List.mem_flatMap.1 hy
    rw [mem_recvDecls] at hy
    rcases hy with rfl | rfl | ⟨_, rfl⟩ | rfl <;> (split at hx <;> simp at hx)
  · intro x hx y hy e
    subst e
    obtain ⟨e, _, hy⟩ := List.mem_flatMap.1 hy
    rw [mem_sendDecls] at hy
    rcases List.mem_append.1 hx with hx | hx
    · rcases hy with rfl | ⟨_, rfl | rfl⟩ <;> (split at hx <;> simp at hx)
    · obtain ⟨e', _, hx⟩ := List.mem_flatMap.1 hx
      rw [mem_recvDecls] at hx
      rcases hy with rfl | ⟨_, rfl | rfl⟩ <;> simp at hx

theorem mem_sub {recv send : List Entry} {n : Bytes} (h : Decl.sub n ∈ decls recv send) : n ∈ recv.map Entry.name := by
  rw [mem_decls] at h
  rcases h with h | ⟨_, h⟩ | ⟨e, he, h⟩ | ⟨e, he, h⟩
  · simp at h
  · simp at h
  · rw [mem_recvDecls] at h
    simp only [Decl.sub.injEq, reduceCtorEq, and_false, or_false] at h
    exact List.mem_map.2 ⟨e, he, h.symm⟩
  · rw [mem_sendDecls] at h
    simp at h

theorem mem_unsub {recv send : List Entry} {n : Bytes} (h : Decl.unsub n ∈ decls recv send) : n ∈ recv.map Entry.name := by
  rw [mem_decls] at h
  rcases h with h | ⟨_, h⟩ | ⟨e, he, h⟩ | ⟨e, he, h⟩
  · simp at h
  · simp at h
  · rw [mem_recvDecls] at h
    simp only [Decl.unsub.injEq, reduceCtorEq, and_false, false_or] at h
    exact List.mem_map.2 ⟨e, he, h.symm⟩
  · rw [mem_sendDecls] at h
    simp at h

theorem methods_nodup (side : Side) (recv send : List Entry) (h1 : (recv.map Entry.name).Nodup)
    (h2 : (send.map Entry.name).Nodup) (h3 : lit "AllChannels" ∉ recv.map Entry.name) :
    ((decls recv send).map (Decl.name side)).Nodup := by
  refine nodup_map_on _ _ (decls_nodup recv send h1 h2) ?_
  intro a ha b hb e
  refine name_inj side a b e ?_ ?_ ?_ ?_ <;> (rintro rfl rfl)
  · exact h3 (mem_sub hb)
  · exact h3 (mem_sub ha)
  · exact h3 (mem_unsub hb)
  · exact h3 (mem_unsub ha)

theorem calls_closed (recv send : List Entry)
    (hr : ∀ e ∈ recv, e.reply = true → ∃ s ∈ send, s.name = lit "ReplyTo" ++ e.name) :
    ∀ d ∈ decls recv send, ∀ x ∈ calls recv d, x ∈ decls recv send := by
  intro d hd x hx
  have hw : Decl.wrap ∈ decls recv send := mem_decls.2 (.inl (.inl rfl))
  have he : Decl.exec ∈ decls recv send := mem_decls.2 (.inl (.inr (.inl rfl)))
  have hblock : ∀ e ∈ recv, ∀ d ∈ recvDecls e, d ∈ decls recv send := fun e h d hd => mem_decls.2 (.inr (.inr (.inl ⟨e, h, hd⟩)))
  have hsend : ∀ e ∈ send, ∀ d ∈ sendDecls e, d ∈ decls recv send := fun e h d hd => mem_decls.2 (.inr (.inr (.inr ⟨e, h, hd⟩)))
  cases d with
  | wrap => simp only [calls, List.mem_cons, List.not_mem_nil, or_false] at hx; exact hx ▸ hw
  | exec => simp only [calls, List.mem_cons, List.not_mem_nil, or_false] at hx; exact hx ▸ hw
  | listen n => simp only [calls, List.mem_cons, List.not_mem_nil, or_false] at hx; exact hx ▸ he
  | send n => simp only [calls, List.mem_cons, List.not_mem_nil, or_false] at hx; exact hx ▸ he
  | waitNext n => simp only [calls, List.mem_cons, List.not_mem_nil, or_false] at hx; exact hx ▸ he
  | unsub n => simp [calls] at hx
  | close =>
    simp only [calls] at hx
    split at hx
    · rename_i h
      simp only [List.mem_cons, List.not_mem_nil, or_false] at hx
      exact hx ▸ mem_decls.2 (.inr (.inl ⟨fun e => h (by rw [e]; rfl), .inr rfl⟩))
    · cases hx
  | subAll =>
    obtain ⟨e, h, rfl⟩ := List.mem_map.1 hx
    exact hblock e (List.mem_filter.1 h).1 _ (mem_recvDecls.2 (.inl rfl))
  | unsubAll =>
    obtain ⟨e, h, rfl⟩ := List.mem_map.1 hx
    exact hblock e (List.mem_filter.1 h).1 _ (mem_recvDecls.2 (.inr (.inr (.inr rfl))))
  | sub n =>
    simp only [calls, List.mem_cons, List.not_mem_nil, or_false] at hx
    obtain ⟨e, h, rfl⟩ := List.mem_map.1 (mem_sub hd)
    exact hx ▸ hblock e h _ (mem_recvDecls.2 (.inr (.inl rfl)))
  | reply n =>
    simp only [calls, List.mem_cons, List.not_mem_nil, or_false] at hx
    rw [mem_decls] at hd
    rcases hd with h | ⟨_, h⟩ | ⟨e, h, hm⟩ | ⟨e, h, hm⟩
    · simp at h
    · simp at h
    · rw [mem_recvDecls] at hm
      simp only [reduceCtorEq, Decl.reply.injEq, false_or, or_false] at hm
      obtain ⟨s, hs, en⟩ := hr e h hm.1
      rw [hx, hm.2, ← en]
      exact hsend s hs _ (mem_sendDecls.2 (.inl rfl))
    · rw [mem_sendDecls] at hm
      simp at hm
  | request n =>
    simp only [calls, List.mem_cons, List.not_mem_nil, or_false] at hx
    rw [mem_decls] at hd
    rcases hd with h | ⟨_, h⟩ | ⟨e, h, hm⟩ | ⟨e, h, hm⟩
    · simp at h
    · simp at h
    · rw [mem_recvDecls] at hm
      simp at hm
    · rw [mem_sendDecls] at hm
      simp only [reduceCtorEq, Decl.request.injEq, false_or, or_false] at hm
      rcases hx with rfl | rfl
      · exact hsend e h _ (mem_sendDecls.2 (.inl (by rw [hm.2])))
      · exact hsend e h _ (mem_sendDecls.2 (.inr ⟨hm.1, .inr (by rw [hm.2])⟩))

/-! ## Names -/

theorem isName_operation : IsName (lit "Operation") := Names.isName_of_check (by decide)
theorem isName_replyTo : IsName (lit "ReplyTo") := Names.isName_of_check (by decide)

theorem isName_namify (u : Uni) {s n : Bytes} (h : namify u s = some n) : IsName n := by
  obtain ⟨r, h1, h2, h3⟩ := C42_valid u s
  rw [h] at h1; cases h1
  exact ⟨h2, h3⟩

/-- The name of an operation: the Go name of its key, then `Operation`. For every key. -/
theorem fullName_operation (u : Uni) (k n : Bytes) (hn : namify u k = some n) :
    fullName u [] k (lit "Operation") = some (n ++ lit "Operation") := by
  have hname := isName_namify u hn
  have e : fullName u [] k (lit "Operation") = fullName u [] n (lit "Operation") := by
    unfold fullName
    rw [hn, namify_name u hname]
  rw [e]
  exact Names.fullName_root u n n _ (Names.ascii_name hname) (namify_name u hname) isName_operation

theorem declared_eq (u : Uni) (o : Op) (n : Bytes) (hn : namify u o.key = some n) :
    declared u o = some ⟨n ++ lit "Operation", o.params, o.reply.isSome⟩ := by
  unfold declared opName
  rw [fullName_operation u o.key n hn, Option.bind_some, namify_name u (Names.isName_append (isName_namify u hn) isName_operation)]
  rfl

theorem replying_eq (u : Uni) (o : Op) (n : Bytes) (hn : namify u o.key = some n) :
    replying u o = some ⟨lit "ReplyTo" ++ (n ++ lit "Operation"), false, false⟩ := by
  unfold replying
  rw [fullName_operation u o.key n hn, Option.bind_some,
    namify_name u (Names.isName_append isName_replyTo (Names.isName_append (isName_namify u hn) isName_operation))]
  rfl

/-! ## What is sent -/

/-- What an operation adds to what is sent, with its key in the map. -/
def added (side : Side) (o : Op) : List (Bytes × Sent) :=
  (if sends side o then [(o.key, .declared o)] else []) ++
  (match o.reply with
   | some ch => if receives side o then [(ch, .replyTo o)] else []
   | none => [])

theorem put_new {acc : GoMap Bytes Sent} {k : Bytes} {v : Sent} (h : k ∉ acc.map (·.1)) : GoMap.put acc k v = (k, v) :: acc := by
  unfold GoMap.put GoMap.del
  congr 1
  refine List.filter_eq_self.2 (fun e he => ?_)
  simp only [Bool.not_eq_true', decide_eq_false_iff_not]
  intro hk
  exact h (List.mem_map.2 ⟨e, he, hk⟩)

theorem sendStep_eq (side : Side) (acc : GoMap Bytes Sent) (o : Op)
    (h : ((added side o).map (·.1) ++ acc.map (·.1)).Nodup) : sendStep side acc o = (added side o).reverse ++ acc := by
  unfold sendStep added at *
  by_cases hs : sends side o
  · have hr : receives side o = false := by
      cases side <;> simp only [sends, receives, decide_eq_true_eq] at hs ⊢ <;> rw [hs] <;> rfl
    have h0 : (match o.reply with
        | some ch => if receives side o then [(ch, Sent.replyTo o)] else []
        | none => []) = [] := by split <;> simp [hr]
    rw [h0] at h ⊢
    simp only [hs, if_true, List.append_nil, List.map_cons, List.map_nil, List.cons_append, List.nil_append, List.nodup_cons] at h
    simp only [hs, if_true]
    rw [put_new h.1]
    split <;> simp [hr]
  · simp only [hs, Bool.false_eq_true, if_false, List.nil_append] at h ⊢
    cases e : o.reply with
    | none => rfl
    | some ch =>
      rw [e] at h
      by_cases hr : receives side o
      · simp only [hr, if_true, List.map_cons, List.map_nil, List.cons_append, List.nil_append, List.nodup_cons] at h
        simp only [hr, if_true]
        rw [put_new h.1]
        rfl
      · simp [hr]

theorem foldl_eq (side : Side) : ∀ (doc : List Op) (acc : GoMap Bytes Sent),
    ((doc.flatMap (fun o => (added side o).map (·.1))) ++ acc.map (·.1)).Nodup →
    (doc.foldl (sendStep side) acc).Perm (doc.flatMap (added side) ++ acc)
  | [], acc, _ => List.Perm.refl _
  | o :: doc, acc, h => by
    rw [List.flatMap_cons, List.append_assoc] at h
    have h1 : ((added side o).map (·.1) ++ acc.map (·.1)).Nodup := by
      refine h.sublist (List.Sublist.append (List.Sublist.refl _) (List.sublist_append_right _ _))
    rw [List.foldl_cons, sendStep_eq side acc o h1]
    have hp : (doc.flatMap (fun o => (added side o).map (·.1)) ++ ((added side o).reverse ++ acc).map (·.1)).Perm
        ((added side o).map (·.1) ++ (doc.flatMap (fun o => (added side o).map (·.1)) ++ acc.map (·.1))) := by
      rw [List.map_append, ← List.append_assoc, ← List.append_assoc]
      refine List.Perm.append_right _ ?_
      refine (List.perm_append_comm).trans (List.Perm.append_right _ ?_)
      exact (List.reverse_perm _).map _
    have := foldl_eq side doc ((added side o).reverse ++ acc) (hp.nodup_iff.2 h)
    refine this.trans ?_
    rw [List.flatMap_cons, ← List.append_assoc]
    refine List.Perm.append_right _ ?_
    exact (List.perm_append_comm).trans (List.Perm.append_right _ (List.reverse_perm _))

/-- The keys under which a side stores what it sends: keys of operations and names of reply channels. -/
def storedKeys (side : Side) (doc : List Op) : List Bytes :=
  doc.flatMap (fun o =>
    (if sends side o then [o.key] else []) ++ (if receives side o then o.reply.toList else []))

theorem added_keys (side : Side) (o : Op) : (added side o).map (·.1) =
    (if sends side o then [o.key] else []) ++ (if receives side o then o.reply.toList else []) := by
  unfold added
  rw [List.map_append]
  congr 1
  · split <;> rfl
  · cases o.reply <;> by_cases h : receives side o <;> simp [h]

theorem sent_perm (side : Side) (doc : List Op) (h : (storedKeys side doc).Nodup) :
    (sent side doc).Perm ((doc.flatMap (added side)).map (·.2)) := by
  have := foldl_eq side doc [] (by
    simp only [List.map_nil, List.append_nil, added_keys]
    exact h)
  rw [List.append_nil] at this
  exact this.map _

theorem entries_some {α : Type} (f : α → Option Entry) : ∀ l : List α, (∀ a ∈ l, ∃ e, f a = some e) →
    ∃ es, entries f l = some es ∧ es.map some = l.map f
  | [], _ => ⟨[], rfl, rfl⟩
  | a :: l, h => by
    obtain ⟨es, h1, h2⟩ := entries_some f l (fun x hx => h x (.tail _ hx))
    obtain ⟨e, he⟩ := h a (.head _)
    refine ⟨e :: es, ?_, by rw [List.map_cons, List.map_cons, h2, he]⟩
    rw [entries.eq_def]
    simp only [he, h1]

/-- The name a method has for what is sent: `none` never happens. -/
def sentName (u : Uni) : Sent → Option Bytes
  | .declared o => (namify u o.key).map (· ++ lit "Operation")
  | .replyTo o => (namify u o.key).map (fun n => lit "ReplyTo" ++ (n ++ lit "Operation"))

theorem sent_entry (u : Uni) (s : Sent) : ∃ e, s.entry u = some e ∧ some e.name = sentName u s := by
  cases s with
  | declared o =>
    obtain ⟨n, hn, -⟩ := C42_valid u o.key
    exact ⟨_, declared_eq u o n hn, by rw [sentName, hn]; rfl⟩
  | replyTo o =>
    obtain ⟨n, hn, -⟩ := C42_valid u o.key
    exact ⟨_, replying_eq u o n hn, by rw [sentName, hn]; rfl⟩

/-- **C91** (v3). When no two operations have the same Go name, no operation is named like the reply to another one, and
the keys of operations and names of reply channels under which replies are stored are different: the code is generated,
no method is declared twice, every method the code calls is declared, and so is every function of the subscriber. For any
keys, of any bytes. -/
theorem C91_v3_partial (u : Uni) (side : Side) (doc : List Op) (hn : (doc.map (fun o => namify u o.key)).Nodup)
    (hr : ∀ o ∈ doc, ∀ o' ∈ doc, sends side o = true → receives side o' = true → o'.reply ≠ none →
      namify u o.key ≠ (namify u o'.key).map (lit "ReplyTo" ++ ·))
    (hk : (storedKeys side doc).Nodup) : ∃ c, code u side doc = some c ∧ c.methods.Nodup ∧ c.handlers.Nodup ∧
    (∀ m ∈ c.called, m ∈ c.methods) ∧ ∀ h ∈ c.handlersUsed, h ∈ c.handlers := by
  obtain ⟨recv, r1, r2⟩ := entries_some (declared u) (doc.filter (receives side)) (fun o _ => by
    obtain ⟨n, hn, -⟩ := C42_valid u o.key
    exact ⟨_, declared_eq u o n hn⟩)
  obtain ⟨send, s1, s2⟩ := entries_some (Sent.entry u) (sent side doc) (fun s _ => by
    obtain ⟨e, he, -⟩ := sent_entry u s
    exact ⟨e, he⟩)
  have hperm := sent_perm side doc hk
  have hinj : ∀ o ∈ doc, ∀ o' ∈ doc, namify u o.key = namify u o'.key → o = o' := by
    intro o ho o' ho' e
    clear hr hk r2 r1 s2 s1 hperm
    induction doc with
    | nil => cases ho
    | cons x l ih =>
      rw [List.map_cons, List.nodup_cons] at hn
      rcases List.mem_cons.1 ho with e1 | m1
      · rcases List.mem_cons.1 ho' with e2 | m2
        · rw [e1, e2]
        · exact absurd (List.mem_map.2 ⟨o', m2, by rw [← e, e1]⟩) hn.1
      · rcases List.mem_cons.1 ho' with e2 | m2
        · exact absurd (List.mem_map.2 ⟨o, m1, by rw [e, e2]⟩) hn.1
        · exact ih hn.2 m1 m2
  have hdoc : doc.Nodup := nodup_of_map _ _ hn
  -- names of what is received
  have hrn : recv.map (fun e => some e.name) = (doc.filter (receives side)).map (fun o => (namify u o.key).map (· ++ lit "Operation")) := by
    have : recv.map (fun e => some e.name) = (recv.map some).map (fun e => e.map Entry.name) := by simp
    rw [this, r2, List.map_map]
    refine List.map_congr_left (fun o _ => ?_)
    obtain ⟨n, hn, -⟩ := C42_valid u o.key
    simp only [Function.comp, declared_eq u o n hn, hn, Option.map_some]
  have hrecv : (recv.map Entry.name).Nodup := by
    have : (recv.map (fun e => some e.name)).Nodup := by
      rw [hrn]
      refine nodup_map_on _ _ (hdoc.sublist List.filter_sublist) ?_
      intro a ha b hb e
      obtain ⟨n, hn, -⟩ := C42_valid u a.key
      obtain ⟨m, hm, -⟩ := C42_valid u b.key
      rw [hn, hm] at e
      simp only [Option.map_some, Option.some.injEq, List.append_cancel_right_eq] at e
      exact hinj a (List.mem_filter.1 ha).1 b (List.mem_filter.1 hb).1 (by rw [hn, hm, e])
    have e : recv.map (fun e => some e.name) = (recv.map Entry.name).map some := by simp
    rw [e] at this
    exact nodup_of_map _ _ this
  -- names of what is sent
  have hsn : send.map (fun e => some e.name) = (sent side doc).map (sentName u) := by
    have : send.map (fun e => some e.name) = (send.map some).map (fun e => e.map Entry.name) := by simp
    rw [this, s2, List.map_map]
    refine List.map_congr_left (fun s _ => ?_)
    obtain ⟨e, he, hs⟩ := sent_entry u s
    simp only [Function.comp, he, Option.map_some, hs]
  have hmem : ∀ s, s ∈ sent side doc ↔ (∃ o ∈ doc, sends side o = true ∧ s = .declared o) ∨
      (∃ o ∈ doc, receives side o = true ∧ o.reply ≠ none ∧ s = .replyTo o) := by
    intro s
    rw [hperm.mem_iff]
    simp only [List.mem_map, List.mem_flatMap, added, List.mem_append]
    constructor
    · rintro ⟨⟨k, s'⟩, ⟨o, ho, h | h⟩, rfl⟩
      · split at h
        · simp only [List.mem_cons, List.not_mem_nil, or_false, Prod.mk.injEq] at h
          exact .inl ⟨o, ho, by assumption, h.2⟩
        · cases h
      · split at h
        · rename_i ch e
          split at h
          · simp only [List.mem_cons, List.not_mem_nil, or_false, Prod.mk.injEq] at h
            exact .inr ⟨o, ho, by assumption, by rw [e]; simp, h.2⟩
          · cases h
        · cases h
    · rintro (⟨o, ho, hs, rfl⟩ | ⟨o, ho, hs, hne, rfl⟩)
      · exact ⟨(o.key, .declared o), ⟨o, ho, .inl (by rw [if_pos hs]; simp)⟩, rfl⟩
      · cases e : o.reply with
        | none => exact absurd e hne
        | some ch => exact ⟨(ch, .replyTo o), ⟨o, ho, .inr (by simp [e, hs])⟩, rfl⟩
  have hsentnd : (sent side doc).Nodup := by
    rw [hperm.nodup_iff]
    have e : (doc.flatMap (added side)).map (·.2) = doc.flatMap (fun o => (added side o).map (·.2)) := by
      rw [List.map_flatMap]
    rw [e]
    have ha : ∀ o, ∀ s ∈ (added side o).map (·.2), s = .declared o ∨ s = .replyTo o := by
      intro o s hs
      obtain ⟨⟨k, s'⟩, h, rfl⟩ := List.mem_map.1 hs
      unfold added at h
      rcases List.mem_append.1 h with h | h
      · split at h
        · simp only [List.mem_cons, List.not_mem_nil, or_false, Prod.mk.injEq] at h
          exact .inl h.2
        · cases h
      · split at h
        · split at h
          · simp only [List.mem_cons, List.not_mem_nil, or_false, Prod.mk.injEq] at h
            exact .inr h.2
          · cases h
        · cases h
    refine nodup_blocks _ _ ?_ ?_
    · intro o _
      unfold added
      cases o.reply <;> by_cases h1 : sends side o <;> by_cases h2 : receives side o <;> simp [h1, h2]
    · refine List.Pairwise.imp ?_ hdoc
      intro a b hab x hx y hy
      rcases ha a x hx with rfl | rfl <;> rcases ha b y hy with rfl | rfl <;> simp [hab]
  have hsend : (send.map Entry.name).Nodup := by
    have : (send.map (fun e => some e.name)).Nodup := by
      rw [hsn]
      refine nodup_map_on _ _ hsentnd ?_
      intro a ha b hb e
      have hcross : ∀ o ∈ doc, ∀ o' ∈ doc, sends side o = true → receives side o' = true → o'.reply ≠ none →
          sentName u (.declared o) ≠ sentName u (.replyTo o') := by
        intro o ho o' ho' h1 h2 h3 e
        obtain ⟨n, hn, -⟩ := C42_valid u o.key
        obtain ⟨m, hm, -⟩ := C42_valid u o'.key
        simp only [sentName, hn, hm, Option.map_some, Option.some.injEq] at e
        rw [← List.append_assoc] at e
        exact hr o ho o' ho' h1 h2 h3 (by rw [hn, hm, List.append_cancel_right e]; rfl)
      rcases (hmem a).1 ha with ⟨o, ho, h1, rfl⟩ | ⟨o, ho, h1, h1', rfl⟩ <;>
        rcases (hmem b).1 hb with ⟨o', ho', h2, rfl⟩ | ⟨o', ho', h2, h2', rfl⟩
      · obtain ⟨n, hn, -⟩ := C42_valid u o.key
        obtain ⟨m, hm, -⟩ := C42_valid u o'.key
        simp only [sentName, hn, hm, Option.map_some, Option.some.injEq, List.append_cancel_right_eq] at e
        rw [hinj o ho o' ho' (by rw [hn, hm, e])]
      · exact absurd e (hcross o ho o' ho' h1 h2 h2')
      · exact absurd e.symm (hcross o' ho' o ho h2 h1 h1')
      · obtain ⟨n, hn, -⟩ := C42_valid u o.key
        obtain ⟨m, hm, -⟩ := C42_valid u o'.key
        simp only [sentName, hn, hm, Option.map_some, Option.some.injEq, List.append_cancel_left_eq, List.append_cancel_right_eq] at e
        rw [hinj o ho o' ho' (by rw [hn, hm, e])]
    have e : send.map (fun e => some e.name) = (send.map Entry.name).map some := by simp
    rw [e] at this
    exact nodup_of_map _ _ this
  have hall : lit "AllChannels" ∉ recv.map Entry.name := by
    intro h
    have : some (lit "AllChannels") ∈ recv.map (fun e => some e.name) := by
      obtain ⟨e, he, h⟩ := List.mem_map.1 h
      exact List.mem_map.2 ⟨e, he, by rw [h]⟩
    rw [hrn] at this
    obtain ⟨o, -, e⟩ := List.mem_map.1 this
    obtain ⟨n, hn, -⟩ := C42_valid u o.key
    rw [hn, Option.map_some, Option.some.injEq] at e
    have := congrArg List.getLast? e
    rw [List.getLast?_append] at this
    exact absurd this (by simp only [show (lit "Operation").getLast? = some 110 from by decide, Option.some_or]; decide)
  refine ⟨_, by unfold code; rw [r1, s1], methods_nodup side recv send hrecv hsend hall, ?_, ?_, ?_⟩
  · have e : recv.map handler = (recv.map Entry.name).map (· ++ lit "Received") := by simp [handler]
    simp only [e]
    exact nodup_map_on _ _ hrecv (fun a _ b _ h => List.append_cancel_right h)
  · intro m hm
    obtain ⟨d, hd, rfl⟩ := List.mem_map.1 hm
    obtain ⟨d', hd', hx⟩ := List.mem_flatMap.1 hd
    refine List.mem_map.2 ⟨d, calls_closed recv send ?_ d' hd' d hx, rfl⟩
    intro e he hre
    have : some e ∈ (doc.filter (receives side)).map (declared u) := by
      rw [← r2]
      exact List.mem_map.2 ⟨e, he, rfl⟩
    obtain ⟨o, ho, hoe⟩ := List.mem_map.1 this
    obtain ⟨n, hn, -⟩ := C42_valid u o.key
    rw [declared_eq u o n hn, Option.some.injEq] at hoe
    subst hoe
    obtain ⟨ho, hrc⟩ := List.mem_filter.1 ho
    have hs : Sent.replyTo o ∈ sent side doc := (hmem _).2 (.inr ⟨o, ho, hrc, (fun h0 => by
      simp [h0] at hre), rfl⟩)
    have : sentName u (.replyTo o) ∈ send.map (fun e => some e.name) := by
      rw [hsn]
      exact List.mem_map.2 ⟨_, hs, rfl⟩
    obtain ⟨s, hs, h⟩ := List.mem_map.1 this
    refine ⟨s, hs, ?_⟩
    rw [sentName, hn, Option.map_some, Option.some.injEq] at h
    exact h
  · intro h hh
    obtain ⟨e, he, rfl⟩ := List.mem_map.1 hh
    exact List.mem_map.2 ⟨e, (List.mem_filter.1 he).1, rfl⟩

theorem name_ident (side : Side) (d : Decl) (h : ∀ n, d = .sub n ∨ d = .listen n ∨ d = .reply n ∨ d = .unsub n ∨ d = .send n ∨
    d = .request n ∨ d = .waitNext n → ∀ b ∈ n, Naming.isAlnum b = true) : Ident (d.name side) := by
  have hs : Ident (sendWord side) := by cases side <;> exact ident_lit (by decide)
  have hr : Ident (requestWord side) := by cases side <;> exact ident_lit (by decide)
  cases d with
  | wrap => exact ident_lit (s := lit "wrapMiddlewares") (by decide)
  | exec => exact ident_lit (s := lit "executeMiddlewares") (by decide)
  | close => exact ident_lit (s := lit "Close") (by decide)
  | subAll => exact ident_lit (s := lit "SubscribeToAllChannels") (by decide)
  | unsubAll => exact ident_lit (s := lit "UnsubscribeFromAllChannels") (by decide)
  | sub n => exact ident_append (ident_lit (by decide)) (h n (by simp))
  | listen n =>
    exact ident_append (ident_append (ident_lit (by decide)) (h n (by simp))) (fun b hb => (ident_lit (by decide)).1 b hb)
  | reply n => exact ident_append (ident_lit (by decide)) (h n (by simp))
  | unsub n => exact ident_append (ident_lit (by decide)) (h n (by simp))
  | send n => exact ident_append hs (h n (by simp))
  | request n => exact ident_append hr (h n (by simp))
  | waitNext n =>
    exact ident_append (ident_append (ident_lit (by decide)) (h n (by simp))) (fun b hb => (ident_lit (by decide)).1 b hb)

theorem decl_source {recv send : List Entry} {d : Decl} (h : d ∈ decls recv send) :
    ∀ n, d = .sub n ∨ d = .listen n ∨ d = .reply n ∨ d = .unsub n ∨ d = .send n ∨ d = .request n ∨ d = .waitNext n →
      ∃ e ∈ recv ++ send, e.name = n := by
  intro n hn
  rw [mem_decls] at h
  rcases h with h | ⟨_, h⟩ | ⟨e, he, h⟩ | ⟨e, he, h⟩
  · rcases h with rfl | rfl | rfl <;> simp at hn
  · rcases h with rfl | rfl <;> simp at hn
  · refine ⟨e, List.mem_append_left _ he, ?_⟩
    rw [mem_recvDecls] at h
    rcases h with rfl | rfl | ⟨_, rfl⟩ | rfl <;> simpa using hn
  · refine ⟨e, List.mem_append_right _ he, ?_⟩
    rw [mem_sendDecls] at h
    rcases h with rfl | ⟨_, rfl | rfl⟩ <;> simpa using hn

/-- What the side sends as declared, in the map, unless its key is the name of a reply channel. -/
theorem sent_declared (side : Side) (o : Op) (hs : sends side o = true) : ∀ (doc : List Op) (acc : GoMap Bytes Sent), GoMap.WF acc →
    (∀ o' ∈ doc, o' ≠ o → sends side o' = true → o'.key ≠ o.key) → (∀ o' ∈ doc, receives side o' = true → o'.reply ≠ some o.key) →
    (o ∈ doc ∨ GoMap.get acc o.key = some (.declared o)) →
    GoMap.get (doc.foldl (sendStep side) acc) o.key = some (.declared o)
  | [], acc, _, _, _, h => by
    rcases h with h | h
    · cases h
    · exact h
  | x :: doc, acc, hw, h1, h2, h => by
    rw [List.foldl_cons]
    have hr : GoMap.get (sendStep side acc x) o.key =
        if x = o then some (.declared o) else GoMap.get acc o.key := by
      have e2 : ∀ acc1 : GoMap Bytes Sent, GoMap.get (match x.reply with
          | some ch => if receives side x then acc1.put ch (.replyTo x) else acc1
          | none => acc1) o.key = GoMap.get acc1 o.key := by
        intro acc1
        split
        · rename_i ch e
          split
          · rename_i hr
            rw [GoMap.get_put, if_neg]
            intro hc
            exact h2 x (.head _) hr (by rw [e, hc])
          · rfl
        · rfl
      unfold sendStep
      refine (e2 _).trans ?_
      by_cases hx : x = o
      · subst hx
        simp [hs]
      · rw [if_neg hx]
        split
        · rename_i hsx
          rw [GoMap.get_put, if_neg (h1 x (.head _) hx hsx)]
        · rfl
    have hw' : GoMap.WF (sendStep side acc x) := by
      unfold sendStep
      simp only
      split <;> split <;> (try split) <;> first
        | exact hw
        | exact GoMap.wf_put hw _ _
        | exact GoMap.wf_put (GoMap.wf_put hw _ _) _ _
    refine sent_declared side o hs doc _ hw' (fun y hy => h1 y (.tail _ hy)) (fun y hy => h2 y (.tail _ hy)) ?_
    rw [hr]
    by_cases hx : x = o
    · exact .inr (by rw [if_pos hx])
    · rw [if_neg hx]
      rcases h with h | h
      · rcases List.mem_cons.1 h with e | h
        · exact absurd e.symm hx
        · exact .inl h
      · exact .inr h

theorem get_mem {m : GoMap Bytes Sent} {k : Bytes} {v : Sent} (h : GoMap.get m k = some v) : v ∈ m.map (·.2) := by
  induction m with
  | nil => cases h
  | cons e m ih =>
    obtain ⟨a, b⟩ := e
    rw [GoMap.get_cons] at h
    split at h
    · cases h
      exact List.mem_map.2 ⟨(a, v), .head _, rfl⟩
    · exact List.mem_cons_of_mem _ (ih h)

/-- What functions that send start with: the application sends as itself, the user sends to it. -/
def Sending : Side → Bytes
  | .app => lit "SendAs"
  | .user => lit "SendTo"

/-- What functions that request start with. -/
def Requesting : Side → Bytes
  | .app => lit "RequestAs"
  | .user => lit "RequestTo"

theorem sending_eq (side : Side) : Sending side = sendWord side := by cases side <;> rfl

theorem requesting_eq (side : Side) : Requesting side = requestWord side := by cases side <;> rfl

/-- **C91** (v3). Every operation gets its functions, named after its key: to subscribe and unsubscribe, one of the
subscriber, and to reply if it has a reply, where the side receives; to send, and to request if it has a reply, where it
sends, provided its key is not the name of a reply channel. All methods have Go identifiers as names. -/
theorem C91_v3_complete_partial (u : Uni) (side : Side) (doc : List Op) (hk : (doc.map Op.key).Nodup)
    (hr : ∀ o ∈ doc, ∀ o' ∈ doc, sends side o = true → receives side o' = true → o'.reply ≠ some o.key) :
    ∃ c, code u side doc = some c ∧ (∀ m ∈ c.methods, Ident m) ∧
    ∀ o ∈ doc, ∃ n, namify u o.key = some n ∧
      (receives side o = true → lit "SubscribeTo" ++ (n ++ lit "Operation") ∈ c.methods ∧
        lit "UnsubscribeFrom" ++ (n ++ lit "Operation") ∈ c.methods ∧ n ++ lit "OperationReceived" ∈ c.handlers ∧
        (o.params = false → n ++ lit "OperationReceived" ∈ c.handlersUsed) ∧
        (o.reply ≠ none → lit "ReplyTo" ++ (n ++ lit "Operation") ∈ c.methods)) ∧
      (sends side o = true → Sending side ++ (n ++ lit "Operation") ∈ c.methods ∧
        (o.reply ≠ none → Requesting side ++ (n ++ lit "Operation") ∈ c.methods)) := by
  rw [sending_eq, requesting_eq]
  obtain ⟨recv, r1, r2⟩ := entries_some (declared u) (doc.filter (receives side)) (fun o _ => by
    obtain ⟨n, hn, -⟩ := C42_valid u o.key
    exact ⟨_, declared_eq u o n hn⟩)
  obtain ⟨send, s1, s2⟩ := entries_some (Sent.entry u) (sent side doc) (fun s _ => by
    obtain ⟨e, he, -⟩ := sent_entry u s
    exact ⟨e, he⟩)
  refine ⟨_, by unfold code; rw [r1, s1], ?_, ?_⟩
  · intro m hm
    obtain ⟨d, hd, rfl⟩ := List.mem_map.1 hm
    refine name_ident side d (fun n hdn => ?_)
    obtain ⟨e, he, rfl⟩ := decl_source hd n hdn
    clear hdn
    rcases List.mem_append.1 he with he | he
    · have : some e ∈ (doc.filter (receives side)).map (declared u) := by
        rw [← r2]
        exact List.mem_map.2 ⟨e, he, rfl⟩
      obtain ⟨o, -, hoe⟩ := List.mem_map.1 this
      obtain ⟨n, hn, -⟩ := C42_valid u o.key
      rw [declared_eq u o n hn, Option.some.injEq] at hoe
      subst hoe
      exact (Names.isName_append (isName_namify u hn) isName_operation).1
    · have : some e ∈ (sent side doc).map (Sent.entry u) := by
        rw [← s2]
        exact List.mem_map.2 ⟨e, he, rfl⟩
      obtain ⟨s, -, hse⟩ := List.mem_map.1 this
      cases s with
      | declared o =>
        obtain ⟨n, hn, -⟩ := C42_valid u o.key
        simp only [Sent.entry, declared_eq u o n hn, Option.some.injEq] at hse
        subst hse
        exact (Names.isName_append (isName_namify u hn) isName_operation).1
      | replyTo o =>
        obtain ⟨n, hn, -⟩ := C42_valid u o.key
        simp only [Sent.entry, replying_eq u o n hn, Option.some.injEq] at hse
        subst hse
        exact (Names.isName_append isName_replyTo (Names.isName_append (isName_namify u hn) isName_operation)).1
  · intro o ho
    obtain ⟨n, hn, -⟩ := C42_valid u o.key
    refine ⟨n, hn, fun hrc => ?_, fun hs => ?_⟩
    · have he : (⟨n ++ lit "Operation", o.params, o.reply.isSome⟩ : Entry) ∈ recv := by
        have : declared u o ∈ recv.map some := by
          rw [r2]
          exact List.mem_map.2 ⟨o, List.mem_filter.2 ⟨ho, hrc⟩, rfl⟩
        obtain ⟨e, he, h⟩ := List.mem_map.1 this
        rw [declared_eq u o n hn, Option.some.injEq] at h
        exact h ▸ he
      have hm : ∀ d ∈ recvDecls ⟨n ++ lit "Operation", o.params, o.reply.isSome⟩, d.name side ∈ (decls recv send).map (Decl.name side) :=
        fun d hd => List.mem_map.2 ⟨d, mem_decls.2 (.inr (.inr (.inl ⟨_, he, hd⟩))), rfl⟩
      have hh : handler ⟨n ++ lit "Operation", o.params, o.reply.isSome⟩ = n ++ lit "OperationReceived" := by
        simp only [handler, List.append_assoc]
        rfl
      refine ⟨hm (.sub _) (mem_recvDecls.2 (.inl rfl)), hm (.unsub _) (mem_recvDecls.2 (.inr (.inr (.inr rfl)))),
        List.mem_map.2 ⟨_, he, hh⟩, fun hp => List.mem_map.2 ⟨_, List.mem_filter.2 ⟨he, by simp [hp]⟩, hh⟩, fun hrep => ?_⟩
      exact hm (.reply _) (mem_recvDecls.2 (.inr (.inr (.inl ⟨by simpa [Option.isSome_iff_ne_none] using hrep, rfl⟩))))
    · have hg := sent_declared side o hs doc [] (by simp [GoMap.WF, GoMap.keys]) (fun o' ho' hne _ e => by
        have hinj : ∀ l : List Op, (l.map Op.key).Nodup → o ∈ l → o' ∈ l → o' = o := by
          intro l
          induction l with
          | nil => intro _ h; cases h
          | cons x l ih =>
            intro hnd k1 k2
            rw [List.map_cons, List.nodup_cons] at hnd
            rcases List.mem_cons.1 k1 with e1 | m1
            · rcases List.mem_cons.1 k2 with e2 | m2
              · rw [e1, e2]
              · exact absurd (List.mem_map.2 ⟨o', m2, by rw [e, e1]⟩) hnd.1
            · rcases List.mem_cons.1 k2 with e2 | m2
              · exact absurd (List.mem_map.2 ⟨o, m1, by rw [← e, e2]⟩) hnd.1
              · exact ih hnd.2 m1 m2
        exact hne (hinj doc hk ho ho')) (fun o' ho' h => hr o ho o' ho' hs h) (.inl ho)
      have hsm : Sent.declared o ∈ sent side doc := get_mem hg
      have he : (⟨n ++ lit "Operation", o.params, o.reply.isSome⟩ : Entry) ∈ send := by
        have : Sent.entry u (.declared o) ∈ send.map some := by
          rw [s2]
          exact List.mem_map.2 ⟨_, hsm, rfl⟩
        obtain ⟨e, he, h⟩ := List.mem_map.1 this
        simp only [Sent.entry, declared_eq u o n hn, Option.some.injEq] at h
        exact h ▸ he
      have hm : ∀ d ∈ sendDecls ⟨n ++ lit "Operation", o.params, o.reply.isSome⟩, d.name side ∈ (decls recv send).map (Decl.name side) :=
        fun d hd => List.mem_map.2 ⟨d, mem_decls.2 (.inr (.inr (.inr ⟨_, he, hd⟩))), rfl⟩
      refine ⟨hm (.send _) (mem_sendDecls.2 (.inl rfl)), fun hrep => ?_⟩
      exact hm (.request _) (mem_sendDecls.2 (.inr ⟨by simpa [Option.isSome_iff_ne_none] using hrep, .inl rfl⟩))

/-- A ping with its reply, and a notice. -/
def doc1 : List Op :=
  [⟨lit "ping", .receive, false, some (lit "PongChannel")⟩, ⟨lit "notify-users", .send, false, none⟩]

example : (doc1.map (fun o => namify uni0 o.key)).Nodup ∧ (storedKeys .app doc1).Nodup ∧
    (∀ o ∈ doc1, ∀ o' ∈ doc1, sends .app o = true → receives .app o' = true → o'.reply ≠ none →
      namify uni0 o.key ≠ (namify uni0 o'.key).map (lit "ReplyTo" ++ ·)) := by decide

example : (doc1.map Op.key).Nodup ∧
    ∀ o ∈ doc1, ∀ o' ∈ doc1, sends .app o = true → receives .app o' = true → o'.reply ≠ some o.key := by decide

example : (code uni0 .app doc1).map Code.methods = some (["wrapMiddlewares", "executeMiddlewares", "Close",
    "SubscribeToAllChannels", "UnsubscribeFromAllChannels", "SubscribeToPingOperation", "listenToPingOperationNextMessage",
    "ReplyToPingOperation", "UnsubscribeFromPingOperation", "SendAsNotifyUsersOperation",
    "SendAsReplyToPingOperation"].map lit) := by decide

example : (code uni0 .user doc1).map Code.methods = some (["wrapMiddlewares", "executeMiddlewares", "Close",
    "SubscribeToAllChannels", "UnsubscribeFromAllChannels", "SubscribeToNotifyUsersOperation",
    "listenToNotifyUsersOperationNextMessage", "UnsubscribeFromNotifyUsersOperation", "SendToPingOperation",
    "RequestToPingOperation", "waitForPingOperationNextResponse"].map lit) := by decide

/-- **C91 is violated** (v3) by an operation that sends and is named like the reply to another one. -/
theorem C91_violated_v3_reply_name : ∃ doc c, code uni0 .app doc = some c ∧ (doc.map (fun o => namify uni0 o.key)).Nodup ∧
    (storedKeys .app doc).Nodup ∧ ¬ c.methods.Nodup :=
  ⟨[⟨lit "ping", .receive, false, some (lit "PongChannel")⟩, ⟨lit "replyToPing", .send, false, none⟩], _, rfl,
    by decide, by decide, by decide⟩

/-- **C91 is violated** (v3) when two operations reply on the same channel: a method is called that is not declared. -/
theorem C91_violated_v3_shared : ∃ doc c, code uni0 .app doc = some c ∧ (doc.map (fun o => namify uni0 o.key)).Nodup ∧
    ¬ ∀ m ∈ c.called, m ∈ c.methods :=
  ⟨[⟨lit "ping", .receive, false, some (lit "PongChannel")⟩, ⟨lit "hello", .receive, false, some (lit "PongChannel")⟩], _, rfl,
    by decide, by decide⟩

/-- **C91 is violated** (v3) by different keys that have the same Go name. -/
theorem C91_violated_v3_keys : ∃ doc c, code uni0 .app doc = some c ∧ (doc.map Op.key).Nodup ∧ ¬ c.methods.Nodup ∧
    ¬ c.handlers.Nodup :=
  ⟨[⟨lit "user-created", .receive, false, none⟩, ⟨lit "userCreated", .receive, false, none⟩], _, rfl, by decide, by decide,
    by decide⟩

end V3

end Verif.Methods
