import Verif.Model.Shared
import Verif.Props.Names

/-!
# C69, C70: messages that share the headers of a trait
-/

namespace Verif.Shared
open Naming (Uni Bytes)
open Names

/-! ## What is said about the headers of a trait -/

/-- The addresses of what is below. -/
def Below.addrs : Below → List Nat
  | .nil => []
  | .cons _ a _ b rest => a :: (b.addrs ++ rest.addrs)

/-- The places below that need a type of their own: objects, directly or as the items of an array. -/
def Below.spots (inArray : Bool) : Below → List (List Step)
  | .nil => []
  | .cons s _ k b rest =>
    (if inArray && s ≠ .item then []
     else match k with
      | .object => [s] :: (b.spots false).map (s :: ·)
      | .array => if inArray then [] else (b.spots true).map (s :: ·)
      | .other => []) ++ rest.spots inArray

/-- The headers of a message, as a place of the document. -/
def Msg.root (m : Msg) : Root := .headers m.chan m.key

/-- A trait and messages as they can be in a document: all structures are different, no two messages have the same Go name,
no two places below the headers of the trait either. -/
structure Fine (u : Uni) (b : Below) (ms : List Msg) : Prop where
  addrs : (b.addrs ++ ms.map Msg.top).Nodup
  keys : ∀ m ∈ ms, RootKeysOk u m.root
  steps : ∀ p ∈ b.spots false, ∀ s ∈ p, StepOk u s
  places : ((b.spots false).map (·.map (place u))).Nodup
  roots : (ms.map (fun m => rootPlace u m.root)).Nodup

/-! ## The store -/

theorem Store.set_self (h : Store) (a : Nat) (n : Bytes) : h.set a n a = n := by simp [Store.set]

theorem Store.set_ne (h : Store) {a q : Nat} (n : Bytes) (hq : q ≠ a) : h.set a n q = h q := by simp [Store.set, hq]

/-- Only what is below gets a name. -/
theorem nameBelow_frame (u : Uni) : ∀ (b : Below) (p : Bytes) (h h' : Store), nameBelow u p b h = some h' →
    ∀ q, q ∉ b.addrs → h' q = h q
  | .nil, p, h, h', e, q, _ => by
    cases e
    rfl
  | .cons s a k b rest, p, h, h', e, q, hq => by
    simp only [Below.addrs, List.mem_cons, List.mem_append, not_or] at hq
    simp only [nameBelow] at e
    split at e
    · cases e
    · rename_i n hn
      split at e
      · cases e
      · rename_i h1 hb
        rw [nameBelow_frame u rest p h1 h' e q hq.2.2, nameBelow_frame u b n _ h1 hb q hq.2.1, Store.set_ne _ _ hq.1]

/-- Declarations depend on the names below only. -/
theorem declsBelow_congr (h h' : Store) : ∀ (b : Below) (ia : Bool), (∀ q ∈ b.addrs, h q = h' q) →
    declsBelow h ia b = declsBelow h' ia b
  | .nil, _, _ => rfl
  | .cons s a k b rest, ia, hq => by
    simp only [Below.addrs, List.mem_cons, List.mem_append] at hq
    simp only [declsBelow]
    rw [declsBelow_congr h h' b false (fun q m => hq q (.inr (.inl m))),
      declsBelow_congr h h' b true (fun q m => hq q (.inr (.inl m))),
      declsBelow_congr h h' rest ia (fun q m => hq q (.inr (.inr m))), hq a (.inl rfl)]

/-- After naming, every place below has the name of its path. -/
theorem nameBelow_decls (u : Uni) : ∀ (b : Below) (p : Bytes) (h h' : Store) (ia : Bool), b.addrs.Nodup →
    nameBelow u p b h = some h' → (declsBelow h' ia b).map some = (b.spots ia).map (nameAt u p)
  | .nil, p, h, h', ia, _, _ => rfl
  | .cons s a k b rest, p, h, h', ia, hnd, e => by
    simp only [Below.addrs, List.nodup_cons, List.mem_append, not_or, List.nodup_append] at hnd
    obtain ⟨⟨hab, har⟩, hb, hr, hdis⟩ := hnd
    simp only [nameBelow] at e
    split at e
    · cases e
    · rename_i n hn
      split at e
      · cases e
      · rename_i h1 e1
        have ha : h' a = n := by
          rw [nameBelow_frame u rest p h1 h' e a har, nameBelow_frame u b n _ h1 e1 a hab, Store.set_self]
        have hsame : ∀ i, declsBelow h' i b = declsBelow h1 i b := fun i =>
          declsBelow_congr h' h1 b i (fun q hq => nameBelow_frame u rest p h1 h' e q (fun hm => hdis q hq q hm rfl))
        have ihb : ∀ i, (declsBelow h1 i b).map some = (b.spots i).map (nameAt u n) := fun i => nameBelow_decls u b n _ h1 i hb e1
        have ihr := nameBelow_decls u rest p h1 h' ia hr e
        have hstep : ∀ i, ((b.spots i).map (s :: ·)).map (nameAt u p) = (b.spots i).map (nameAt u n) := by
          intro i
          rw [List.map_map]
          refine List.map_congr_left (fun x _ => ?_)
          simp only [Function.comp, nameAt, hn]
        simp only [declsBelow, Below.spots, List.map_append, ihr, List.append_cancel_right_eq]
        by_cases hc : (ia && decide (s ≠ .item)) = true
        · rw [if_pos hc, if_pos hc]
          rfl
        · rw [if_neg hc, if_neg hc]
          cases k with
          | object =>
            simp only [List.map_cons, hsame, ihb, hstep, ha]
            rw [show nameAt u p [s] = some n by simp only [nameAt, hn]]
          | array =>
            cases ia with
            | true => rfl
            | false =>
              simp only [Bool.false_eq_true, if_false, hsame, ihb, hstep]
          | other => rfl

theorem spots_ne : ∀ (b : Below) (ia : Bool), ∀ q ∈ b.spots ia, q ≠ []
  | .nil, _, _, hq => nomatch hq
  | .cons s a k b rest, ia, q, hq => by
    simp only [Below.spots, List.mem_append] at hq
    rcases hq with hq | hq
    · split at hq
      · cases hq
      · cases k with
        | object =>
          simp only [List.mem_cons, List.mem_map] at hq
          rcases hq with rfl | ⟨x, _, rfl⟩ <;> simp
        | array =>
          cases ia with
          | true => cases hq
          | false =>
            simp only [Bool.false_eq_true, if_false, List.mem_map] at hq
            obtain ⟨x, _, rfl⟩ := hq
            simp
        | other => cases hq
    · exact spots_ne rest ia q hq

theorem nodup_of_map {α β γ : Type} (f : α → β) (g : α → γ) : ∀ l : List α, (l.map f).Nodup →
    (∀ a ∈ l, ∀ b ∈ l, g a = g b → f a = f b) → (l.map g).Nodup
  | [], _, _ => List.nodup_nil
  | x :: xs, h, hg => by
    rw [List.map_cons, List.nodup_cons] at h ⊢
    refine ⟨fun hm => ?_, nodup_of_map f g xs h.2 (fun a ha b hb => hg a (List.mem_cons_of_mem _ ha) b (List.mem_cons_of_mem _ hb))⟩
    obtain ⟨y, hy, e⟩ := List.mem_map.1 hm
    exact h.1 (List.mem_map.2 ⟨y, hy, hg y (List.mem_cons_of_mem _ hy) x (List.mem_cons_self ..) e⟩)

/-! ## Messages one after the other -/

theorem takeHeaders_root {u : Uni} {b : Below} {m : Msg} {h h' : Store} (e : takeHeaders u b m h = some h') :
    ∃ n, rootName u m.root = some n ∧ nameBelow u n b (h.set m.top n) = some h' := by
  unfold takeHeaders at e
  split at e
  · cases e
  · rename_i mn hm
    split at e
    · cases e
    · rename_i n hn
      refine ⟨n, ?_, e⟩
      simp only [Msg.root, rootName, hm, Option.bind_some, hn]

/-- The top of a message keeps the name it got. -/
theorem takeAll_frame (u : Uni) (b : Below) : ∀ (ms : List Msg) (h h' : Store), takeAll u b ms h = some h' →
    ∀ q, q ∉ b.addrs → q ∉ ms.map Msg.top → h' q = h q
  | [], h, h', e, q, _, _ => by
    cases e
    rfl
  | m :: ms, h, h', e, q, hb, ht => by
    simp only [takeAll] at e
    split at e
    · cases e
    · rename_i h1 e1
      obtain ⟨n, _, e2⟩ := takeHeaders_root e1
      simp only [List.map_cons, List.mem_cons, not_or] at ht
      rw [takeAll_frame u b ms h1 h' e q hb ht.2, nameBelow_frame u b n _ h1 e2 q hb, Store.set_ne _ _ ht.1]

theorem takeAll_tops (u : Uni) (b : Below) : ∀ (ms : List Msg) (h h' : Store), (b.addrs ++ ms.map Msg.top).Nodup →
    takeAll u b ms h = some h' → ∀ m ∈ ms, rootName u m.root = some (h' m.top)
  | [], _, _, _, _, _, hm => nomatch hm
  | m :: ms, h, h', hnd, e, x, hx => by
    simp only [takeAll] at e
    split at e
    · cases e
    · rename_i h1 e1
      obtain ⟨n, hn, e2⟩ := takeHeaders_root e1
      rw [List.nodup_append] at hnd
      obtain ⟨hb, ht, hdis⟩ := hnd
      rw [List.map_cons, List.nodup_cons] at ht
      rcases List.mem_cons.1 hx with rfl | hx
      · have hnb : x.top ∉ b.addrs := fun hmem => hdis _ hmem _ (List.mem_cons_self ..) rfl
        rw [takeAll_frame u b ms h1 h' e x.top hnb ht.1, nameBelow_frame u b n _ h1 e2 _ hnb, Store.set_self, hn]
      · refine takeAll_tops u b ms h1 h' ?_ e x hx
        rw [List.nodup_append]
        exact ⟨hb, ht.2, fun q hq r hr => hdis q hq r (List.mem_cons_of_mem _ hr)⟩

/-- What is below is named after the message that was processed last. -/
theorem takeAll_last (u : Uni) (b : Below) (hb : b.addrs.Nodup) (m : Msg) : ∀ (ms : List Msg) (h h' : Store),
    takeAll u b (ms ++ [m]) h = some h' → (declsBelow h' false b).map some = (b.spots false).map (docName u m.root)
  | [], h, h', e => by
    simp only [List.nil_append, takeAll] at e
    split at e
    · cases e
    · rename_i h1 e1
      cases e
      obtain ⟨n, hn, e2⟩ := takeHeaders_root e1
      rw [nameBelow_decls u b n _ h' false hb e2]
      refine List.map_congr_left (fun x _ => ?_)
      simp only [docName, hn, Option.bind_some]
  | x :: ms, h, h', e => by
    simp only [List.cons_append, takeAll] at e
    split at e
    · cases e
    · rename_i h1 e1
      exact takeAll_last u b hb m ms h1 h' e

/-- The declarations of all messages: each has its own headers, and all have what is below under the names of the message
processed last. -/
theorem declsAll_eq (u : Uni) (b : Below) (ms : List Msg) (m : Msg) (h h' : Store) (hf : Fine u b (ms ++ [m]))
    (e : takeAll u b (ms ++ [m]) h = some h') (file : List Msg) (hp : file.Perm (ms ++ [m])) :
    (declsAll h' b file).map some =
      file.flatMap (fun x => docName u x.root [] :: (b.spots false).map (docName u m.root)) := by
  have hb : b.addrs.Nodup := (List.nodup_append.1 hf.addrs).1
  have hl := takeAll_last u b hb m ms h h' e
  have ht := takeAll_tops u b _ h h' hf.addrs e
  unfold declsAll
  rw [List.map_flatMap]
  have : ∀ x ∈ file, (declsMsg h' b x).map some = docName u x.root [] :: (b.spots false).map (docName u m.root) := by
    intro x hx
    simp only [declsMsg, List.map_cons, hl]
    rw [show docName u x.root [] = some (h' x.top) by
      simp only [docName, ht x (hp.mem_iff.1 hx), Option.bind_some, nameAt]]
  clear hp
  induction file with
  | nil => rfl
  | cons y ys ih =>
    rw [List.flatMap_cons, List.flatMap_cons, this y (List.mem_cons_self ..), ih (fun x hx => this x (List.mem_cons_of_mem _ hx))]

theorem flatMap_one {α β : Type} (f : α → β) : ∀ l : List α, l.flatMap (fun x => [f x]) = l.map f
  | [] => rfl
  | x :: xs => by rw [List.flatMap_cons, flatMap_one f xs]; rfl

theorem inj_of_nodup {α β : Type} (f : α → β) : ∀ l : List α, (l.map f).Nodup → ∀ a ∈ l, ∀ b ∈ l, f a = f b → a = b
  | [], _, _, ha, _, _, _ => nomatch ha
  | x :: xs, h, a, ha, b, hb, e => by
    rw [List.map_cons, List.nodup_cons] at h
    rcases List.mem_cons.1 ha with ea | ha' <;> rcases List.mem_cons.1 hb with eb | hb'
    · rw [ea, eb]
    · exact (h.1 (List.mem_map.2 ⟨b, hb', by rw [← e, ea]⟩)).elim
    · exact (h.1 (List.mem_map.2 ⟨a, ha', by rw [e, eb]⟩)).elim
    · exact inj_of_nodup f xs h.2 a ha' b hb' e

/-- **C69, traits.** When messages take their headers from one trait, no type is declared twice exactly when there is one
message, or the headers of the trait have no object inside. Missing for the full claim: see `C69_violated_traits`. -/
theorem C69_traits_partial (u : Uni) (b : Below) (ms : List Msg) (h h' : Store) (hf : Fine u b ms)
    (e : takeAll u b ms h = some h') (file : List Msg) (hp : file.Perm ms) :
    (declsAll h' b file).Nodup ↔ ms.length ≤ 1 ∨ b.spots false = [] := by
  cases hms : ms.reverse with
  | nil =>
    have : ms = [] := List.reverse_eq_nil_iff.1 hms
    subst this
    rw [hp.eq_nil]
    simp [declsAll]
  | cons m rest =>
    have : ms = rest.reverse ++ [m] := by
      rw [← List.reverse_reverse ms, hms, List.reverse_cons]
    subst this
    have key := declsAll_eq u b _ m h h' hf e file hp
    have hkeys : ∀ x ∈ file, RootKeysOk u x.root := fun x hx => hf.keys x (hp.mem_iff.1 hx)
    have hroots : (file.map (fun m => rootPlace u m.root)).Nodup := (hp.map _).nodup_iff.2 hf.roots
    have hlen : file.length = (rest.reverse ++ [m]).length := hp.length_eq
    have hmk : RootKeysOk u m.root := hf.keys m (by simp)
    rw [← hlen]
    have inj : (declsAll h' b file).Nodup ↔ ((declsAll h' b file).map some).Nodup := by
      constructor
      · intro hn
        exact List.Pairwise.map _ (fun a b hab he => hab (Option.some.inj he)) hn
      · intro hn
        exact List.Pairwise.of_map _ (fun a b hab he => hab (congrArg some he)) hn
    rw [inj, key]
    constructor
    · intro hn
      by_cases hl : file.length ≤ 1
      · exact .inl hl
      · refine .inr ?_
        match file, hl, hn with
        | x :: y :: zs, _, hn =>
          simp only [List.flatMap_cons] at hn
          rw [List.nodup_append] at hn
          cases hs : b.spots false with
          | nil => rfl
          | cons p ps =>
            exfalso
            refine hn.2.2 (docName u m.root p) ?_ (docName u m.root p) ?_ rfl
            · rw [hs]; simp
            · rw [hs]; simp
        | [_], hl, _ => exact absurd (Nat.le_refl _) hl
        | [], hl, _ => exact absurd (Nat.zero_le _) hl
    · rintro (hl | hs)
      · match file, hl, hp with
        | [], _, _ => exact List.nodup_nil
        | [x], _, hp =>
          have hx : x = m := by
            have : m ∈ [x] := hp.mem_iff.2 (by simp)
            exact (List.mem_singleton.1 this).symm
          subst hx
          simp only [List.flatMap_cons, List.flatMap_nil, List.append_nil]
          rw [← List.map_cons (f := docName u x.root)]
          have hpl : (([] :: b.spots false).map (·.map (place u))).Nodup := by
            rw [List.map_cons, List.nodup_cons]
            refine ⟨fun hm => ?_, hf.places⟩
            obtain ⟨q, hq, hq0⟩ := List.mem_map.1 hm
            have : q = [] := by simpa using hq0
            exact spots_ne b false q hq this
          have st : ∀ q ∈ [] :: b.spots false, ∀ s ∈ q, StepOk u s := by
            intro q hq
            rcases List.mem_cons.1 hq with rfl | hq
            · exact fun _ h => nomatch h
            · exact hf.steps q hq
          exact nodup_of_map _ _ _ hpl (fun q hq r hr hee =>
            ((C69_names_partial u x.root x.root q r hmk hmk (st q hq) (st r hr)).2 hee).2)
        | _ :: _ :: _, hl, _ => simp at hl
      · rw [hs]
        simp only [List.map_nil]
        rw [flatMap_one]
        exact nodup_of_map _ _ _ hroots (fun q hq r hr hee => ((C69_names_partial u q.root r.root [] [] (hkeys q hq)
          (hkeys r hr) (fun _ h => nomatch h) (fun _ h => nomatch h)).2 hee).1)

/-- **C69 is violated** by traits: as soon as two messages take their headers from a trait with an object inside, its type
is declared twice, in whatever order the messages are processed and written. -/
theorem C69_violated_traits (u : Uni) (b : Below) (ms : List Msg) (h h' : Store) (hf : Fine u b ms)
    (e : takeAll u b ms h = some h') (file : List Msg) (hp : file.Perm ms) (h2 : 2 ≤ ms.length) (hs : b.spots false ≠ []) :
    ¬ (declsAll h' b file).Nodup := fun hn =>
  ((C69_traits_partial u b ms h h' hf e file hp).1 hn).elim (fun h1 => absurd h1 (by omega)) hs

/-- **C70 is violated** by traits: processed in one order or in another, with another message at the end, the same messages
and the same trait lead to types of which none is declared, below headers, under the same name. The order is that of a map
in memory. -/
theorem C70_violated_traits (u : Uni) (b : Below) (ms ms' : List Msg) (m m' : Msg) (h h1 h2 : Store)
    (hf : Fine u b (ms ++ [m])) (hp : (ms ++ [m]).Perm (ms' ++ [m'])) (hm : m ≠ m')
    (e1 : takeAll u b (ms ++ [m]) h = some h1) (e2 : takeAll u b (ms' ++ [m']) h = some h2) :
    ∀ n ∈ declsBelow h1 false b, n ∉ declsBelow h2 false b := by
  intro n hn hn'
  have hb : b.addrs.Nodup := (List.nodup_append.1 hf.addrs).1
  have l1 := takeAll_last u b hb m ms h h1 e1
  have l2 := takeAll_last u b hb m' ms' h h2 e2
  have i1 : some n ∈ (declsBelow h1 false b).map some := List.mem_map.2 ⟨n, hn, rfl⟩
  have i2 : some n ∈ (declsBelow h2 false b).map some := List.mem_map.2 ⟨n, hn', rfl⟩
  rw [l1] at i1
  rw [l2] at i2
  obtain ⟨p, hp1, hpn⟩ := List.mem_map.1 i1
  obtain ⟨q, hq1, hqn⟩ := List.mem_map.1 i2
  have mm : m ∈ ms ++ [m] := by simp
  have mm' : m' ∈ ms ++ [m] := hp.mem_iff.2 (by simp)
  have hr := ((C69_names_partial u m.root m'.root p q (hf.keys m mm) (hf.keys m' mm') (hf.steps p hp1) (hf.steps q hq1)).2
    (hpn.trans hqn.symm)).1
  exact hm (inj_of_nodup (fun m => rootPlace u m.root) _ hf.roots m mm m' mm' hr)

/-! ## Two messages and a trait -/

/-- Headers with an object `origin` that has a `host`, and a list of objects `hops`. -/
def exBelow : Below :=
  .cons (.prop (lit "origin")) 1 .object (.cons (.prop (lit "host")) 2 .other .nil .nil)
    (.cons (.prop (lit "hops")) 3 .array (.cons .item 4 .object .nil .nil) .nil)

def ping : Msg := ⟨none, lit "ping", 10⟩
def pong : Msg := ⟨none, lit "pong", 11⟩

theorem exFine : Fine uni0 exBelow [ping, pong] where
  addrs := by decide
  keys := by
    intro m hm
    simp only [List.mem_cons, List.not_mem_nil, or_false] at hm
    rcases hm with rfl | rfl
    · exact ⟨keyOk_lit _ _ (by decide), nofun⟩
    · exact ⟨keyOk_lit _ _ (by decide), nofun⟩
  steps := by
    intro p hp
    have hs : exBelow.spots false = [[.prop (lit "origin")], [.prop (lit "hops"), .item]] := by decide
    rw [hs] at hp
    simp only [List.mem_cons, List.not_mem_nil, or_false] at hp
    rcases hp with rfl | rfl
    · intro s hs
      simp only [List.mem_cons, List.not_mem_nil, or_false] at hs
      subst hs
      exact keyOk_lit _ _ (by decide)
    · intro s hs
      simp only [List.mem_cons, List.not_mem_nil, or_false] at hs
      rcases hs with rfl | rfl
      · exact keyOk_lit _ _ (by decide)
      · trivial
  places := by decide
  roots := by decide

/-- The names, after `ping` then `pong`. -/
example : (takeAll uni0 exBelow [ping, pong] (fun _ => [])).map (fun h => declsAll h exBelow [ping, pong]) = some
    [lit "HeadersFromPingMessage", lit "OriginPropertyFromHeadersFromPongMessage",
      lit "ItemFromHopsPropertyFromHeadersFromPongMessage",
      lit "HeadersFromPongMessage", lit "OriginPropertyFromHeadersFromPongMessage",
      lit "ItemFromHopsPropertyFromHeadersFromPongMessage"] := by decide

example : (takeAll uni0 exBelow [pong, ping] (fun _ => [])).isSome = true := by decide

end Verif.Shared
