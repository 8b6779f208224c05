import Verif.Model.Idents2
import Verif.Props.Idents

/-! # C97 for AsyncAPI v2: when a name is declared twice -/

namespace Verif.Idents.V2
open Naming (Uni Bytes namify namifyWithoutParams IsName Ascii namify_name namify_ascii cap finish isAlnum up cap_alnum isUpper_facts)
open Names
open Methods (Ident ident_lit ident_append)

/-! ## What is asked of a document, and its Go names -/

/-- The Go names of the messages written in a channel: that of the channel, followed by `Subscribe` or `Publish` if the
channel has both operations. -/
def Chan.go (u : Uni) (c : Chan) : List (Option Bytes) :=
  match c.subscribe, c.publish with
  | some s, some p => (if s.message.isSome then [(namify u c.key).map (· ++ lit "Subscribe")] else []) ++
      (if p.message.isSome then [(namify u c.key).map (· ++ lit "Publish")] else [])
  | some o, none | none, some o => if o.message.isSome then [namify u c.key] else []
  | none, none => []

/-- The Go names of all messages with a type; those of the components have the names of their keys. -/
def Doc.go (u : Uni) (d : Doc) : List (Option Bytes) := d.channels.flatMap (Chan.go u) ++ d.messages.map (fun e => namify u e.1)

/-- All keys are ASCII. -/
structure DocOk (d : Doc) : Prop where
  channels : ∀ c ∈ d.channels, Ascii c.key
  messages : ∀ e ∈ d.messages, Ascii e.1
  schemas : ∀ k ∈ d.schemas, Ascii k

/-- The Go names of the channels differ, those of the messages differ, those of the schemas differ, and no two messages
are called `X` and `NewX`. -/
structure Distinct (u : Uni) (d : Doc) : Prop where
  channels : (d.channels.map (fun c => namify u c.key)).Nodup
  messages : (d.go u).Nodup
  schemas : (d.schemas.map (namify u)).Nodup
  new : ¬ ∃ n, some n ∈ d.go u ∧ some (lit "New" ++ n) ∈ d.go u

/-! ## The names -/

def Src.go (u : Uni) : Src → Option Bytes
  | .op c suffix => (namify u c).map (· ++ suffix)
  | .comp k => namify u k

theorem written_go (u : Uni) (c suf : Bytes) (o : Op) : (written c suf (some o)).map (fun e => e.1.go u) =
    if o.message.isSome then [(namify u c).map (· ++ suf)] else [] := by
  rcases o with ⟨_ | m⟩ <;> rfl

theorem chan_go (u : Uni) (c : Chan) : c.written.map (fun e => e.1.go u) = c.go u := by
  have e : (namify u c.key).map (· ++ []) = namify u c.key := by cases namify u c.key <;> simp
  unfold Chan.written Chan.go
  cases c.subscribe <;> cases c.publish <;>
    simp only [Option.isSome_some, Option.isSome_none, Bool.and_self, Bool.and_false, Bool.false_and, if_true, Bool.false_eq_true,
      if_false, List.map_append, written_go, e]
  · rfl
  · rfl
  · exact List.append_nil _

theorem doc_go (u : Uni) (d : Doc) : d.written.map (fun e => e.1.go u) = d.go u := by
  unfold Doc.written Doc.go
  rw [List.map_append, List.map_flatMap, List.map_map]
  simp only [chan_go]
  rfl

theorem cap_append_name (p : Nat) (a : Bytes) {n : Bytes} (h : IsName n) : cap p (a ++ n) = cap p a ++ n := by
  induction a generalizing p with
  | nil =>
    cases n with
    | nil => rfl
    | cons b t =>
      obtain ⟨_, hu, ha⟩ := isUpper_facts (h.2 b t rfl)
      simp only [List.nil_append, cap, hu, ite_self]
      rw [cap_alnum t b ha (fun c hc => h.1 c (List.mem_cons_of_mem _ hc))]
  | cons b s ih => simp only [List.cons_append, cap, ih]

theorem namify_append (u : Uni) (a n : Bytes) (ha : Ascii a) (hn : IsName n) : namify u (a ++ n) = (namify u a).map (· ++ n) := by
  rw [namify_ascii u _ (ascii_append ha (ascii_name hn)), namify_ascii u a ha, cap_append_name _ _ hn, finish_append _ n hn]
  rfl

/-- The Go name of an ASCII key. -/
def g (k : Bytes) : Bytes := finish (cap 95 k)

theorem namify_g (u : Uni) {k : Bytes} (h : Ascii k) : namify u k = some (g k) := namify_ascii u k h

theorem isName_g (k : Bytes) : IsName (g k) := ⟨Naming.finish_alnum _, Naming.finish_head _⟩

def SrcOk : Src → Prop
  | .op c s => Ascii c ∧ s ∈ [[], lit "Subscribe", lit "Publish"]
  | .comp k => Ascii k

def G : Src → Bytes
  | .op c s => g c ++ s
  | .comp k => g k

theorem isName_of {n : Bytes} (h : (n.all isAlnum && n.head?.all Naming.isUpper) = true) : IsName n := by
  simp only [Bool.and_eq_true, List.all_eq_true] at h
  refine ⟨h.1, fun b t e => ?_⟩
  have := h.2
  rw [e] at this
  exact this

theorem isName_suffix {s : Bytes} (h : s ∈ [[], lit "Subscribe", lit "Publish"]) : IsName s := by
  have : ∀ s ∈ [[], lit "Subscribe", lit "Publish"], (s.all isAlnum && s.head?.all Naming.isUpper) = true := by decide
  exact isName_of (this s h)

theorem isName_G {s : Src} (h : SrcOk s) : IsName (G s) := by
  cases s with
  | op c s => exact isName_append (isName_g c) (isName_suffix h.2)
  | comp k => exact isName_g k

theorem go_G (u : Uni) {s : Src} (h : SrcOk s) : s.go u = some (G s) := by
  cases s with
  | op c s => simp [Src.go, namify_g u h.1, G]
  | comp k => exact namify_g u h

theorem isName_message : IsName (lit "Message") := isName_of (by decide)

theorem src_name (u : Uni) {s : Src} (h : SrcOk s) : s.name u = some (G s ++ lit "Message") := by
  cases s with
  | op c s =>
    have hn : IsName (g c ++ s) := isName_append (isName_g c) (isName_suffix h.2)
    unfold Src.name Src.raw
    dsimp only
    rw [namify_g u h.1, Option.bind_some, namify_name u hn, Option.bind_some, namify_append u _ _ (ascii_name hn) isName_message,
      namify_name u hn]
    rfl
  | comp k =>
    unfold Src.name Src.raw
    rw [Option.bind_some, namify_append u _ _ h isName_message, namify_g u h]
    rfl

def DeclOk : Decl → Prop
  | .fixed n => n ∈ fixedNames
  | .message s | .new s | .decode s | .payload s | .headers s => SrcOk s
  | .schema k => Ascii k
  | .params c | .path c => Ascii c

/-- The name of a declaration, for ASCII keys. -/
def ex : Decl → Bytes
  | .fixed n => n
  | .message s => G s ++ lit "Message"
  | .new s => lit "New" ++ (G s ++ lit "Message")
  | .decode s => lit "brokerMessageTo" ++ (G s ++ lit "Message")
  | .payload s => (G s ++ lit "Message") ++ lit "Payload"
  | .headers s => (G s ++ lit "Message") ++ lit "Headers"
  | .schema k => g k ++ lit "Schema"
  | .params c => g c ++ lit "Parameters"
  | .path c => g c ++ lit "Path"

theorem name_ex (u : Uni) {d : Decl} (h : DeclOk d) : d.name u = some (ex d) := by
  have sep : ∀ (a n : Bytes), Ascii a → IsName n → namify u (a ++ (95 :: n)) = (namify u a).map (· ++ n) :=
    fun a n ha hn => namify_sep u a n ha hn
  cases d with
  | fixed n => rfl
  | message s =>
    have hn := isName_append (isName_G h) isName_message
    simp only [Decl.name, src_name u h, Option.bind_some, namify_name u hn, ex]
  | new s =>
    have hn := isName_append (isName_G h) isName_message
    simp only [Decl.name, src_name u h, Option.bind_some, namify_name u hn, ex, Option.map_some]
  | decode s =>
    have hn := isName_append (isName_G h) isName_message
    simp only [Decl.name, src_name u h, Option.bind_some, namify_name u hn, ex, Option.map_some]
  | payload s =>
    have hn := isName_append (isName_G h) isName_message
    have hp : IsName (lit "Payload") := isName_of (by decide)
    have e : lit "_Payload" = 95 :: lit "Payload" := by decide
    simp only [Decl.name, src_name u h, Option.bind_some, e, sep _ _ (ascii_name hn) hp, namify_name u hn, Option.map_some,
      namify_name u (isName_append hn hp), ex]
  | headers s =>
    have hn := isName_append (isName_G h) isName_message
    have hp : IsName (lit "Headers") := isName_of (by decide)
    have e : lit "_Headers" = 95 :: lit "Headers" := by decide
    simp only [Decl.name, src_name u h, Option.bind_some, e, sep _ _ (ascii_name hn) hp, namify_name u hn, Option.map_some,
      namify_name u (isName_append hn hp), ex]
  | schema k =>
    have hp : IsName (lit "Schema") := isName_of (by decide)
    have e : lit "_Schema" = 95 :: lit "Schema" := by decide
    simp only [Decl.name, e, sep _ _ h hp, namify_g u h, Option.map_some, Option.bind_some,
      namify_name u (isName_append (isName_g k) hp), ex]
  | params c => simp only [Decl.name, namify_g u h, Option.bind_some, namifyWP_name u (isName_g c), Option.map_some, ex]
  | path c => simp only [Decl.name, namify_g u h, Option.bind_some, namifyWP_name u (isName_g c), Option.map_some, ex]

/-! ## What the letters tell -/

def tagOf (e : Bytes) (decodes : Bool) : Nat :=
  if e = (lit "sage").reverse then (if decodes then 2 else 1)
  else if e = (lit "load").reverse then 3 else if e = (lit "ders").reverse then 4 else if e = (lit "hema").reverse then 5
  else if e = (lit "ters").reverse then 6 else if e = (lit "Path").reverse then 7 else 0

/-- The last four letters, and the first. -/
def tag (n : Bytes) : Nat := tagOf (n.reverse.take 4) (n.head? == some 98)

def kind : Decl → Nat
  | .fixed _ => 0
  | .message _ | .new _ => 1
  | .decode _ => 2
  | .payload _ => 3
  | .headers _ => 4
  | .schema _ => 5
  | .params _ => 6
  | .path _ => 7

theorem tag_name (a b e : Bytes) {t : Nat} (hn : IsName (a ++ b)) (h : b.reverse.take 4 = e) (hl : 4 ≤ b.length)
    (ht : tagOf e false = t) : tag (a ++ b) = t := by
  have h1 : (a ++ b).reverse.take 4 = e := by
    rw [List.reverse_append, List.take_append_of_le_length (by simpa using hl), h]
  have h2 : ((a ++ b).head? == some 98) = false := by simpa using head_name hn
  unfold tag
  rw [h1, h2, ht]

theorem fixed_facts2 : ∀ n ∈ fixedNames, tag n = 0 ∧
    (n.all isAlnum && n.head?.any (fun b => Naming.isUpper b || Naming.isLower b)) = true := by decide

theorem ex_ident {d : Decl} (h : DeclOk d) : Ident (ex d) ∧ tag (ex d) = kind d := by
  have ne : ∀ (a b : Bytes), b ≠ [] → a ++ b ≠ [] := fun a b hb e => hb (List.append_eq_nil_iff.1 e).2
  cases d with
  | fixed n => exact ⟨ident_lit (fixed_facts2 n h).2, (fixed_facts2 n h).1⟩
  | message s =>
    have hn := isName_append (isName_G h) isName_message
    exact ⟨ident_name hn (ne _ _ (by decide)), tag_name _ _ _ hn rfl (by decide) rfl⟩
  | new s =>
    have hn := isName_append (isName_of (n := lit "New") (by decide)) (isName_append (isName_G h) isName_message)
    refine ⟨ident_name hn (ne _ _ (ne _ _ (by decide))), ?_⟩
    have e : ex (.new s) = (lit "New" ++ G s) ++ lit "Message" := (List.append_assoc ..).symm
    rw [e]
    rw [← List.append_assoc] at hn
    exact tag_name _ _ _ hn rfl (by decide) rfl
  | decode s =>
    have hn := isName_append (isName_G h) isName_message
    refine ⟨ident_append (ident_lit (by decide)) hn.1, ?_⟩
    have e : (lit "brokerMessageTo" ++ (G s ++ lit "Message")).reverse.take 4 = (lit "sage").reverse := by
      rw [← List.append_assoc, List.reverse_append, List.take_append_of_le_length (by decide)]
      decide
    show tagOf ((lit "brokerMessageTo" ++ (G s ++ lit "Message")).reverse.take 4) true = 2
    rw [e]
    decide
  | payload s =>
    have hn := isName_append (isName_append (isName_G h) isName_message) (isName_of (n := lit "Payload") (by decide))
    exact ⟨ident_name hn (ne _ _ (by decide)), tag_name _ _ _ hn rfl (by decide) rfl⟩
  | headers s =>
    have hn := isName_append (isName_append (isName_G h) isName_message) (isName_of (n := lit "Headers") (by decide))
    exact ⟨ident_name hn (ne _ _ (by decide)), tag_name _ _ _ hn rfl (by decide) rfl⟩
  | schema k =>
    have hn := isName_append (isName_g k) (isName_of (n := lit "Schema") (by decide))
    exact ⟨ident_name hn (ne _ _ (by decide)), tag_name _ _ _ hn rfl (by decide) rfl⟩
  | params c =>
    have hn := isName_append (isName_g c) (isName_of (n := lit "Parameters") (by decide))
    exact ⟨ident_name hn (ne _ _ (by decide)), tag_name _ _ _ hn rfl (by decide) rfl⟩
  | path c =>
    have hn := isName_append (isName_g c) (isName_of (n := lit "Path") (by decide))
    exact ⟨ident_name hn (ne _ _ (by decide)), tag_name _ _ _ hn rfl (by decide) rfl⟩

/-! ## Blocks of declarations -/

theorem names_ex (u : Uni) : ∀ ds : List Decl, (∀ d ∈ ds, DeclOk d) → names u ds = some (ds.map ex)
  | [], _ => rfl
  | d :: ds, h => by
    simp only [names, name_ex u (h d (.head _)), names_ex u ds (fun x hx => h x (.tail _ hx)), List.map_cons]

/-- A file that starts with declarations of one kind. -/
theorem nodup_block (t : Nat) (l m : List Decl) (hl : ∀ d ∈ l, DeclOk d ∧ kind d = t) (hm : ∀ d ∈ m, DeclOk d ∧ t < kind d) :
    ((l ++ m).map ex).Nodup ↔ (l.map ex).Nodup ∧ (m.map ex).Nodup := by
  rw [List.map_append, List.nodup_append]
  refine ⟨fun h => ⟨h.1, h.2.1⟩, fun h => ⟨h.1, h.2, fun x hx y hy e => ?_⟩⟩
  obtain ⟨a, ha, rfl⟩ := List.mem_map.1 hx
  obtain ⟨b, hb, rfl⟩ := List.mem_map.1 hy
  have h1 := (ex_ident (hl a ha).1).2
  have h2 := (ex_ident (hm b hb).1).2
  have h3 := (hl a ha).2
  have h4 := (hm b hb).2
  rw [e] at h1
  omega

theorem nodup_map_cancel {α β γ : Type} (f : α → β) (c : β → γ) (hc : ∀ x y, c x = c y → x = y) (l : List α) :
    (l.map (fun a => c (f a))).Nodup ↔ (l.map f).Nodup := by
  unfold List.Nodup
  rw [List.pairwise_map, List.pairwise_map]
  exact ⟨fun h => h.imp (fun h e => h (by rw [e])), fun h => h.imp (fun h e => h (hc _ _ e))⟩

/-- The declarations of the messages, kind after kind. -/
theorem messages_perm (l : List (Src × Msg)) : (l.flatMap ofMessage).Perm
    ((l.map (fun e => .message e.1) ++ l.map (fun e => .new e.1)) ++ (l.map (fun e => .decode e.1) ++
      ((l.filter (·.2.payload)).map (fun e => .payload e.1) ++ (l.filter (·.2.headers)).map (fun e => .headers e.1)))) := by
  rw [List.perm_iff_count]
  intro a
  induction l with
  | nil => simp
  | cons e l ih =>
    simp only [List.flatMap_cons, List.count_append, List.map_cons, List.count_cons, List.filter_cons, ofMessage] at ih ⊢
    rcases e with ⟨s, ⟨p, h⟩⟩
    cases p <;> cases h <;> simp only [List.count_cons, List.count_nil, if_true, Bool.false_eq_true, if_false, List.map_cons] <;> omega

/-- The declarations that do not depend on the keys. -/
def fixedPart (o : Cli.Opts) (d : Doc) : List Decl :=
  (if o.application then side (lit "App") d.appReceives else []) ++ ((if o.user then side (lit "User") d.userReceives else []) ++
    if o.types then fixedTypes ++ (if d.channels = [] then [] else [.fixed (lit "ChannelsPaths")]) else [])

/-- The other ones, kind after kind. -/
def keyedPart (d : Doc) : List Decl :=
  (d.written.map (fun e => .message e.1) ++ d.written.map (fun e => .new e.1)) ++ (d.written.map (fun e => .decode e.1) ++
    ((d.written.filter (·.2.payload)).map (fun e => .payload e.1) ++ ((d.written.filter (·.2.headers)).map (fun e => .headers e.1) ++
      (d.schemas.map .schema ++ ((d.channels.filter Chan.params).map (fun c => .params c.key) ++ d.channels.map (fun c => .path c.key))))))

theorem decls_perm (o : Cli.Opts) (d : Doc) : (decls o d).Perm (fixedPart o d ++ if o.types then keyedPart d else []) := by
  rw [List.perm_iff_count]
  intro a
  have h := (messages_perm d.written).count_eq a
  unfold decls fixedPart ofTypes keyedPart
  cases o.types <;> simp only [List.count_append, if_true, Bool.false_eq_true, if_false, List.count_nil] at h ⊢ <;> omega

theorem fixed_nodup (o : Cli.Opts) (d : Doc) : ((fixedPart o d).map ex).Nodup ∧ ∀ x ∈ fixedPart o d, DeclOk x ∧ kind x = 0 := by
  have key : ∀ a b c r s e : Bool, let l := ((if a then side (lit "App") r else []) ++ ((if b then side (lit "User") s else []) ++
      if c then fixedTypes ++ (if e then [] else [.fixed (lit "ChannelsPaths")]) else []))
      (l.map ex).Nodup ∧ ∀ x ∈ l, kind x = 0 ∧ ex x ∈ fixedNames := by decide +kernel
  have e : fixedPart o d = ((if o.application then side (lit "App") d.appReceives else []) ++ ((if o.user then side (lit "User") d.userReceives else []) ++
      if o.types then fixedTypes ++ (if decide (d.channels = []) then [] else [.fixed (lit "ChannelsPaths")]) else [])) := by
    simp [fixedPart]
  have k := key o.application o.user o.types d.appReceives d.userReceives (decide (d.channels = []))
  rw [e]
  refine ⟨k.1, fun x hx => ?_⟩
  obtain ⟨h1, h2⟩ := k.2 x hx
  refine ⟨?_, h1⟩
  cases x <;> first | exact h2 | exact absurd h1 (by simp [kind])

theorem written_ok (d : Doc) (h : DocOk d) : ∀ e ∈ d.written, SrcOk e.1 := by
  intro e he
  have one : ∀ c suf o, Ascii c → suf ∈ [[], lit "Subscribe", lit "Publish"] → ∀ e ∈ written c suf o, SrcOk e.1 := by
    intro c suf o hc hs e he
    unfold written at he
    split at he
    · rw [List.mem_singleton] at he
      subst he
      exact ⟨hc, hs⟩
    · cases he
  unfold Doc.written at he
  rcases List.mem_append.1 he with he | he
  · obtain ⟨c, hc, he⟩ := List.mem_flatMap.1 he
    have ha := h.channels c hc
    unfold Chan.written at he
    split at he <;> rcases List.mem_append.1 he with he | he
    · exact one _ _ _ ha (by decide) e he
    · exact one _ _ _ ha (by decide) e he
    · exact one _ _ _ ha (by decide) e he
    · exact one _ _ _ ha (by decide) e he
  · obtain ⟨m, hm, rfl⟩ := List.mem_map.1 he
    exact h.messages m hm

theorem map_congr_nodup {α β : Type} (f f' : α → β) (l : List α) (h : ∀ a ∈ l, f a = f' a) : (l.map f).Nodup ↔ (l.map f').Nodup := by
  rw [List.map_congr_left h]

/-- The types of the messages and the functions that make them. -/
theorem new_nodup (l : List (Src × Msg)) :
    ((l.map (fun e => Decl.message e.1) ++ l.map (fun e => Decl.new e.1)).map ex).Nodup ↔
      (l.map (fun e => G e.1)).Nodup ∧ ¬ ∃ a ∈ l, ∃ b ∈ l, G b.1 = lit "New" ++ G a.1 := by
  rw [List.map_append, List.map_map, List.map_map, List.nodup_append]
  have h1 : (l.map (ex ∘ fun e => Decl.message e.1)).Nodup ↔ (l.map (fun e => G e.1)).Nodup :=
    nodup_map_cancel (fun e : Src × Msg => G e.1) (· ++ lit "Message") (fun _ _ e => List.append_cancel_right e) l
  have h2 : (l.map (ex ∘ fun e => Decl.new e.1)).Nodup ↔ (l.map (fun e => G e.1)).Nodup :=
    nodup_map_cancel (fun e : Src × Msg => G e.1) (fun x => lit "New" ++ (x ++ lit "Message"))
      (fun _ _ e => List.append_cancel_right (List.append_cancel_left e)) l
  rw [h1, h2]
  refine ⟨fun h => ⟨h.1, ?_⟩, fun h => ⟨h.1, h.1, ?_⟩⟩
  · rintro ⟨a, ha, b, hb, e⟩
    refine h.2.2 _ (List.mem_map.2 ⟨b, hb, rfl⟩) _ (List.mem_map.2 ⟨a, ha, rfl⟩) ?_
    show G b.1 ++ lit "Message" = lit "New" ++ (G a.1 ++ lit "Message")
    rw [e, List.append_assoc]
  · intro x hx y hy e
    obtain ⟨b, hb, rfl⟩ := List.mem_map.1 hx
    obtain ⟨a, ha, rfl⟩ := List.mem_map.1 hy
    refine h.2 ⟨a, ha, b, hb, ?_⟩
    have e' : G b.1 ++ lit "Message" = lit "New" ++ (G a.1 ++ lit "Message") := e
    rw [← List.append_assoc] at e'
    exact List.append_cancel_right e'

theorem filter_nodup {α β : Type} (f : α → β) (p : α → Bool) (l : List α) (h : (l.map f).Nodup) : ((l.filter p).map f).Nodup :=
  h.sublist (List.filter_sublist.map f)

theorem keyed_nodup (d : Doc) (h : DocOk d) : ((keyedPart d).map ex).Nodup ↔ (d.channels.map (fun c => g c.key)).Nodup ∧
    (d.written.map (fun e => G e.1)).Nodup ∧ (d.schemas.map g).Nodup ∧
    ¬ ∃ a ∈ d.written, ∃ b ∈ d.written, G b.1 = lit "New" ++ G a.1 := by
  have hw := written_ok d h
  have b7 : ∀ x ∈ d.channels.map (fun c => Decl.path c.key), DeclOk x ∧ kind x = 7 := by
    intro x hx
    obtain ⟨c, hc, rfl⟩ := List.mem_map.1 hx
    exact ⟨h.channels c hc, rfl⟩
  have b6 : ∀ x ∈ (d.channels.filter Chan.params).map (fun c => Decl.params c.key), DeclOk x ∧ kind x = 6 := by
    intro x hx
    obtain ⟨c, hc, rfl⟩ := List.mem_map.1 hx
    exact ⟨h.channels c (List.mem_filter.1 hc).1, rfl⟩
  have b5 : ∀ x ∈ d.schemas.map Decl.schema, DeclOk x ∧ kind x = 5 := by
    intro x hx
    obtain ⟨k, hk, rfl⟩ := List.mem_map.1 hx
    exact ⟨h.schemas k hk, rfl⟩
  have b4 : ∀ x ∈ (d.written.filter (·.2.headers)).map (fun e => Decl.headers e.1), DeclOk x ∧ kind x = 4 := by
    intro x hx
    obtain ⟨e, he, rfl⟩ := List.mem_map.1 hx
    exact ⟨hw e (List.mem_filter.1 he).1, rfl⟩
  have b3 : ∀ x ∈ (d.written.filter (·.2.payload)).map (fun e => Decl.payload e.1), DeclOk x ∧ kind x = 3 := by
    intro x hx
    obtain ⟨e, he, rfl⟩ := List.mem_map.1 hx
    exact ⟨hw e (List.mem_filter.1 he).1, rfl⟩
  have b2 : ∀ x ∈ d.written.map (fun e => Decl.decode e.1), DeclOk x ∧ kind x = 2 := by
    intro x hx
    obtain ⟨e, he, rfl⟩ := List.mem_map.1 hx
    exact ⟨hw e he, rfl⟩
  have b1 : ∀ x ∈ d.written.map (fun e => Decl.message e.1) ++ d.written.map (fun e => Decl.new e.1), DeclOk x ∧ kind x = 1 := by
    intro x hx
    rcases List.mem_append.1 hx with hx | hx <;> obtain ⟨e, he, rfl⟩ := List.mem_map.1 hx <;> exact ⟨hw e he, rfl⟩
  have above : ∀ (t k : Nat) (l m : List Decl), (∀ x ∈ l, DeclOk x ∧ kind x = k) → t < k → (∀ x ∈ m, DeclOk x ∧ k < kind x) →
      ∀ x ∈ l ++ m, DeclOk x ∧ t < kind x := by
    intro t k l m hl hk hm x hx
    rcases List.mem_append.1 hx with hx | hx
    · exact ⟨(hl x hx).1, by rw [(hl x hx).2]; exact hk⟩
    · exact ⟨(hm x hx).1, Nat.lt_trans hk (hm x hx).2⟩
  have a7 : ∀ x ∈ d.channels.map (fun c => Decl.path c.key), DeclOk x ∧ 6 < kind x := fun x hx => ⟨(b7 x hx).1, by rw [(b7 x hx).2]; decide⟩
  have a6 := above 5 6 _ _ b6 (by decide) a7
  have a5 := above 4 5 _ _ b5 (by decide) a6
  have a4 := above 3 4 _ _ b4 (by decide) a5
  have a3 := above 2 3 _ _ b3 (by decide) a4
  have a2 := above 1 2 _ _ b2 (by decide) a3
  unfold keyedPart
  rw [nodup_block 1 _ _ b1 a2, nodup_block 2 _ _ b2 a3, nodup_block 3 _ _ b3 a4, nodup_block 4 _ _ b4 a5, nodup_block 5 _ _ b5 a6,
    nodup_block 6 _ _ b6 a7, new_nodup]
  simp only [List.map_map]
  have n2 : (d.written.map (ex ∘ fun e => Decl.decode e.1)).Nodup ↔ (d.written.map (fun e => G e.1)).Nodup :=
    nodup_map_cancel (fun e : Src × Msg => G e.1) (fun x => lit "brokerMessageTo" ++ (x ++ lit "Message"))
      (fun _ _ e => List.append_cancel_right (List.append_cancel_left e)) _
  have n3 : ((d.written.filter (·.2.payload)).map (ex ∘ fun e => Decl.payload e.1)).Nodup ↔
      ((d.written.filter (·.2.payload)).map (fun e => G e.1)).Nodup :=
    nodup_map_cancel (fun e : Src × Msg => G e.1) (fun x => x ++ lit "Message" ++ lit "Payload")
      (fun _ _ e => List.append_cancel_right (List.append_cancel_right e)) _
  have n4 : ((d.written.filter (·.2.headers)).map (ex ∘ fun e => Decl.headers e.1)).Nodup ↔
      ((d.written.filter (·.2.headers)).map (fun e => G e.1)).Nodup :=
    nodup_map_cancel (fun e : Src × Msg => G e.1) (fun x => x ++ lit "Message" ++ lit "Headers")
      (fun _ _ e => List.append_cancel_right (List.append_cancel_right e)) _
  have n5 : (d.schemas.map (ex ∘ Decl.schema)).Nodup ↔ (d.schemas.map g).Nodup :=
    nodup_map_cancel g (· ++ lit "Schema") (fun _ _ e => List.append_cancel_right e) _
  have n6 : ((d.channels.filter Chan.params).map (ex ∘ fun c => Decl.params c.key)).Nodup ↔
      ((d.channels.filter Chan.params).map (fun c => g c.key)).Nodup :=
    nodup_map_cancel (fun c : Chan => g c.key) (· ++ lit "Parameters") (fun _ _ e => List.append_cancel_right e) _
  have n7 : (d.channels.map (ex ∘ fun c => Decl.path c.key)).Nodup ↔ (d.channels.map (fun c => g c.key)).Nodup :=
    nodup_map_cancel (fun c : Chan => g c.key) (· ++ lit "Path") (fun _ _ e => List.append_cancel_right e) _
  rw [n2, n3, n4, n5, n6, n7]
  constructor
  · rintro ⟨⟨hg, hn⟩, -, -, -, hs, -, hc⟩
    exact ⟨hc, hg, hs, hn⟩
  · rintro ⟨hc, hg, hs, hn⟩
    exact ⟨⟨hg, hn⟩, hg, filter_nodup _ _ _ hg, filter_nodup _ _ _ hg, hs, filter_nodup _ _ _ hc, hc⟩

theorem distinct_iff (u : Uni) (d : Doc) (h : DocOk d) : Distinct u d ↔ (d.channels.map (fun c => g c.key)).Nodup ∧
    (d.written.map (fun e => G e.1)).Nodup ∧ (d.schemas.map g).Nodup ∧
    ¬ ∃ a ∈ d.written, ∃ b ∈ d.written, G b.1 = lit "New" ++ G a.1 := by
  have hw := written_ok d h
  have inj : ∀ x y : Bytes, some x = some y → x = y := fun _ _ => Option.some.inj
  have e1 : (d.channels.map (fun c => namify u c.key)).Nodup ↔ (d.channels.map (fun c => g c.key)).Nodup := by
    rw [map_congr_nodup _ (fun c => some (g c.key)) _ (fun c hc => namify_g u (h.channels c hc))]
    exact nodup_map_cancel (fun c : Chan => g c.key) some inj _
  have e2 : (d.go u).Nodup ↔ (d.written.map (fun e => G e.1)).Nodup := by
    rw [← doc_go, map_congr_nodup _ (fun e => some (G e.1)) _ (fun e he => go_G u (hw e he))]
    exact nodup_map_cancel (fun e : Src × Msg => G e.1) some inj _
  have e3 : (d.schemas.map (namify u)).Nodup ↔ (d.schemas.map g).Nodup := by
    rw [map_congr_nodup _ (fun k => some (g k)) _ (fun k hk => namify_g u (h.schemas k hk))]
    exact nodup_map_cancel g some inj _
  have e4 : (∃ n, some n ∈ d.go u ∧ some (lit "New" ++ n) ∈ d.go u) ↔
      ∃ a ∈ d.written, ∃ b ∈ d.written, G b.1 = lit "New" ++ G a.1 := by
    rw [← doc_go]
    constructor
    · rintro ⟨n, h1, h2⟩
      obtain ⟨a, ha, h1⟩ := List.mem_map.1 h1
      obtain ⟨b, hb, h2⟩ := List.mem_map.1 h2
      rw [go_G u (hw a ha)] at h1
      rw [go_G u (hw b hb)] at h2
      cases h1
      exact ⟨a, ha, b, hb, inj _ _ h2⟩
    · rintro ⟨a, ha, b, hb, e⟩
      exact ⟨G a.1, List.mem_map.2 ⟨a, ha, go_G u (hw a ha)⟩, List.mem_map.2 ⟨b, hb, by rw [go_G u (hw b hb), e]⟩⟩
  rw [← e1, ← e2, ← e3, ← e4]
  exact ⟨fun h => ⟨h.1, h.2, h.3, h.4⟩, fun h => ⟨h.1, h.2.1, h.2.2.1, h.2.2.2⟩⟩

/-- **C97** (v2): for every document with ASCII keys, the names the generated file declares at the level of its package are
Go identifiers; and none is declared twice exactly if the types are not generated, or the Go names of the channels differ,
those of the messages — written in channels or in the components — differ, those of the schemas differ, and no two messages
are called `X` and `NewX`. Missing for the full claim: these documents; the types of what is nested in schemas, alternatives
of messages, keys that are not ASCII. -/
theorem C97_v2_partial (u : Uni) (o : Cli.Opts) (d : Doc) (h : DocOk d) :
    ∃ l, idents u o d = some l ∧ (∀ n ∈ l, Ident n) ∧ (l.Nodup ↔ (o.types = true → Distinct u d)) := by
  have hw := written_ok d h
  have hperm := decls_perm o d
  have hok : ∀ x ∈ decls o d, DeclOk x := by
    intro x hx
    rcases List.mem_append.1 (hperm.mem_iff.1 hx) with hx | hx
    · exact ((fixed_nodup o d).2 x hx).1
    · split at hx
      case isFalse => cases hx
      unfold keyedPart at hx
      simp only [List.mem_append, List.mem_map] at hx
      rcases hx with (⟨e, he, rfl⟩ | ⟨e, he, rfl⟩) | ⟨e, he, rfl⟩ | ⟨e, he, rfl⟩ | ⟨e, he, rfl⟩ | ⟨k, hk, rfl⟩ | ⟨c, hc, rfl⟩ | ⟨c, hc, rfl⟩
      · exact hw e he
      · exact hw e he
      · exact hw e he
      · exact hw e (List.mem_filter.1 he).1
      · exact hw e (List.mem_filter.1 he).1
      · exact h.schemas k hk
      · exact h.channels c (List.mem_filter.1 hc).1
      · exact h.channels c hc
  refine ⟨_, names_ex u _ hok, ?_, ?_⟩
  · intro n hn
    obtain ⟨x, hx, rfl⟩ := List.mem_map.1 hn
    exact (ex_ident (hok x hx)).1
  · rw [(hperm.map ex).nodup_iff]
    have hf := fixed_nodup o d
    cases ht : o.types with
    | false =>
      rw [if_neg (by simp), List.append_nil]
      exact ⟨fun _ h => (by cases h), fun _ => hf.1⟩
    | true =>
      rw [if_pos rfl, nodup_block 0 _ _ hf.2, keyed_nodup d h, ← distinct_iff u d h]
      · exact ⟨fun h _ => h.2, fun h => ⟨hf.1, h rfl⟩⟩
      · intro x hx
        refine ⟨hok x (hperm.mem_iff.2 ?_), ?_⟩
        · rw [ht, if_pos rfl]
          exact List.mem_append_right _ hx
        · unfold keyedPart at hx
          simp only [List.mem_append, List.mem_map] at hx
          rcases hx with (⟨e, he, rfl⟩ | ⟨e, he, rfl⟩) | ⟨e, he, rfl⟩ | ⟨e, he, rfl⟩ | ⟨e, he, rfl⟩ | ⟨k, hk, rfl⟩ | ⟨c, hc, rfl⟩ | ⟨c, hc, rfl⟩ <;>
            simp [kind]

/-- A document in scope: a channel with both operations, one with parameters whose message is a reference, a message and a
schema of the components. -/
def doc2 : Doc where
  appReceives := true
  userReceives := true
  channels := [{ key := lit "user/signup", subscribe := some ⟨some ⟨true, true⟩⟩, publish := some ⟨some ⟨false, false⟩⟩ },
    { key := lit "event.{id}", params := true, subscribe := some ⟨none⟩ }]
  messages := [(lit "order", ⟨true, false⟩)]
  schemas := [lit "error"]

example : DocOk doc2 ∧ Distinct uni0 doc2 := by
  have a : ∀ s ∈ ["user/signup", "event.{id}", "order", "error"], (lit s).all (· < 128) = true := by decide
  have k : ∀ s ∈ ["user/signup", "event.{id}", "order", "error"], Ascii (lit s) := fun s hs b hb => by
    simpa using List.all_eq_true.1 (a s hs) b hb
  refine ⟨⟨?_, ?_, ?_⟩, ⟨by decide, by decide, by decide, ?_⟩⟩
  · intro c hc
    simp only [doc2, List.mem_cons, List.not_mem_nil, or_false] at hc
    rcases hc with rfl | rfl
    · exact k _ (by decide)
    · exact k _ (by decide)
  · intro e he
    simp only [doc2, List.mem_cons, List.not_mem_nil, or_false] at he
    subst he
    exact k _ (by decide)
  · intro s hs
    simp only [doc2, List.mem_cons, List.not_mem_nil, or_false] at hs
    subst hs
    exact k _ (by decide)
  · rintro ⟨n, h1, h2⟩
    have key : ∀ a ∈ doc2.go uni0, ∀ b ∈ doc2.go uni0, a.map (lit "New" ++ ·) ≠ b := by decide
    exact key _ h1 _ h2 rfl

example : (idents uni0 ⟨false, false, true⟩ doc2).map (List.drop 9) = some (["EventIdParameters", "UserSignupSubscribeMessageHeaders",
    "UserSignupSubscribeMessagePayload", "UserSignupSubscribeMessage", "NewUserSignupSubscribeMessage",
    "brokerMessageToUserSignupSubscribeMessage", "UserSignupPublishMessage", "NewUserSignupPublishMessage",
    "brokerMessageToUserSignupPublishMessage", "OrderMessagePayload", "OrderMessage", "NewOrderMessage", "brokerMessageToOrderMessage",
    "ErrorSchema", "UserSignupPath", "EventIdPath"].map lit) := by decide

/-- **C97** violated (v2): the channels `user/signup` and `user.signup`, each of which refers to a message: the constant of
the path is declared twice. -/
theorem C97_violated_v2_path :
    ∃ l, idents uni0 ⟨false, false, true⟩ ⟨true, false, [{ key := lit "user/signup", publish := some ⟨none⟩ },
      { key := lit "user.signup", publish := some ⟨none⟩ }], [], []⟩ = some l ∧ l.count (lit "UserSignupPath") = 2 :=
  ⟨_, rfl, by decide⟩

/-- **C97** violated (v2): a channel `user` with both operations, and a channel `userPublish`: their messages have one
name. -/
theorem C97_violated_v2_operations :
    ∃ l, idents uni0 ⟨false, false, true⟩ ⟨true, true,
      [{ key := lit "user", subscribe := some ⟨some ⟨false, false⟩⟩, publish := some ⟨some ⟨false, false⟩⟩ }, { key := lit "userPublish", publish := some ⟨some ⟨false, false⟩⟩ }], [], []⟩ = some l ∧
      l.count (lit "UserPublishMessage") = 2 :=
  ⟨_, rfl, by decide⟩

end Verif.Idents.V2
