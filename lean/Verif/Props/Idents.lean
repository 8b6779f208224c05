import Verif.Model.Idents
import Verif.Props.Methods

/-! # C97: the package level names of the generated file -/

namespace Verif.Idents
open Naming (Uni Bytes namify namifyWithoutParams stripParams afterLast IsName Ascii isUpper isAlnum namify_name)
open Names
open Methods (Ident ident_lit ident_append nodup_map_on nodup_of_map nodup_blocks)

/-! ## The names -/

theorem strip_name : ∀ (f : Nat) (s : Bytes), (∀ b ∈ s, isAlnum b = true) → stripParams f s = s
  | 0, [], _ => rfl
  | 0, _ :: _, _ => rfl
  | f + 1, [], _ => rfl
  | f + 1, b :: s, h => by
    rw [stripParams, if_neg, strip_name f s (fun x hx => h x (.tail _ hx))]
    rintro rfl
    exact absurd (h 123 (.head _)) (by decide)

theorem namifyWP_name (u : Uni) {s : Bytes} (h : IsName s) : namifyWithoutParams u s = some s := by
  unfold namifyWithoutParams
  rw [strip_name _ _ h.1, namify_name u h]

/-- The names that do not depend on the document. -/
def fixedNames : List Bytes :=
  [lit "AsyncAPIVersion", lit "controller", lit "ControllerOption", lit "WithLogger", lit "WithMiddlewares",
    lit "WithErrorHandler", lit "MessageWithCorrelationID", lit "Error", lit "ChannelsPaths", lit "AppSubscriber",
    lit "AppController", lit "NewAppController", lit "addAppContextValues", lit "UserSubscriber", lit "UserController",
    lit "NewUserController", lit "addUserContextValues"]

/-- Keys in scope. -/
def DeclOk (u : Uni) : Decl → Prop
  | .fixed n => n ∈ fixedNames
  | .type r ps => RootKeysOk u r ∧ ∀ s ∈ ps, StepOk u s
  | .new c m | .decode c m => RootKeysOk u (.message c m)
  | .params c | .path c => KeyOk u c

/-- The key of a declaration: keys up to their Go names. -/
inductive Key
  | fixed (n : Bytes)
  | type (r : RootPlace) (ps : List Place)
  | new (r : RootPlace)
  | decode (r : RootPlace)
  | params (c : Option Bytes)
  | path (c : Option Bytes)
  deriving DecidableEq, Repr

def keyOf (u : Uni) : Decl → Key
  | .fixed n => .fixed n
  | .type r ps => .type (rootPlace u r) (ps.map (place u))
  | .new c m => .new (rootPlace u (.message c m))
  | .decode c m => .decode (rootPlace u (.message c m))
  | .params c => .params (namify u c)
  | .path c => .path (namify u c)

theorem chan_name (u : Uni) (c : Bytes) (h : KeyOk u c) :
    ∃ d, namify u c = some d ∧ chanName u c = some (d ++ lit "Channel") ∧ IsName (d ++ lit "Channel") := by
  obtain ⟨d, hd, hn⟩ := namify_total u c h.1
  have hC : IsName (lit "Channel") := isName_of_check (by decide)
  exact ⟨d, hd, fullName_root u c d _ h.1 hd hC, isName_append hn hC⟩

theorem msg_doc (u : Uni) (c : Option Bytes) (m : Bytes) : messageName u m c = docName u (.message c m) [] := by
  unfold docName
  rw [show rootName u (.message c m) = messageName u m c from rfl]
  cases messageName u m c <;> rfl

theorem type_name (u : Uni) (r : Root) (ps : List Step) (h : DeclOk u (.type r ps)) :
    ∃ n, docName u r ps = some n ∧ IsName n ∧ Decl.name u (.type r ps) = some n := by
  obtain ⟨⟨n, hn, hname⟩, -⟩ := C69_names_partial u r r ps ps h.1 h.1 h.2 h.2
  refine ⟨n, hn, hname, ?_⟩
  rw [Decl.name, hn, Option.bind_some, namify_name u hname]

theorem new_name (u : Uni) (c : Option Bytes) (m : Bytes) (h : DeclOk u (.new c m)) :
    ∃ n, docName u (.message c m) [] = some n ∧ IsName n ∧ Decl.name u (.new c m) = some (lit "New" ++ n) ∧
      Decl.name u (.decode c m) = some (lit "brokerMessageTo" ++ n) := by
  obtain ⟨n, hn, hname, -⟩ := type_name u (.message c m) [] ⟨h, by simp⟩
  refine ⟨n, hn, hname, ?_, ?_⟩ <;> simp only [Decl.name, msg_doc, hn, Option.bind_some, namify_name u hname, Option.map_some]

/-! ## The last letter -/

theorem getLast_app (a : Bytes) {b : Bytes} {x : Nat} (h : b.getLast? = some x) : (a ++ b).getLast? = some x := by
  rw [List.getLast?_append, h]; rfl

theorem joinFrom_last : ∀ l : List Bytes, ∀ x, l.getLast?.bind List.getLast? = some x → (joinFrom l).getLast? = some x
  | [], x, h => by simp at h
  | [a], x, h => by simpa [joinFrom] using h
  | a :: b :: l, x, h => by
    rw [joinFrom]
    refine getLast_app _ (joinFrom_last (b :: l) x ?_)
    rwa [List.getLast?_cons_cons] at h

theorem nameAt_last (u : Uni) : ∀ (ps : List Step) (r n : Bytes), IsName r → r ≠ [] → (∀ s ∈ ps, StepOk u s) →
    nameAt u r ps = some n → n.getLast? = r.getLast?
  | [], r, n, _, _, _, h => by cases h; rfl
  | s :: ps, r, n, hr, h0, hs, h => by
    rw [nameAt] at h
    obtain ⟨a, -, ha, e⟩ := stepName_eq u r hr h0 s (by rintro k rfl; exact (hs _ (.head _)).1)
    rw [e] at h
    rw [nameAt_last u ps _ n (isName_append (isName_append ha isName_from) hr) (by simp [h0])
      (fun t ht => hs t (.tail _ ht)) h]
    cases hl : r.getLast? with
    | none => exact absurd (List.getLast?_eq_none_iff.1 hl) h0
    | some x => exact getLast_app _ hl

theorem type_last (u : Uni) (r : Root) (ps : List Step) (h : DeclOk u (.type r ps)) (n : Bytes) (hn : docName u r ps = some n) :
    n.getLast? = some (sig r).2 := by
  obtain ⟨l, hl, e, hname, h0⟩ := root_parts u r h.1
  have hs := parts_sig u r l hl
  unfold docName at hn
  rw [e, Option.bind_some] at hn
  rw [nameAt_last u ps _ n hname h0 h.2 hn]
  exact joinFrom_last l _ (Prod.mk.inj hs).2

/-! ## Kinds of names -/

/-- What the letters of a name tell. -/
def tag (n : Bytes) : Nat :=
  match n.reverse with
  | [] => 0
  | x :: t => if x = 115 then (if t.head? = some 114 then 4 else 0) else if x = 104 then 3
    else if x ∈ [97, 100, 101, 108] then (if n.head? = some 98 then 2 else 1) else 0

def kind : Decl → Nat
  | .fixed _ => 0
  | .type .. => 1
  | .new .. => 1
  | .decode .. => 2
  | .path _ => 3
  | .params _ => 4

theorem reverse_last {n : Bytes} {x : Nat} (h : n.getLast? = some x) : ∃ t, n.reverse = x :: t := by
  rw [List.getLast?_eq_head?_reverse] at h
  cases e : n.reverse with
  | nil => rw [e] at h; cases h
  | cons y t => rw [e] at h; cases h; exact ⟨t, rfl⟩

theorem sig_last (r : Root) : (sig r).2 ∈ [97, 100, 101, 108] := by
  rcases r with k | ⟨_ | c, m⟩ | ⟨_ | c, m⟩ | ⟨_ | c, m⟩ <;> simp only [sig] <;> decide

theorem tag_place {n : Bytes} (r : Root) (h : n.getLast? = some (sig r).2) : tag n = if n.head? = some 98 then 2 else 1 := by
  obtain ⟨t, ht⟩ := reverse_last h
  have hs := sig_last r
  unfold tag
  rw [ht]
  have h1 : (sig r).2 ≠ 115 := by intro e; rw [e] at hs; exact absurd hs (by decide)
  have h2 : (sig r).2 ≠ 104 := by intro e; rw [e] at hs; exact absurd hs (by decide)
  simp only [if_neg h1, if_neg h2, if_pos hs]

theorem head_name {n : Bytes} (h : IsName n) : n.head? ≠ some 98 := by
  cases n with
  | nil => simp
  | cons b t =>
    intro e
    cases e
    exact absurd (h.2 98 t rfl) (by decide)

theorem ident_name {n : Bytes} (h : IsName n) (h0 : n ≠ []) : Ident n := by
  cases n with
  | nil => exact (h0 rfl).elim
  | cons b t => exact ⟨h.1, b, t, rfl, .inl (h.2 b t rfl)⟩

theorem fixed_facts : ∀ n ∈ fixedNames, tag n = 0 ∧
    (n.all isAlnum && n.head?.any (fun b => isUpper b || Naming.isLower b)) = true := by decide

/-- Every declaration in scope has a name that is a Go identifier, whose letters tell its kind. -/
theorem name_ok (u : Uni) (d : Decl) (h : DeclOk u d) : ∃ n, d.name u = some n ∧ Ident n ∧ tag n = kind d := by
  cases d with
  | fixed n => exact ⟨n, rfl, ident_lit (fixed_facts n h).2, (fixed_facts n h).1⟩
  | type r ps =>
    obtain ⟨n, h1, h2, h3⟩ := type_name u r ps h
    have hl := type_last u r ps h n h1
    refine ⟨n, h3, ident_name h2 (by rintro rfl; cases hl), ?_⟩
    rw [tag_place r hl, if_neg (head_name h2)]
    rfl
  | new c m =>
    obtain ⟨n, h1, h2, h3, -⟩ := new_name u c m h
    have hl := type_last u (.message c m) [] ⟨h, by simp⟩ n h1
    have hN : IsName (lit "New") := isName_of_check (by decide)
    refine ⟨_, h3, ident_name (isName_append hN h2) (by simp [lit]), ?_⟩
    rw [tag_place (.message c m) (getLast_app _ hl), if_neg (head_name (isName_append hN h2))]
    rfl
  | decode c m =>
    obtain ⟨n, h1, h2, -, h3⟩ := new_name u c m h
    have hl := type_last u (.message c m) [] ⟨h, by simp⟩ n h1
    refine ⟨_, h3, ident_append (ident_lit (by decide)) h2.1, ?_⟩
    rw [tag_place (.message c m) (getLast_app _ hl), if_pos (by simp [lit])]
    rfl
  | params c =>
    obtain ⟨d, -, h2, h3⟩ := chan_name u c h
    have hP : IsName (lit "Parameters") := isName_of_check (by decide)
    refine ⟨d ++ lit "Channel" ++ lit "Parameters", by simp only [Decl.name, h2, Option.bind_some, namifyWP_name u h3, Option.map_some],
      ident_name (isName_append h3 hP) (by simp [lit]), ?_⟩
    unfold tag
    rw [List.reverse_append]
    rfl
  | path c =>
    obtain ⟨d, -, h2, h3⟩ := chan_name u c h
    have hP : IsName (lit "Path") := isName_of_check (by decide)
    refine ⟨d ++ lit "Channel" ++ lit "Path", by simp only [Decl.name, h2, Option.bind_some, namifyWP_name u h3, Option.map_some],
      ident_name (isName_append h3 hP) (by simp [lit]), ?_⟩
    unfold tag
    rw [List.reverse_append]
    rfl

/-! ## The function that makes a message -/

/-- The Go name of the second message is `New` and that of the first, both in the components or in one channel. -/
def Clash (u : Uni) (a b : Option Bytes × Bytes) : Prop :=
  a.1.map (namify u) = b.1.map (namify u) ∧ namify u b.2 = (namify u a.2).map (lit "New" ++ ·)

theorem hasFrom_new {n : Bytes} (h : HasFrom (lit "New" ++ n)) : HasFrom n := by
  obtain ⟨a, b, e⟩ := h
  match a, e with
  | [], e => simp [lit, from_] at e
  | [_], e => simp [lit, from_] at e
  | [_, _], e => simp [lit, from_] at e
  | _ :: _ :: _ :: a, e =>
    refine ⟨a, b, ?_⟩
    simp only [lit, from_] at e
    injection e with _ e
    injection e with _ e
    injection e with _ e

theorem new_key (u : Uni) (m n : Bytes) (h : KeyOk u m) (hn : namify u m = some n) :
    KeyOk u (lit "New" ++ n) ∧ namify u (lit "New" ++ n) = some (lit "New" ++ n) := by
  have hN : IsName (lit "New" ++ n) := isName_append (isName_of_check (by decide)) (namify_isName u h.1 hn)
  refine ⟨⟨ascii_name hN, fun k hk hf => ?_⟩, namify_name u hN⟩
  rw [namify_name u hN] at hk
  cases hk
  exact h.2 n hn (hasFrom_new hf)

theorem new_doc (u : Uni) (c : Option Bytes) (m n : Bytes) (h : RootKeysOk u (.message c m)) (hn : namify u m = some n) :
    docName u (.message c (lit "New" ++ n)) [] = (docName u (.message c m) []).map (lit "New" ++ ·) := by
  obtain ⟨hk, hk'⟩ := new_key u m n h.1 hn
  have ha : ∀ k, c = some k → Ascii k := fun k hc => (h.2 k hc).1
  obtain ⟨l, hl, e, -⟩ := message_parts u c m h.1.1 ha
  obtain ⟨l', hl', e', -⟩ := message_parts u c (lit "New" ++ n) hk.1 ha
  rw [← msg_doc, ← msg_doc, e, e', Option.map_some]
  cases c with
  | none =>
    simp only [parts, hn, hk', Option.map_some, Option.some.injEq] at hl hl'
    subst hl; subst hl'
    simp [joinFrom]
  | some c =>
    obtain ⟨d, hd, -⟩ := namify_total u c (ha c rfl)
    simp only [parts, hn, hk', hd, Option.map_some, Option.bind_some, Option.some.injEq] at hl hl'
    subst hl; subst hl'
    simp [joinFrom]

theorem new_type (u : Uni) (c : Option Bytes) (m : Bytes) (r : Root) (ps : List Step) (h : DeclOk u (.new c m))
    (h' : DeclOk u (.type r ps)) (e : Decl.name u (.new c m) = Decl.name u (.type r ps)) :
    ∃ c' m', r = .message c' m' ∧ ps = [] ∧ Clash u (c, m) (c', m') := by
  obtain ⟨n, hn, -⟩ := namify_total u m h.1.1
  obtain ⟨k, h1, -, h3, -⟩ := new_name u c m h
  obtain ⟨k', h1', -, h3'⟩ := type_name u r ps h'
  rw [h3, h3'] at e
  cases e
  have hd := new_doc u c m n h hn
  rw [h1, Option.map_some] at hd
  obtain ⟨hk, hk'⟩ := new_key u m n h.1 hn
  obtain ⟨e1, e2⟩ := (C69_names_partial u (.message c (lit "New" ++ n)) r [] ps ⟨hk, h.2⟩ h'.1 (by simp) h'.2).2 (hd.trans h1'.symm)
  have hps : ps = [] := by cases ps with
    | nil => rfl
    | cons _ _ => simp at e2
  cases r with
  | message c' m' =>
    simp only [rootPlace, RootPlace.message.injEq] at e1
    refine ⟨c', m', rfl, hps, e1.1, ?_⟩
    rw [← e1.2, hk', hn]
    rfl
  | _ => simp [rootPlace] at e1

theorem clash_type (u : Uni) (c c' : Option Bytes) (m m' : Bytes) (h : RootKeysOk u (.message c m))
    (h' : RootKeysOk u (.message c' m')) (hc : Clash u (c, m) (c', m')) :
    Decl.name u (.new c m) = Decl.name u (.type (.message c' m') []) := by
  obtain ⟨n, hn, -⟩ := namify_total u m h.1.1
  obtain ⟨k, h1, -, h3, -⟩ := new_name u c m h
  obtain ⟨k', h1', -, h3'⟩ := type_name u (.message c' m') [] ⟨h', by simp⟩
  have hd := new_doc u c m n h hn
  rw [h1, Option.map_some] at hd
  rw [h3, h3', ← h1', ← hd]
  obtain ⟨hk, hk'⟩ := new_key u m n h.1 hn
  obtain ⟨e1, e2⟩ := hc
  simp only [hn, Option.map_some] at e1 e2
  rw [← msg_doc, ← msg_doc]
  obtain ⟨l, hl, e, -⟩ := message_parts u c _ hk.1 (fun k hc => (h.2 k hc).1)
  obtain ⟨l', hl', e', -⟩ := message_parts u c' m' h'.1.1 (fun k hc => (h'.2 k hc).1)
  rw [e, e']
  cases c with
  | none => cases c' with
    | none =>
      simp only [parts, e2, hk', Option.map_some, Option.some.injEq] at hl hl'
      rw [← hl, ← hl']
    | some _ => cases e1
  | some c => cases c' with
    | none => cases e1
    | some c' =>
      simp only [Option.map_some, Option.some.injEq] at e1
      simp only [parts, e2, hk', e1] at hl hl'
      rw [hl] at hl'
      cases hl'
      rfl

/-! ## Different declarations, different names -/

theorem name_inj (u : Uni) (d e : Decl) (hd : DeclOk u d) (he : DeclOk u e)
    (h1 : ∀ c m c' m', d = .new c m → e = .type (.message c' m') [] → ¬ Clash u (c, m) (c', m'))
    (h2 : ∀ c m c' m', e = .new c m → d = .type (.message c' m') [] → ¬ Clash u (c, m) (c', m'))
    (h : d.name u = e.name u) : keyOf u d = keyOf u e := by
  have hk : kind d = kind e := by
    obtain ⟨n, hn, -, ht⟩ := name_ok u d hd
    obtain ⟨n', hn', -, ht'⟩ := name_ok u e he
    rw [hn, hn'] at h
    cases h
    rw [← ht, ht']
  have app : ∀ (c c' s : Bytes), DeclOk u (.path c) → DeclOk u (.path c') →
      ((chanName u c).bind (namifyWithoutParams u)).map (· ++ s) = ((chanName u c').bind (namifyWithoutParams u)).map (· ++ s) →
      namify u c = namify u c' := by
    intro c c' s hc hc' h
    obtain ⟨k, h1, h2, h3⟩ := chan_name u c hc
    obtain ⟨k', h1', h2', h3'⟩ := chan_name u c' hc'
    simp only [h2, h2', Option.bind_some, namifyWP_name u h3, namifyWP_name u h3', Option.map_some, Option.some.injEq,
      List.append_cancel_right_eq] at h
    rw [h1, h1', h]
  cases d <;> cases e <;> first
    | (simp only [kind] at hk; exact absurd hk (by decide))
    | skip
  · cases h; rfl
  case type.type r ps r' ps' =>
    obtain ⟨k, e1, -, e2⟩ := type_name u r ps hd
    obtain ⟨k', e1', -, e2'⟩ := type_name u r' ps' he
    rw [e2, e2', ← e1, ← e1'] at h
    obtain ⟨a, b⟩ := (C69_names_partial u r r' ps ps' hd.1 he.1 hd.2 he.2).2 h
    simp only [keyOf, a, b]
  case type.new r ps c m =>
    obtain ⟨c', m', rfl, rfl, hc⟩ := new_type u c m r ps he hd h.symm
    exact (h2 c m c' m' rfl rfl hc).elim
  case new.type c m r ps =>
    obtain ⟨c', m', rfl, rfl, hc⟩ := new_type u c m r ps hd he h
    exact (h1 c m c' m' rfl rfl hc).elim
  case new.new c m c' m' =>
    obtain ⟨k, e1, -, e2, -⟩ := new_name u c m hd
    obtain ⟨k', e1', -, e2', -⟩ := new_name u c' m' he
    rw [e2, e2', Option.some.injEq, List.append_cancel_left_eq] at h
    simp only [keyOf]
    rw [((C69_names_partial u (.message c m) (.message c' m') [] [] hd he (by simp) (by simp)).2 (by rw [e1, e1', h])).1]
  case decode.decode c m c' m' =>
    obtain ⟨k, e1, -, -, e2⟩ := new_name u c m hd
    obtain ⟨k', e1', -, -, e2'⟩ := new_name u c' m' he
    rw [e2, e2', Option.some.injEq, List.append_cancel_left_eq] at h
    simp only [keyOf]
    rw [((C69_names_partial u (.message c m) (.message c' m') [] [] hd he (by simp) (by simp)).2 (by rw [e1, e1', h])).1]
  case params.params c c' => simp only [keyOf, app c c' _ hd he h]
  case path.path c c' => simp only [keyOf, app c c' _ hd he h]

/-! ## The whole file -/

/-- All keys of the document are in scope. -/
structure DocOk (u : Uni) (d : Doc) : Prop where
  types : ∀ e ∈ d.types, RootKeysOk u e.1 ∧ ∀ s ∈ e.2, StepOk u s
  chans : ∀ c ∈ d.channels, KeyOk u c.key ∧ KeyOk u c.follow

/-- The places, the channels with parameters and the channels followed are different, up to keys with one Go name. -/
structure Distinct (u : Uni) (d : Doc) : Prop where
  types : (d.types.map (fun e => (rootPlace u e.1, e.2.map (place u)))).Nodup
  params : ((d.channels.filter Chan.params).map (fun c => namify u c.key)).Nodup
  paths : (d.channels.map (fun c => namify u c.follow)).Nodup

theorem names_total (u : Uni) : ∀ ds : List Decl, (∀ d ∈ ds, DeclOk u d) →
    ∃ l, names u ds = some l ∧ l.map some = ds.map (Decl.name u)
  | [], _ => ⟨[], rfl, rfl⟩
  | d :: ds, h => by
    obtain ⟨n, hn, -⟩ := name_ok u d (h d (.head _))
    obtain ⟨l, hl, e⟩ := names_total u ds (fun x hx => h x (.tail _ hx))
    exact ⟨n :: l, by simp only [names, hn, hl], by simp only [List.map_cons, hn, e]⟩

theorem place_ok (u : Uni) (e : Root × List Step) (h : RootKeysOk u e.1 ∧ ∀ s ∈ e.2, StepOk u s) :
    ∀ x ∈ ofPlace e, DeclOk u x := by
  obtain ⟨r, ps⟩ := e
  intro x hx
  unfold ofPlace at hx
  split at hx
  · rename_i c m heq
    cases heq
    simp only [List.mem_cons, List.not_mem_nil, or_false] at hx
    rcases hx with rfl | rfl | rfl
    · exact h
    · exact h.1
    · exact h.1
  · rename_i heq
    cases heq
    rw [List.mem_singleton] at hx
    cases hx
    exact h

theorem decls_ok (u : Uni) (o : Cli.Opts) (d : Doc) (h : DocOk u d) : ∀ x ∈ decls o d, DeclOk u x := by
  have hfix : ∀ l : List Decl, (∀ x ∈ l, ∃ n ∈ fixedNames, x = .fixed n) → ∀ x ∈ l, DeclOk u x := by
    intro l hl x hx
    obtain ⟨n, hn, rfl⟩ := hl x hx
    exact hn
  intro x hx
  unfold decls ofTypes at hx
  simp only [List.mem_append] at hx
  rcases hx with hx | hx | hx
  · split at hx
    · refine hfix _ ?_ x hx
      cases d.appReceives <;> decide
    · cases hx
  · split at hx
    · refine hfix _ ?_ x hx
      cases d.userReceives <;> decide
    · cases hx
  · split at hx
    case isFalse => cases hx
    simp only [List.mem_append] at hx
    rcases hx with hx | hx | hx | hx | hx
    · exact hfix _ (by decide) x hx
    · obtain ⟨c, hc, rfl⟩ := List.mem_map.1 hx
      exact (h.chans c (List.mem_filter.1 hc).1).1
    · obtain ⟨e, he, hx⟩ := List.mem_flatMap.1 hx
      exact place_ok u e (h.types e he) x hx
    · obtain ⟨c, hc, rfl⟩ := List.mem_map.1 hx
      exact (h.chans c hc).2
    · split at hx
      · cases hx
      · exact hfix _ (by decide) x hx

/-- Blocks of keys that differ in kind. -/
theorem nodup_apart {α : Type} (l1 l2 : List α) (p : α → Bool) (h1 : l1.Nodup) (h2 : l2.Nodup) (e1 : ∀ x ∈ l1, p x = true)
    (e2 : ∀ x ∈ l2, p x = false) : (l1 ++ l2).Nodup := by
  rw [List.nodup_append]
  refine ⟨h1, h2, fun x hx y hy e => ?_⟩
  have := e1 x hx
  rw [e, e2 y hy] at this
  cases this

def Key.isFixed : Key → Bool
  | .fixed _ => true
  | _ => false
def Key.isParams : Key → Bool
  | .params _ => true
  | _ => false
def Key.isPath : Key → Bool
  | .path _ => true
  | _ => false

/-- The place a key speaks of. -/
def Key.at : Key → Option (RootPlace × List Place)
  | .type r ps => some (r, ps)
  | .new r => some (r, [])
  | .decode r => some (r, [])
  | _ => none

theorem key_at (u : Uni) (e : Root × List Step) : ∀ x ∈ (ofPlace e).map (keyOf u), x.at = some (rootPlace u e.1, e.2.map (place u)) := by
  obtain ⟨r, ps⟩ := e
  intro x hx
  obtain ⟨d, hd, rfl⟩ := List.mem_map.1 hx
  unfold ofPlace at hd
  split at hd
  · rename_i c m heq
    cases heq
    simp only [List.mem_cons, List.not_mem_nil, or_false] at hd
    rcases hd with rfl | rfl | rfl <;> rfl
  · rename_i heq
    cases heq
    rw [List.mem_singleton] at hd
    cases hd
    rfl

theorem types_nodup (u : Uni) (l : List (Root × List Step))
    (h : (l.map (fun e => (rootPlace u e.1, e.2.map (place u)))).Nodup) : ((l.flatMap ofPlace).map (keyOf u)).Nodup := by
  rw [List.map_flatMap]
  refine nodup_blocks _ _ (fun e _ => ?_) ?_
  · unfold ofPlace
    split <;> simp [keyOf]
  · refine List.Pairwise.imp ?_ (List.pairwise_map.1 h)
    intro a b hab x hx y hy e
    have h1 := key_at u a x hx
    rw [e, key_at u b y hy] at h1
    exact hab (Option.some.inj h1).symm

theorem keys_nodup (u : Uni) (o : Cli.Opts) (d : Doc) (h : Distinct u d) : ((decls o d).map (keyOf u)).Nodup := by
  -- the part that follows the fixed names
  let mid : List Key := (d.channels.filter Chan.params).map (fun c => Key.params (namify u c.key)) ++
    ((d.types.flatMap ofPlace).map (keyOf u) ++ d.channels.map (fun c => Key.path (namify u c.follow)))
  have inj : ∀ (f : Option Bytes → Key) (l : List (Option Bytes)), (∀ a b, f a = f b → a = b) → l.Nodup → (l.map f).Nodup :=
    fun f l hf hl => nodup_map_on f l hl (fun a _ b _ => hf a b)
  have hat : ∀ x ∈ (d.types.flatMap ofPlace).map (keyOf u), x.at ≠ none := by
    intro x hx
    rw [List.map_flatMap] at hx
    obtain ⟨e, -, hx⟩ := List.mem_flatMap.1 hx
    rw [key_at u e x hx]
    simp
  have hmid : mid.Nodup := by
    refine nodup_apart _ _ Key.isParams ?_ (nodup_apart _ _ (fun k => !k.isPath) (types_nodup u _ h.types) ?_ ?_ ?_) ?_ ?_
    · have := inj Key.params _ (fun a b e => by cases e; rfl) h.params
      rwa [List.map_map] at this
    · have := inj Key.path _ (fun a b e => by cases e; rfl) h.paths
      rwa [List.map_map] at this
    · intro x hx
      have := hat x hx
      cases x <;> first | rfl | exact (this rfl).elim
    · intro x hx
      obtain ⟨c, -, rfl⟩ := List.mem_map.1 hx
      rfl
    · intro x hx
      obtain ⟨c, -, rfl⟩ := List.mem_map.1 hx
      rfl
    · intro x hx
      rcases List.mem_append.1 hx with hx | hx
      · have := hat x hx
        cases x <;> first | rfl | exact (this rfl).elim
      · obtain ⟨c, -, rfl⟩ := List.mem_map.1 hx
        rfl
  have hmidf : ∀ x ∈ mid, x.isFixed = false := by
    intro x hx
    rcases List.mem_append.1 hx with hx | hx
    · obtain ⟨c, -, rfl⟩ := List.mem_map.1 hx
      rfl
    rcases List.mem_append.1 hx with hx | hx
    · have := hat x hx
      cases x <;> first | rfl | exact (this rfl).elim
    · obtain ⟨c, -, rfl⟩ := List.mem_map.1 hx
      rfl
  -- the fixed names of the file
  let pre : List Key := ((if o.application then side (lit "App") d.appReceives else []) ++
    ((if o.user then side (lit "User") d.userReceives else []) ++ fixedTypes)).map (keyOf u)
  let post : List Key := if d.channels = [] then [] else [Key.fixed (lit "ChannelsPaths")]
  have hpp : (pre ++ post).Nodup ∧ ∀ x ∈ pre ++ post, x.isFixed = true := by
    have hk : ∀ l : List Decl, (∀ x ∈ l, ∃ n ∈ fixedNames, x = .fixed n) → l.map (keyOf u) = l.map (fun x => match x with
        | .fixed n => Key.fixed n
        | _ => Key.fixed []) := by
      intro l hl
      refine List.map_congr_left (fun x hx => ?_)
      obtain ⟨n, -, rfl⟩ := hl x hx
      rfl
    have : ∀ (a b c e f : Bool), ((if a then side (lit "App") b else []) ++ ((if c then side (lit "User") e else []) ++ fixedTypes)).map (keyOf u) ++
        (if f then [] else [Key.fixed (lit "ChannelsPaths")]) |>.Nodup := by
      intro a b c e f
      rw [hk _ (by revert a b c e; decide)]
      revert a b c e f
      decide
    have h2 : ∀ (a b c e f : Bool), ∀ x ∈ ((if a then side (lit "App") b else []) ++ ((if c then side (lit "User") e else []) ++ fixedTypes)).map (keyOf u) ++
        (if f then [] else [Key.fixed (lit "ChannelsPaths")]), x.isFixed = true := by
      intro a b c e f
      rw [hk _ (by revert a b c e; decide)]
      revert a b c e f
      decide
    have hpost : post = if (decide (d.channels = [])) then [] else [Key.fixed (lit "ChannelsPaths")] := by
      simp only [post, decide_eq_true_eq]
    rw [hpost]
    exact ⟨this _ _ _ _ _, h2 _ _ _ _ _⟩
  have hdecl : o.types = true → ((decls o d).map (keyOf u)) = pre ++ (mid ++ post) := by
    intro ho
    simp only [decls, ofTypes, ho, if_true, List.map_append, pre, mid, post, List.map_map, List.append_assoc]
    congr 5
    split <;> rfl
  cases ho : o.types with
  | true =>
    rw [hdecl ho]
    have hn := hpp.1
    rw [List.nodup_append] at hn ⊢
    refine ⟨hn.1, ?_, ?_⟩
    · exact nodup_apart _ _ (fun k => !k.isFixed) hmid hn.2.1 (fun x hx => by simp [hmidf x hx])
        (fun x hx => by simp [hpp.2 x (List.mem_append_right _ hx)])
    · intro x hx y hy
      rcases List.mem_append.1 hy with hy | hy
      · rintro rfl
        have := hpp.2 x (List.mem_append_left _ hx)
        rw [hmidf x hy] at this
        cases this
      · exact hn.2.2 x hx y hy
  | false =>
    have hn := (List.nodup_append.1 hpp.1).1
    refine List.Sublist.nodup ?_ hn
    simp only [decls, ho, Bool.false_eq_true, if_false, pre, List.append_nil]
    refine List.Sublist.map _ (List.Sublist.append_left (List.sublist_append_left _ _) _)

theorem nodup_of_keys {α β γ : Type} (f : α → β) (k : α → γ) (l : List α) (h : (l.map k).Nodup)
    (hi : ∀ a ∈ l, ∀ b ∈ l, f a = f b → k a = k b) : (l.map f).Nodup := by
  refine List.pairwise_map.2 (List.Pairwise.imp_of_mem ?_ (List.pairwise_map.1 h))
  intro a b ha hb hab e
  exact hab (hi a ha b hb e)

theorem eq_of_nodup {α β : Type} (f : α → β) {a b : α} : ∀ l : List α, (l.map f).Nodup → a ∈ l → b ∈ l → f a = f b → a = b
  | [], _, ha, _, _ => nomatch ha
  | x :: l, h, ha, hb, e => by
    rw [List.map_cons, List.nodup_cons] at h
    rcases List.mem_cons.1 ha with ea | ha'
    · rcases List.mem_cons.1 hb with eb | hb'
      · rw [ea, eb]
      · exact (h.1 (ea ▸ e ▸ List.mem_map.2 ⟨b, hb', rfl⟩)).elim
    · rcases List.mem_cons.1 hb with eb | hb'
      · exact (h.1 (eb ▸ e ▸ List.mem_map.2 ⟨a, ha', rfl⟩)).elim
      · exact eq_of_nodup f l h.2 ha' hb' e

theorem mem_side (p : Bytes) (b : Bool) (x : Decl) (h : x ∈ side p b) : ∃ n, x = .fixed n := by
  unfold side at h
  cases b <;> simp at h <;> grind

theorem mem_fixed (x : Decl) (h : x ∈ fixedTypes) : ∃ n, x = .fixed n := by
  simp only [fixedTypes, List.mem_cons, List.not_mem_nil, or_false] at h
  grind

theorem mem_decls (o : Cli.Opts) (d : Doc) (x : Decl) (hx : ∀ n, x ≠ .fixed n) (hx1 : ∀ c, x ≠ .params c) (hx2 : ∀ c, x ≠ .path c) :
    x ∈ decls o d ↔ o.types = true ∧ ∃ e ∈ d.types, x ∈ ofPlace e := by
  constructor
  · intro h
    unfold decls ofTypes at h
    simp only [List.mem_append] at h
    rcases h with h | h | h
    · split at h
      · obtain ⟨n, rfl⟩ := mem_side _ _ _ h
        exact (hx n rfl).elim
      · cases h
    · split at h
      · obtain ⟨n, rfl⟩ := mem_side _ _ _ h
        exact (hx n rfl).elim
      · cases h
    · split at h
      case isFalse => cases h
      rename_i ho
      simp only [List.mem_append] at h
      rcases h with h | h | h | h | h
      · obtain ⟨n, rfl⟩ := mem_fixed _ h
        exact (hx n rfl).elim
      · obtain ⟨c, -, rfl⟩ := List.mem_map.1 h
        exact (hx1 _ rfl).elim
      · exact ⟨ho, List.mem_flatMap.1 h⟩
      · obtain ⟨c, -, rfl⟩ := List.mem_map.1 h
        exact (hx2 _ rfl).elim
      · split at h
        · cases h
        · exact (hx _ (List.mem_singleton.1 h)).elim
  · rintro ⟨ho, he⟩
    unfold decls ofTypes
    simp only [List.mem_append, ho, if_true]
    exact .inr (.inr (.inr (.inr (.inl (List.mem_flatMap.2 he)))))

theorem mem_types (o : Cli.Opts) (d : Doc) (r : Root) (ps : List Step) : .type r ps ∈ decls o d ↔ o.types = true ∧ (r, ps) ∈ d.types := by
  rw [mem_decls o d _ (by simp) (by simp) (by simp)]
  refine and_congr_right (fun _ => ⟨?_, fun h => ⟨_, h, ?_⟩⟩)
  · rintro ⟨⟨r', ps'⟩, he, hx⟩
    unfold ofPlace at hx
    split at hx
    · simp only [List.mem_cons, List.not_mem_nil, or_false, Decl.type.injEq, reduceCtorEq] at hx
      obtain ⟨rfl, rfl⟩ := hx
      rename_i heq
      rw [← heq]; exact he
    · rw [List.mem_singleton] at hx
      cases hx
      rename_i heq
      rw [← heq]; exact he
  · unfold ofPlace
    split
    · rename_i heq
      cases heq
      exact .head _
    · rename_i heq
      cases heq
      exact .head _

theorem mem_new (o : Cli.Opts) (d : Doc) (c : Option Bytes) (m : Bytes) :
    .new c m ∈ decls o d ↔ o.types = true ∧ (.message c m, []) ∈ d.types := by
  rw [mem_decls o d _ (by simp) (by simp) (by simp)]
  refine and_congr_right (fun _ => ⟨?_, fun h => ⟨_, h, .tail _ (.head _)⟩⟩)
  rintro ⟨⟨r', ps'⟩, he, hx⟩
  unfold ofPlace at hx
  split at hx
  · simp only [List.mem_cons, List.not_mem_nil, or_false, Decl.new.injEq, reduceCtorEq, false_or] at hx
    obtain ⟨rfl, rfl⟩ := hx
    rename_i heq
    rw [← heq]; exact he
  · rw [List.mem_singleton] at hx
    cases hx

/-- **C97** (v3): the names the generated file declares at the level of its package are Go identifiers, and none is
declared twice, unless two messages of the components, or of one channel, have the Go names `X` and `NewX`: then the
function that makes the first has the name of the type of the second. Missing for the full claim: that case, keys whose Go
name contains the word `From` or is not ASCII, two keys with one Go name (C42), compositions. -/
theorem C97_idents_partial (u : Uni) (o : Cli.Opts) (d : Doc) (h : DocOk u d) (hd : Distinct u d) :
    ∃ l, idents u o d = some l ∧ (∀ n ∈ l, Ident n) ∧ (l.Nodup ↔ ¬ (o.types = true ∧
      ∃ a b : Option Bytes × Bytes, (Root.message a.1 a.2, []) ∈ d.types ∧ (Root.message b.1 b.2, []) ∈ d.types ∧ Clash u a b)) := by
  obtain ⟨l, hl, e⟩ := names_total u (decls o d) (decls_ok u o d h)
  have hok := decls_ok u o d h
  refine ⟨l, hl, fun n hn => ?_, fun hn => ?_, fun hc => ?_⟩
  · have : some n ∈ l.map some := List.mem_map.2 ⟨n, hn, rfl⟩
    rw [e] at this
    obtain ⟨x, hx, hxn⟩ := List.mem_map.1 this
    obtain ⟨k, hk, hi, -⟩ := name_ok u x (hok x hx)
    rw [hxn] at hk
    cases hk
    exact hi
  · rintro ⟨ho, a, b, ha, hb, hc⟩
    have h1 : Decl.new a.1 a.2 ∈ decls o d := (mem_new ..).2 ⟨ho, ha⟩
    have h2 : Decl.type (.message b.1 b.2) [] ∈ decls o d := (mem_types ..).2 ⟨ho, hb⟩
    have he := clash_type u a.1 b.1 a.2 b.2 (hok _ h1) (hok _ h2).1 hc
    have hns : ((decls o d).map (Decl.name u)).Nodup := by
      rw [← e]
      exact nodup_map_on _ _ hn (fun _ _ _ _ e => Option.some.inj e)
    cases eq_of_nodup (Decl.name u) _ hns h1 h2 he
  · have hns : ((decls o d).map (Decl.name u)).Nodup := by
      refine nodup_of_keys _ (keyOf u) _ (keys_nodup u o d hd) (fun x hx y hy exy => ?_)
      refine name_inj u x y (hok x hx) (hok y hy) ?_ ?_ exy
      · rintro c m c' m' rfl rfl hcl
        exact hc ⟨((mem_new ..).1 hx).1, (c, m), (c', m'), ((mem_new ..).1 hx).2, ((mem_types ..).1 hy).2, hcl⟩
      · rintro c m c' m' rfl rfl hcl
        exact hc ⟨((mem_new ..).1 hy).1, (c, m), (c', m'), ((mem_new ..).1 hy).2, ((mem_types ..).1 hx).2, hcl⟩
    rw [← e] at hns
    exact nodup_of_map some l hns

/-- A document in scope: a channel with a message, one with parameters, a message and a schema of the components. -/
def doc1 : Doc where
  appReceives := true
  userReceives := false
  channels := [{ key := lit "user" }, { key := lit "event.{id}", params := true }, { key := lit "x", ref := some (lit "shared") }]
  types := [(.message (some (lit "user")) (lit "order"), []), (.payload (some (lit "user")) (lit "order"), []),
    (.payload (some (lit "user")) (lit "order"), [.prop (lit "tags"), .item]), (.message none (lit "order"), []),
    (.message none (lit "NewUser"), []), (.schema (lit "error"), [])]

example : DocOk uni0 doc1 ∧ Distinct uni0 doc1 := by
  have k : ∀ s ∈ ["user", "order", "tags", "NewUser", "error", "event.{id}", "x", "shared"], KeyOk uni0 (lit s) := by
    have : ∀ s ∈ ["user", "order", "tags", "NewUser", "error", "event.{id}", "x", "shared"],
        ((lit s).all (· < 128) && !(Naming.finish (Naming.cap 95 (lit s))).contains 70) = true := by decide
    exact fun s hs => keyOk_lit uni0 _ (this s hs)
  refine ⟨⟨?_, ?_⟩, ⟨by decide, by decide, by decide⟩⟩
  · intro e he
    simp only [doc1, List.mem_cons, List.not_mem_nil, or_false] at he
    rcases he with rfl | rfl | rfl | rfl | rfl | rfl
    · exact ⟨⟨k _ (by decide), by rintro _ ⟨⟩; exact k _ (by decide)⟩, by simp⟩
    · exact ⟨⟨k _ (by decide), by rintro _ ⟨⟩; exact k _ (by decide)⟩, by simp⟩
    · refine ⟨⟨k _ (by decide), by rintro _ ⟨⟩; exact k _ (by decide)⟩, ?_⟩
      intro s hs
      simp only [List.mem_cons, List.not_mem_nil, or_false] at hs
      rcases hs with rfl | rfl
      · exact k "tags" (by decide)
      · trivial
    · exact ⟨⟨k _ (by decide), by rintro _ ⟨⟩⟩, by simp⟩
    · exact ⟨⟨k _ (by decide), by rintro _ ⟨⟩⟩, by simp⟩
    · exact ⟨k _ (by decide), by simp⟩
  · intro c hc
    simp only [doc1, List.mem_cons, List.not_mem_nil, or_false] at hc
    rcases hc with rfl | rfl | rfl
    · exact ⟨k "user" (by decide), k "user" (by decide)⟩
    · exact ⟨k "event.{id}" (by decide), k "event.{id}" (by decide)⟩
    · exact ⟨k "x" (by decide), k "shared" (by decide)⟩
example : (idents uni0 ⟨false, false, true⟩ doc1).map (List.drop 8) = some (["EventIdChannelParameters", "OrderMessageFromUserChannel",
    "NewOrderMessageFromUserChannel", "brokerMessageToOrderMessageFromUserChannel", "OrderMessageFromUserChannelPayload",
    "ItemFromTagsPropertyFromOrderMessageFromUserChannelPayload", "OrderMessage", "NewOrderMessage", "brokerMessageToOrderMessage",
    "NewUserMessage", "NewNewUserMessage", "brokerMessageToNewUserMessage", "ErrorSchema", "UserChannelPath",
    "EventIdChannelPath", "SharedChannelPath", "ChannelsPaths"].map lit) := by decide

/-- The declarations of the two sides: only the application receives. -/
example : (idents uni0 ⟨true, true, true⟩ doc1).map (List.take 8) = some (["AppSubscriber", "AppController", "NewAppController",
    "addAppContextValues", "UserController", "NewUserController", "addUserContextValues", "AsyncAPIVersion"].map lit) := by decide

/-- **C97** violated: a document with the messages `order` and `newOrder` in its components. The file declares both a
function and a type `NewOrderMessage`, and does not compile. -/
theorem C97_violated_new :
    ∃ l, idents uni0 ⟨false, false, true⟩ ⟨false, false, [], [(.message none (lit "newOrder"), []), (.message none (lit "order"), [])]⟩ = some l ∧
      ¬ l.Nodup ∧ l.count (lit "NewOrderMessage") = 2 := by
  refine ⟨_, rfl, by decide, by decide⟩

/-- **C97** violated: two channels of a document that refer to one channel of the components, so that the constant of its
path is declared twice. -/
theorem C97_violated_path :
    ∃ l, idents uni0 ⟨false, false, true⟩ ⟨false, false, [{ key := lit "a", ref := some (lit "shared") },
      { key := lit "b", ref := some (lit "shared") }], []⟩ = some l ∧ ¬ l.Nodup ∧ l.count (lit "SharedChannelPath") = 2 := by
  refine ⟨_, rfl, by decide, by decide⟩

/-- **C97** violated (v2): the messages `order` and `newOrder` give `NewOrderMessage` twice; a message `userSignup` of the
components and a message written in the channel `user/signup` give `UserSignupMessage` twice. -/
theorem C97_violated_v2 :
    (∃ l, V2.messagesNames uni0 [lit "newOrder", lit "order"] = some l ∧ l.count (lit "NewOrderMessage") = 2) ∧
    ∃ n l, namify uni0 (lit "user/signup") = some n ∧ V2.messagesNames uni0 [n, lit "userSignup"] = some l ∧
      l.count (lit "UserSignupMessage") = 2 := by
  refine ⟨⟨_, rfl, by decide⟩, _, _, rfl, rfl, by decide⟩

end Verif.Idents
