import Verif.Model.Names2
import Verif.Props.Idents2
import Verif.Props.Naming

/-!
# C69 with AsyncAPI v2: when two places of a document get the same type name

Names are put one after the other, so that only the words along the way count.
-/

namespace Verif.Names2

open Naming (Uni Bytes namify Word Words text capWord IsName Ascii)
open Names (lit Step stepName2)
open Idents.V2 (Src)

/-- A key: small words and what is between them. -/
abbrev Key := List (Bytes × Bytes)

/-- The words of a key. -/
def Key.words (k : Key) : List Bytes := k.map (·.2)

/-- A place where a message is written: an operation of a channel (the only one, or one of two), or the components. -/
inductive At
  | only (channel : Key)
  | subscribe (channel : Key)
  | publish (channel : Key)
  | comp (key : Key)

inductive Start
  | schema (key : Key)
  | payload (s : At)
  | headers (s : At)

inductive Go
  | prop (key : Key)
  | item | extra | anyOf | oneOf | allOf

def At.key : At → Key
  | .only k | .subscribe k | .publish k | .comp k => k
def Start.key : Start → Key
  | .schema k => k
  | .payload s | .headers s => s.key

/-- The words of a place of a message, of a start and of a step. -/
def At.words : At → List Bytes
  | .only k => k.words ++ [lit "message"]
  | .subscribe k => k.words ++ [lit "subscribe", lit "message"]
  | .publish k => k.words ++ [lit "publish", lit "message"]
  | .comp k => k.words ++ [lit "message"]
def Start.words : Start → List Bytes
  | .schema k => k.words ++ [lit "schema"]
  | .payload s => s.words ++ [lit "payload"]
  | .headers s => s.words ++ [lit "headers"]
def Go.words : Go → List Bytes
  | .prop k => k.words
  | .item => [lit "item"]
  | .extra => [lit "additional", lit "properties"]
  | .anyOf => [lit "any", lit "of"]
  | .oneOf => [lit "one", lit "of"]
  | .allOf => [lit "all", lit "of"]

/-- The words along a way. -/
def along (r : Start) (ps : List Go) : List Bytes := r.words ++ ps.flatMap Go.words

/-- The keys are made of small words. -/
def Ok (r : Start) (ps : List Go) : Prop := Words r.key ∧ ∀ k, Go.prop k ∈ ps → Words k

/-- What the document has there. -/
def At.src : At → Src
  | .only k => .op (text k) []
  | .subscribe k => .op (text k) (lit "Subscribe")
  | .publish k => .op (text k) (lit "Publish")
  | .comp k => .comp (text k)
def Start.root : Start → Root2
  | .schema k => .schema (text k)
  | .payload s => .payload s.src
  | .headers s => .headers s.src
def Go.step : Go → Step2
  | .prop k => .step (.prop (text k))
  | .item => .step .item
  | .extra => .step .extra
  | .anyOf => .anyOf
  | .oneOf => .oneOf
  | .allOf => .allOf

/-- The name some words give. -/
def goName (ws : List Bytes) : Bytes := ws.flatMap capWord

theorem goName_append (a b : List Bytes) : goName (a ++ b) = goName a ++ goName b := List.flatMap_append

theorem namify_key (u : Uni) (k : Key) (h : Words k) : namify u (text k) = some (goName k.words) := by
  rw [Naming.namify_text u k h]
  unfold goName Key.words
  rw [List.flatMap_map]

theorem isLower_lt {c : Nat} (h : Naming.isLower c = true) : c < 128 := Naming.isAlnum_lt (by simp [Naming.isAlnum, h])

theorem isDigit_lt {c : Nat} (h : Naming.isDigit c = true) : c < 128 := Naming.isAlnum_lt (by simp [Naming.isAlnum, h])

theorem ascii_text (k : Key) (h : Words k) : Ascii (text k) := by
  intro b hb
  obtain ⟨e, he, hb⟩ := List.mem_flatMap.mp hb
  rcases List.mem_append.mp hb with hb | hb
  · exact ((h.1 e he).2 b hb).1
  · obtain ⟨c, t, e2, hc, ht⟩ := (h.1 e he).1
    rw [e2] at hb
    rcases List.mem_cons.mp hb with rfl | hb
    · exact isLower_lt hc
    · exact (ht b hb).elim isLower_lt isDigit_lt

theorem word_lit {w : Bytes} (h : (match w with
    | [] => false
    | b :: t => Naming.isLower b && t.all (fun c => Naming.isLower c || Naming.isDigit c)) = true) : Word w := by
  cases w with
  | nil => cases h
  | cons b t =>
    simp only [Bool.and_eq_true, List.all_eq_true, Bool.or_eq_true] at h
    exact ⟨b, t, rfl, h.1, h.2⟩

theorem isName_words (u : Uni) (k : Key) (h : Words k) : IsName (goName k.words) :=
  Names.namify_isName u (ascii_text k h) (namify_key u k h)

theorem words_key (k : Key) (h : Words k) : ∀ w ∈ k.words, Word w := by
  intro w hw
  obtain ⟨e, he, rfl⟩ := List.mem_map.mp hw
  exact (h.1 e he).1

/-- The name of a message. -/
theorem src_words (u : Uni) (s : At) (h : Words s.key) : s.src.name u = some (goName s.words) ∧ IsName (goName s.words) := by
  have hm : IsName (lit "Message") := Idents.V2.isName_message
  have op : ∀ (k : Key) (suf : Bytes) (sw : List Bytes), Words k → IsName suf → goName sw = suf →
      (Src.op (text k) suf).name u = some (goName (k.words ++ sw ++ [lit "message"])) ∧
        IsName (goName (k.words ++ sw ++ [lit "message"])) := by
    intro k suf sw hk hs e
    have h1 : IsName (goName k.words ++ suf) := Names.isName_append (isName_words u k hk) hs
    have h2 := Names.isName_append h1 hm
    have e2 : goName (k.words ++ sw ++ [lit "message"]) = goName k.words ++ suf ++ lit "Message" := by
      rw [goName_append, goName_append, e]; rfl
    rw [e2]
    refine ⟨?_, h2⟩
    unfold Src.name Src.raw
    simp only [namify_key u k hk, Option.bind_some, Naming.namify_name u h1]
    exact Naming.namify_name u h2
  cases s with
  | only k =>
    have := op k [] [] h ⟨by simp, by simp⟩ rfl
    rw [List.append_nil] at this
    exact this
  | subscribe k =>
    have := op k (lit "Subscribe") [lit "subscribe"] h (Idents.V2.isName_of (by decide)) (by decide)
    rw [List.append_assoc] at this
    exact this
  | publish k =>
    have := op k (lit "Publish") [lit "publish"] h (Idents.V2.isName_of (by decide)) (by decide)
    rw [List.append_assoc] at this
    exact this
  | comp k =>
    have e2 : goName (k.words ++ [lit "message"]) = goName k.words ++ lit "Message" := by rw [goName_append]; rfl
    have h2 := Names.isName_append (isName_words u k h) hm
    unfold At.words
    rw [e2]
    refine ⟨?_, h2⟩
    show (some (text k)).bind (fun k => namify u (k ++ lit "Message")) = _
    rw [Option.bind_some, Idents.V2.namify_append u _ _ (ascii_text k h) hm, namify_key u k h]
    rfl

theorem root_words (u : Uni) (r : Start) (h : Words r.key) :
    rootName2 u r.root = some (goName r.words) ∧ IsName (goName r.words) := by
  have under : ∀ (a n : Bytes), Ascii a → IsName n → namify u (a ++ (95 :: n)) = (namify u a).map (· ++ n) :=
    fun a n ha hn => Names.namify_sep u a n ha hn
  cases r with
  | schema k =>
    have hn : IsName (lit "Schema") := Idents.V2.isName_of (by decide)
    have e : goName (k.words ++ [lit "schema"]) = goName k.words ++ lit "Schema" := by rw [goName_append]; rfl
    unfold Start.words
    rw [e]
    refine ⟨?_, Names.isName_append (isName_words u k h) hn⟩
    show namify u (text k ++ (95 :: lit "Schema")) = _
    rw [under _ _ (ascii_text k h) hn, namify_key u k h]
    rfl
  | payload s =>
    obtain ⟨h1, h2⟩ := src_words u s h
    have hn : IsName (lit "Payload") := Idents.V2.isName_of (by decide)
    have e : goName (s.words ++ [lit "payload"]) = goName s.words ++ lit "Payload" := by rw [goName_append]; rfl
    unfold Start.words
    rw [e]
    refine ⟨?_, Names.isName_append h2 hn⟩
    show (s.src.name u).bind (fun n => namify u (n ++ (95 :: lit "Payload"))) = _
    rw [h1, Option.bind_some, under _ _ (Names.ascii_name h2) hn, Naming.namify_name u h2]
    rfl
  | headers s =>
    obtain ⟨h1, h2⟩ := src_words u s h
    have hn : IsName (lit "Headers") := Idents.V2.isName_of (by decide)
    have e : goName (s.words ++ [lit "headers"]) = goName s.words ++ lit "Headers" := by rw [goName_append]; rfl
    unfold Start.words
    rw [e]
    refine ⟨?_, Names.isName_append h2 hn⟩
    show (s.src.name u).bind (fun n => namify u (n ++ (95 :: lit "Headers"))) = _
    rw [h1, Option.bind_some, under _ _ (Names.ascii_name h2) hn, Naming.namify_name u h2]
    rfl

theorem step_words (u : Uni) (n : Bytes) (hn : IsName n) (g : Go) (h : ∀ k, g = .prop k → Words k) :
    step2 u n g.step = some (n ++ goName g.words) ∧ IsName (n ++ goName g.words) := by
  have fixed : ∀ (w : Bytes), IsName w → namify u (n ++ w) = some (n ++ w) ∧ IsName (n ++ w) := fun w hw =>
    ⟨Naming.namify_name u (Names.isName_append hn hw), Names.isName_append hn hw⟩
  cases g with
  | prop k =>
    have hk := h k rfl
    obtain ⟨h1, h2⟩ := fixed _ (isName_words u k hk)
    refine ⟨?_, h2⟩
    show (namify u (text k)).bind (fun m => namify u (n ++ m)) = _
    rw [namify_key u k hk]
    exact h1
  | item => exact fixed _ (Idents.V2.isName_of (by decide))
  | extra => exact fixed _ (Idents.V2.isName_of (by decide))
  | anyOf => exact fixed _ (Idents.V2.isName_of (by decide))
  | oneOf => exact fixed _ (Idents.V2.isName_of (by decide))
  | allOf => exact fixed _ (Idents.V2.isName_of (by decide))

theorem path_words (u : Uni) (ps : List Go) (n : Bytes) (hn : IsName n) (h : ∀ k, Go.prop k ∈ ps → Words k) :
    nameAt2 u n (ps.map Go.step) = some (n ++ goName (ps.flatMap Go.words)) ∧ IsName (n ++ goName (ps.flatMap Go.words)) := by
  induction ps generalizing n with
  | nil => simpa [nameAt2, goName] using hn
  | cons g ps ih =>
    obtain ⟨h1, h2⟩ := step_words u n hn g (fun k e => h k (e ▸ .head _))
    obtain ⟨h3, h4⟩ := ih _ h2 (fun k hk => h k (.tail _ hk))
    rw [List.flatMap_cons, goName_append, ← List.append_assoc]
    refine ⟨?_, h4⟩
    rw [List.map_cons, nameAt2, h1]
    exact h3

/-- The name of a place is its words, one after the other. -/
theorem type_words (u : Uni) (r : Start) (ps : List Go) (h : Ok r ps) :
    typeName2 u r.root (ps.map Go.step) = some (goName (along r ps)) := by
  obtain ⟨h1, h2⟩ := root_words u r h.1
  obtain ⟨h3, h4⟩ := path_words u ps _ h2 h.2
  unfold typeName2 along
  rw [h1, Option.bind_some, h3, goName_append]
  exact Naming.namify_name u h4

theorem along_ok (r : Start) (ps : List Go) (h : Ok r ps) : ∀ w ∈ along r ps, Word w := by
  have lits : ∀ w ∈ [lit "message", lit "subscribe", lit "publish", lit "schema", lit "payload", lit "headers", lit "item",
      lit "additional", lit "properties", lit "any", lit "one", lit "all", lit "of"], Word w := by
    intro w hw
    apply word_lit
    revert w
    decide
  have hat : ∀ s : At, Words s.key → ∀ w ∈ s.words, Word w := by
    intro s hs w hw
    cases s <;> rcases List.mem_append.mp hw with hw | hw <;>
      first
        | exact words_key _ hs w hw
        | (refine lits w ?_; simp only [List.mem_cons, List.not_mem_nil, or_false] at hw ⊢; grind)
  intro w hw
  rcases List.mem_append.mp hw with hw | hw
  · cases r with
    | schema k =>
      rcases List.mem_append.mp hw with hw | hw
      · exact words_key k h.1 w hw
      · refine lits w ?_; simp only [List.mem_cons, List.not_mem_nil, or_false] at hw ⊢; grind
    | payload s =>
      rcases List.mem_append.mp hw with hw | hw
      · exact hat s h.1 w hw
      · refine lits w ?_; simp only [List.mem_cons, List.not_mem_nil, or_false] at hw ⊢; grind
    | headers s =>
      rcases List.mem_append.mp hw with hw | hw
      · exact hat s h.1 w hw
      · refine lits w ?_; simp only [List.mem_cons, List.not_mem_nil, or_false] at hw ⊢; grind
  · obtain ⟨g, hg, hw⟩ := List.mem_flatMap.mp hw
    cases g with
    | prop k => exact words_key k (h.2 k hg) w hw
    | _ => refine lits w ?_; simp only [Go.words, List.mem_cons, List.not_mem_nil, or_false] at hw ⊢; grind

/-- **C69, v2 (partial: keys of small words).** Two places of a document, however deep, get the same type name exactly when
the words along the two ways are the same. -/
theorem C69_v2_same_name_partial (u : Uni) (r r' : Start) (ps qs : List Go) (h : Ok r ps) (h' : Ok r' qs) :
    (∃ n, typeName2 u r.root (ps.map Go.step) = some n) ∧
    (typeName2 u r.root (ps.map Go.step) = typeName2 u r'.root (qs.map Go.step) ↔ along r ps = along r' qs) := by
  rw [type_words u r ps h, type_words u r' qs h', Option.some.injEq]
  refine ⟨⟨_, rfl⟩, fun e => ?_, fun e => by rw [e]⟩
  exact Naming.flatMap_capWord_inj _ _ (along_ok r ps h) (along_ok r' qs h') e

/-- So the types of any list of places are different exactly when their words are. -/
theorem C69_v2_types_partial (u : Uni) (places : List (Start × List Go)) (h : ∀ p ∈ places, Ok p.1 p.2) :
    (places.map (fun p => typeName2 u p.1.root (p.2.map Go.step))).Nodup ↔ (places.map (fun p => along p.1 p.2)).Nodup := by
  unfold List.Nodup
  rw [List.pairwise_map, List.pairwise_map]
  constructor
  · exact fun hp => hp.imp_of_mem fun ha hb hne e => hne ((C69_v2_same_name_partial u _ _ _ _ (h _ ha) (h _ hb)).2.mpr e)
  · exact fun hp => hp.imp_of_mem fun ha hb hne e => hne ((C69_v2_same_name_partial u _ _ _ _ (h _ ha) (h _ hb)).2.mp e)

/-- **Violated** inside one schema, for every two keys: the property `c` of the property `b`, and the property `b_c` next to
`b`, below any place. -/
theorem C69_v2_violated_nested (u : Uni) (r : Start) (ps : List Go) (h : Ok r ps) (b c bc : Key) (hb : Words b) (hc : Words c)
    (hbc : Words bc) (e : bc.words = b.words ++ c.words) :
    typeName2 u r.root ((ps ++ [Go.prop b, Go.prop c]).map Go.step) = typeName2 u r.root ((ps ++ [Go.prop bc]).map Go.step) := by
  refine (C69_v2_same_name_partial u r r _ _ ⟨h.1, ?_⟩ ⟨h.1, ?_⟩).2.mpr ?_
  · intro k hk
    rcases List.mem_append.mp hk with hk | hk
    · exact h.2 k hk
    · simp only [List.mem_cons, Go.prop.injEq, List.not_mem_nil, or_false] at hk
      rcases hk with rfl | rfl <;> assumption
  · intro k hk
    rcases List.mem_append.mp hk with hk | hk
    · exact h.2 k hk
    · simp only [List.mem_cons, Go.prop.injEq, List.not_mem_nil, or_false] at hk
      subst hk; exact hbc
  · simp [along, Go.words, e]

/-- **Violated** between a message and a schema of the components, for every key of a message and every property: the type of
the property `…_schema` of a payload and the schema named after the way to it. -/
theorem C69_v2_violated_roots (u : Uni) (m a k : Key) (hm : Words m) (ha : Words a) (hk : Words k) (aw : List Bytes)
    (e : a.words = aw ++ [lit "schema"]) (e2 : k.words = m.words ++ [lit "message", lit "payload"] ++ aw) :
    typeName2 u (Start.payload (.comp m)).root [(Go.prop a).step] = typeName2 u (Start.schema k).root [] := by
  refine (C69_v2_same_name_partial u (.payload (.comp m)) (.schema k) [.prop a] [] ⟨hm, ?_⟩ ⟨hk, nofun⟩).2.mpr ?_
  · intro k hk
    simp only [List.mem_cons, Go.prop.injEq, List.not_mem_nil, or_false] at hk
    subst hk; exact ha
  · simp [along, Go.words, Start.words, At.words, e, e2]

/-- **C97 is violated** by nested types too, for every key of a message: the type of the property `path` of its payload has
the name of the path constant of a channel named after the way to the payload. -/
theorem C97_v2_violated_nested (u : Uni) (m p c : Key) (hm : Words m) (hp : Words p) (hc : Words c) (e : p.words = [lit "path"])
    (e2 : c.words = m.words ++ [lit "message", lit "payload"]) :
    typeName2 u (Start.payload (.comp m)).root [(Go.prop p).step] = (Idents.V2.Decl.path (text c)).name u ∧
      ((Idents.V2.Decl.path (text c)).name u).isSome = true := by
  have h1 := type_words u (.payload (.comp m)) [.prop p] ⟨hm, by
    intro k hk
    simp only [List.mem_cons, Go.prop.injEq, List.not_mem_nil, or_false] at hk
    subst hk; exact hp⟩
  have h2 := Idents.V2.name_ex u (d := .path (text c)) (ascii_text c hc)
  have h3 : Idents.V2.g (text c) = goName c.words := by
    have := namify_key u c hc
    rw [Idents.V2.namify_g u (ascii_text c hc)] at this
    exact Option.some.inj this
  have h4 : Idents.V2.ex (.path (text c)) = goName (along (.payload (.comp m)) [.prop p]) := by
    show Idents.V2.g (text c) ++ lit "Path" = _
    rw [h3, e2]
    simp only [along, Start.words, At.words, List.flatMap_cons, List.flatMap_nil, List.append_nil, Go.words, e]
    rw [goName_append, goName_append, goName_append, goName_append]
    have x : goName [lit "message", lit "payload"] = goName [lit "message"] ++ goName [lit "payload"] := by decide
    have y : goName [lit "path"] = lit "Path" := by decide
    rw [x, y]
    simp only [List.append_assoc]
  rw [h2]
  exact ⟨h1.trans (by rw [h4]), rfl⟩

/-! ## Examples -/

/-- `sep` between small words. -/
def key (s : Bytes) (ws : List Bytes) : Key :=
  match ws with
  | [] => []
  | w :: ws => ([], w) :: ws.map (fun w => (s, w))

theorem key_ok {k : Key} (h : (k.all (fun e => (match e.2 with
      | [] => false
      | b :: t => Naming.isLower b && t.all (fun c => Naming.isLower c || Naming.isDigit c)) &&
        e.1.all (fun c => decide (c < 128) && !Naming.isAlnum c)) && k.tail.all (fun e => !e.1.isEmpty)) = true) : Words k := by
  simp only [Bool.and_eq_true, List.all_eq_true] at h
  refine ⟨fun e he => ⟨word_lit (h.1 e he).1, fun c hc => ?_⟩, fun e he e0 => ?_⟩
  · have := (h.1 e he).2 c hc
    simpa using this
  · have := h.2 e he
    simp [e0] at this

/-- The way to the city of the address of a user, and to another place. -/
example : Ok (.schema (key (lit "_") [lit "user"])) [.prop (key (lit "_") [lit "address"]), .item, .prop (key (lit "-") [lit "home", lit "city"])] :=
  ⟨key_ok (by decide), by
    intro k hk
    simp only [List.mem_cons, Go.prop.injEq, List.not_mem_nil, or_false, reduceCtorEq, false_or] at hk
    rcases hk with rfl | rfl <;> exact key_ok (by decide)⟩

example : along (.schema (key (lit "_") [lit "user"])) [.prop (key (lit "_") [lit "address"])] ≠
    along (.schema (key (lit "_") [lit "user"])) [.item] := by decide

/-- `user_address` next to `user` with an `address`. -/
example (u : Uni) : typeName2 u (.schema (lit "s")) [.step (.prop (lit "user")), .step (.prop (lit "address"))] =
    typeName2 u (.schema (lit "s")) [.step (.prop (lit "user_address"))] :=
  C69_v2_violated_nested u (.schema (key [] [lit "s"])) [] ⟨key_ok (by decide), nofun⟩ (key [] [lit "user"]) (key [] [lit "address"])
    (key (lit "_") [lit "user", lit "address"]) (key_ok (by decide)) (key_ok (by decide)) (key_ok (by decide)) (by decide)

/-- The property `data_schema` of the payload of the message `ping`, and the schema `ping_message_payload_data`. -/
example (u : Uni) : typeName2 u (.payload (.comp (lit "ping"))) [.step (.prop (lit "data_schema"))] =
    typeName2 u (.schema (lit "ping_message_payload_data")) [] :=
  C69_v2_violated_roots u (key [] [lit "ping"]) (key (lit "_") [lit "data", lit "schema"])
    (key (lit "_") [lit "ping", lit "message", lit "payload", lit "data"]) (key_ok (by decide)) (key_ok (by decide))
    (key_ok (by decide)) [lit "data"] (by decide) (by decide)

/-- The property `path` of the payload of the message `ping`, and the channel `ping/message/payload`. -/
example (u : Uni) : typeName2 u (.payload (.comp (lit "ping"))) [.step (.prop (lit "path"))] =
    (Idents.V2.Decl.path (lit "ping/message/payload")).name u :=
  (C97_v2_violated_nested u (key [] [lit "ping"]) (key [] [lit "path"]) (key (lit "/") [lit "ping", lit "message", lit "payload"])
    (key_ok (by decide)) (key_ok (by decide)) (key_ok (by decide)) (by decide) (by decide)).1

end Verif.Names2
