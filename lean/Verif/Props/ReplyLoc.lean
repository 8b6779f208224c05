import Verif.Model.ReplyLoc
import Verif.Props.CorrTree

/-! # C108: reading the address of a reply in the request -/

namespace Verif.ReplyLoc

open CorrTree

/-! ## Specification -/

/-- The text at a path of a value, if nothing on the way is absent. -/
def textAt : GV → List Str → Option String
  | .text s, [] => some s
  | .ptr v, p => textAt v p
  | .struct fs, f :: rest => match GoMap.get fs f with
    | some w => textAt w rest
    | none => none
  | _, _ => none
termination_by v p => (p.length, sizeOf v)

/-- A field holds a value, or nil if it is a pointer. -/
def Holds (pointer : Bool) (inner : GV → Prop) (w : GV) : Prop :=
  if pointer then w = .nilPtr ∨ ∃ u, w = .ptr u ∧ inner u else inner w

/-- The value is of the Go type of a schema, as far as a path of fields goes; at its end there is a text. -/
def Fits (schemas : Nat → Tree) (nm : Str → Str) (force : Bool) : Tree → List Str → GV → Prop
  | _, [], v => ∃ s, v = .text s
  | t, f :: rest, v => ∃ b k c fs w, body schemas t = some b ∧ field nm b f = some (k, c) ∧ v = .struct fs ∧
      GoMap.get fs f = some w ∧ Holds (isPointer force b k c) (Fits schemas nm force c rest) w

/-- The path of a location in a schema: objects that are required, written in place, to a string or to nothing; no other
property has the same Go name as one on the path. -/
def Along (nm : Str → Str) : Tree → List Str → Prop
  | _, [] => False
  | t, v :: rest => t.info.type = "object".toList ∧ (∀ k ∈ t.props.keys, nm k = nm v → k = v) ∧
      if rest = [] then ∀ c, t.props.get v = some c → c.info.type = "string".toList
      else v ∈ t.info.required ∧ ∃ c, t.props.get v = some c ∧ Along nm c rest

/-- Whether the last name of a path is required by what holds it. -/
def lastReq (t : Tree) : List Str → Bool
  | [] => false
  | v :: rest => if rest = [] then decide (v ∈ t.info.required) else match t.props.get v with
    | some c => lastReq c rest
    | none => false

/-- Names that can be written in a location. -/
def Plain (v : Str) : Prop := '/' ∉ v ∧ '.' ∉ v ∧ '#' ∉ v ∧ v ≠ "header".toList

/-- The schema a part of a message is written in. -/
def root (d : Doc) : Option Tree → Tree
  | none => .node ⟨"object".toList, [], none⟩ []
  | some t => match t.info.ref with
    | some k => d.schemas k
    | none => t

/-- A location in the headers or in the payload of the request. -/
def location (inHeaders : Bool) (ts : List Str) : Str :=
  (if inHeaders then "$message.header#/".toList else "$message.payload#/".toList) ++ Str.join '/' ts

/-- The part of a message it is in. -/
def part (inHeaders : Bool) (m : Msg) : Option Tree := if inHeaders then m.headers else m.payload

/-- The field of the message it is in. -/
def partField (inHeaders : Bool) : Str := if inHeaders then "Headers".toList else "Payload".toList

/-- A value of the Go type of a message, as far as the location goes. -/
def FitsMsg (schemas : Nat → Tree) (nm : Str → Str) (inHeaders : Bool) (m : Msg) (path : List Str) (v : GV) : Prop :=
  ∃ t fs w, part inHeaders m = some t ∧ v = .struct fs ∧ GoMap.get fs (partField inHeaders) = some w ∧
    Fits schemas nm false t path w

/-- `Namify` on the names of the parts. -/
def NamesParts (nm : Str → Str) : Prop := nm "headers".toList = "Headers".toList ∧ nm "payload".toList = "Payload".toList

/-! ## Lemmas -/

theorem ty_object : "object".toList = tyObject := rfl
theorem ty_string : "string".toList = tyString := rfl

theorem down_cons (t : Tree) (v : Str) (rest : List Str) : down t (v :: rest) = .node t.info (t.props.put v
    (down (match t.props.get v with
      | some c => c
      | none => newSchema (if rest = [] then tyString else tyHeader)) rest)) := rfl

theorem down_info (t : Tree) (p : List Str) : (down t p).info = t.info := by
  cases p with
  | nil => rfl
  | cons v p => rfl

theorem body_object (schemas : Nat → Tree) (t : Tree) (h : t.info.type = tyObject) : body schemas t = some t := by
  simp [body, h]

theorem field_put (nm : Str → Str) (i : Info) (m : GoMap Str Tree) (v : Str) (c : Tree)
    (hinj : ∀ k ∈ m.keys, nm k = nm v → k = v) : field nm (.node i (m.put v c)) (nm v) = some (v, c) := by
  have h : (GoMap.del m v).filter (fun p => nm p.1 == nm v) = [] := by
    rw [List.filter_eq_nil_iff]
    intro p hp
    unfold GoMap.del at hp
    rw [List.mem_filter] at hp
    intro he
    have := hinj p.1 (List.mem_map.2 ⟨p, hp.1, rfl⟩) (by simpa using he)
    simp [this] at hp
  unfold field
  simp only [props_node, GoMap.put, List.filter_cons, beq_self_eq_true, if_true, h]

theorem pointer_string (i : Info) (m : List (Str × Tree)) (v : Str) (c : Tree) (hc : c.info.type = tyString) :
    isPointer false (.node i m) v c = !decide (v ∈ i.required) := by
  unfold isPointer
  rw [if_neg (by simp), hc, isInSlice_eq, show (Tree.node i m).info = i from rfl]
  simp [show tyString ≠ kwArray from by decide]

theorem pointer_required (i : Info) (m : List (Str × Tree)) (v : Str) (c : Tree) (hr : v ∈ i.required) :
    isPointer false (.node i m) v c = false := by
  unfold isPointer
  rw [if_neg (by simp), isInSlice_eq, show (Tree.node i m).info = i from rfl]
  simp [hr]

theorem lastReq_down (nm : Str → Str) : ∀ (ts : List Str) (t : Tree) (hne : ts ≠ []), Along nm t ts →
    ∃ p, parentOf (down t ts) ts = some p ∧ Dedup.isInSlice p.info.required (ts.getLast hne) = lastReq t ts := by
  intro ts
  induction ts with
  | nil => intro t h; exact absurd rfl h
  | cons v ts ih =>
    intro t _ ha
    cases ts with
    | nil => exact ⟨_, rfl, by rw [isInSlice_eq]; simp [lastReq, down_info]⟩
    | cons w ts =>
      obtain ⟨_, _, ha⟩ := ha
      rw [if_neg (by simp)] at ha
      obtain ⟨_, c, hc, ha⟩ := ha
      obtain ⟨p, hp, hl⟩ := ih c (by simp) ha
      refine ⟨p, ?_, ?_⟩
      · rw [down_cons]
        simp only [parentOf, props_node, GoMap.get_put, if_true, hc]
        exact hp
      · rw [List.getLast_cons (by simp), hl]
        simp [lastReq, hc]

theorem typeOf_down (schemas : Nat → Tree) (nm : Str → Str) : ∀ (ts : List Str) (t : Tree), Along nm t ts →
    ∃ c, typeOf schemas nm false (down t ts) (ts.map nm) = some (!lastReq t ts, c) ∧ c.info.type = tyString := by
  intro ts
  induction ts with
  | nil => intro t h; exact h.elim
  | cons v ts ih =>
    intro t ha
    obtain ⟨hty, hinj, ha⟩ := ha
    rw [ty_object] at hty
    rw [down_cons, List.map_cons, typeOf, body_object _ _ (by exact hty)]
    simp only
    rw [field_put nm _ _ _ _ hinj]
    cases ts with
    | nil =>
      simp only [List.map_nil, if_true, down, if_true] at ha ⊢
      have key : ∀ c, (match t.props.get v with
          | some c => c
          | none => newSchema tyString) = c → c.info.type = tyString := by
        intro c hc
        cases hg : t.props.get v with
        | none => rw [hg] at hc; subst hc; rfl
        | some c' => rw [hg] at hc; subst hc; exact ha _ hg
      refine ⟨_, ?_, key _ rfl⟩
      rw [pointer_string _ _ _ _ (key _ rfl)]
      rfl
    | cons w ts =>
      rw [if_neg (by simp)] at ha
      obtain ⟨_, c, hc, ha⟩ := ha
      simp only [hc]
      rw [if_neg (by simp)]
      obtain ⟨c', h1, h2⟩ := ih c ha
      refine ⟨c', ?_, h2⟩
      rw [h1]
      simp [lastReq, hc]

/-- What reading gives, by the type of the last field. -/
theorem sels_down (schemas : Nat → Tree) (nm : Str → Str) : ∀ (ts : List Str) (t : Tree) (v : GV), Along nm t ts →
    Fits schemas nm false (down t ts) (ts.map nm) v →
    if lastReq t ts then ∃ s, sels v (ts.map nm) = .ok (.text s) ∧ textAt v (ts.map nm) = some s
    else (sels v (ts.map nm) = .ok .nilPtr ∧ textAt v (ts.map nm) = none) ∨
      ∃ s, sels v (ts.map nm) = .ok (.ptr (.text s)) ∧ textAt v (ts.map nm) = some s := by
  intro ts
  induction ts with
  | nil => intro t v h; exact h.elim
  | cons a ts ih =>
    intro t v ha hf
    obtain ⟨hty, hinj, ha⟩ := ha
    rw [ty_object] at hty
    rw [down_cons, List.map_cons] at hf
    obtain ⟨b, k, c, fs, w, hb, hk, rfl, hw, hh⟩ := hf
    rw [body_object _ _ (by exact hty)] at hb
    cases hb
    rw [field_put nm _ _ _ _ hinj] at hk
    cases hk
    have e1 : sels (.struct fs) (nm a :: ts.map nm) = sels w (ts.map nm) := by
      simp only [sels, sel, hw]
    have e2 : textAt (.struct fs) (nm a :: ts.map nm) = textAt w (ts.map nm) := by
      rw [textAt, hw]
    rw [List.map_cons, e1, e2]
    cases ts with
    | nil =>
      simp only [if_true, down, List.map_nil] at ha hh ⊢
      have key : ∀ c, (match t.props.get a with
          | some c => c
          | none => newSchema tyString) = c → c.info.type = tyString := by
        intro c hc
        cases hg : t.props.get a with
        | none => rw [hg] at hc; subst hc; rfl
        | some c' => rw [hg] at hc; subst hc; exact ha _ hg
      rw [pointer_string _ _ _ _ (key _ rfl)] at hh
      by_cases hr : a ∈ t.info.required
      · have hl : lastReq t [a] = true := by simp [lastReq, hr]
        rw [if_pos hl]
        rw [decide_eq_true hr] at hh
        obtain ⟨s, rfl⟩ := hh
        exact ⟨s, rfl, by rw [textAt]⟩
      · have hl : ¬ (lastReq t [a] = true) := by simp [lastReq, hr]
        rw [if_neg hl]
        rw [decide_eq_false hr] at hh
        rcases hh with rfl | ⟨u, rfl, s, rfl⟩
        · exact Or.inl ⟨rfl, by simp [textAt]⟩
        · exact Or.inr ⟨s, rfl, by simp [textAt]⟩
    | cons x ts =>
      rw [if_neg (by simp)] at ha
      obtain ⟨hr, c, hc, ha⟩ := ha
      simp only [hc] at hh
      rw [pointer_required _ _ _ _ hr] at hh
      have hl : lastReq t (a :: x :: ts) = lastReq c (x :: ts) := by simp [lastReq, hc]
      rw [hl]
      exact ih c w ha hh

theorem not_mem_join (x : Char) (hx : x ≠ '/') : ∀ ts : List Str, (∀ t ∈ ts, x ∉ t) → x ∉ Str.join '/' ts := by
  intro ts
  induction ts with
  | nil => intro _; simp [Str.join]
  | cons t ts ih =>
    intro h
    cases ts with
    | nil => simpa [Str.join] using h t (by simp)
    | cons u ts =>
      rw [show Str.join '/' (t :: u :: ts) = t ++ '/' :: Str.join '/' (u :: ts) from rfl]
      have h1 := h t (by simp)
      have h2 := ih (fun t' ht => h t' (List.mem_cons_of_mem _ ht))
      simp only [List.mem_append, List.mem_cons, not_or]
      exact ⟨h1, hx, h2⟩

theorem dots_same (s : Str) (h : '.' ∉ s) : s.map (fun c => if c = '.' then '/' else c) = s := by
  induction s with
  | nil => rfl
  | cons c s ih =>
    have hc : c ≠ '.' := fun e => h (by simp [e])
    rw [List.map_cons, if_neg hc, ih (fun e => h (List.mem_cons_of_mem _ e))]

theorem hashes_same (s : Str) (h : '#' ∉ s) : s.filter (fun c => decide (c ≠ '#')) = s := by
  rw [List.filter_eq_self]
  intro c hc
  simp only [decide_eq_true_eq]
  exact fun e => h (e ▸ hc)

/-- The beginning of a location. -/
def kwMessage : Str := ['$', 'm', 'e', 's', 's', 'a', 'g', 'e']

theorem attributes_location (nm : Str → Str) (hn : NamesParts nm) (inHeaders : Bool) (ts : List Str) (hne : ts ≠ [])
    (hp : ∀ t ∈ ts, Plain t) : attributes nm (location inHeaders ts) = partField inHeaders :: ts.map nm := by
  have hd := not_mem_join '.' (by decide) ts (fun t ht => (hp t ht).2.1)
  have hh := not_mem_join '#' (by decide) ts (fun t ht => (hp t ht).2.2.1)
  have hmap : ts.map (attr nm) = ts.map nm := by
    apply List.map_congr_left
    intro t ht
    have hh : ¬ (t = tyHeader) := (hp t ht).2.2.2
    unfold attr
    rw [if_neg hh]
  have hsplit := Str.split_join '/' ts hne (fun t ht => (hp t ht).1)
  unfold attributes slicePath location
  cases inHeaders
  · rw [if_neg (by simp), List.map_append, List.filter_append, dots_same _ hd, hashes_same _ hh]
    rw [show (("$message.payload#/".toList).map (fun c => if c = '.' then '/' else c)).filter (fun c => decide (c ≠ '#')) =
      kwMessage ++ '/' :: (kwPayload ++ ['/']) from by decide]
    rw [List.append_assoc, List.cons_append, Str.split_append '/' kwMessage _ (by decide), List.tail_cons, List.append_assoc]
    rw [show [ '/' ] ++ Str.join '/' ts = '/' :: Str.join '/' ts from rfl, Str.split_append '/' kwPayload _ (by decide), hsplit]
    rw [List.map_cons, hmap]
    congr 1
    unfold attr
    rw [if_neg (by decide)]
    exact hn.2
  · rw [if_pos rfl, List.map_append, List.filter_append, dots_same _ hd, hashes_same _ hh]
    rw [show (("$message.header#/".toList).map (fun c => if c = '.' then '/' else c)).filter (fun c => decide (c ≠ '#')) =
      kwMessage ++ '/' :: (tyHeader ++ ['/']) from by decide]
    rw [List.append_assoc, List.cons_append, Str.split_append '/' kwMessage _ (by decide), List.tail_cons, List.append_assoc]
    rw [show [ '/' ] ++ Str.join '/' ts = '/' :: Str.join '/' ts from rfl, Str.split_append '/' tyHeader _ (by decide), hsplit]
    rw [List.map_cons, hmap]
    congr 1
    unfold attr
    rw [if_pos rfl]
    exact hn.1

theorem location_parts (inHeaders : Bool) (ts : List Str) (hne : ts ≠ []) (hp : ∀ t ∈ ts, '/' ∉ t) :
    fieldOf (location inHeaders ts) = (if inHeaders then .header else .payload) ∧ pathOf (location inHeaders ts) = ts ∧
    (Str.split '/' (location inHeaders ts)).getLast? = some (ts.getLast hne) := by
  have hlast : ∀ pre : Str, '/' ∉ pre →
      (Str.split '/' (pre ++ '/' :: Str.join '/' ts)).getLast? = some (ts.getLast hne) := by
    intro pre hpre
    rw [Str.split_append '/' pre _ hpre, Str.split_join '/' ts hne hp, List.getLast?_cons, List.getLast?_eq_some_getLast hne]
    rfl
  cases inHeaders
  · have e : location false ts = payloadPrefix ++ '/' :: Str.join '/' ts := rfl
    rw [e]
    refine ⟨?_, split_prefix payloadPrefix (by decide) ts hne hp, hlast _ (by decide)⟩
    unfold fieldOf
    have hn : headerPrefix.isPrefixOf (payloadPrefix ++ '/' :: Str.join '/' ts) = false := by
      simp [headerPrefix, payloadPrefix, List.isPrefixOf]
    rw [if_neg (by simp), if_neg (by rw [hn]; simp), if_pos (isPrefixOf_append _ _)]
    rfl
  · have e : location true ts = headerPrefix ++ '/' :: Str.join '/' ts := rfl
    rw [e]
    refine ⟨?_, split_prefix headerPrefix (by decide) ts hne hp, hlast _ (by decide)⟩
    unfold fieldOf
    rw [if_neg (by simp), if_pos (isPrefixOf_append _ _)]
    rfl

/-- The part of a message after the location is looked up. -/
def setPart (inHeaders : Bool) (m : Msg) (t : Option Tree) : Msg :=
  if inHeaders then { m with headers := t } else { m with payload := t }

theorem part_setPart (inHeaders : Bool) (m : Msg) (t : Option Tree) : part inHeaders (setPart inHeaders m t) = t := by
  cases inHeaders <;> rfl

theorem required_location (schemas : Nat → Tree) (m : MsgDef) (inHeaders : Bool) (ts : List Str) (hne : ts ≠ [])
    (hp : ∀ t ∈ ts, '/' ∉ t) (b : Bool)
    (hl : ∃ p, parentOf (locate schemas (part inHeaders m.parts) ts).2.2 ts = some p ∧
      Dedup.isInSlice p.info.required (ts.getLast hne) = b) :
    isLocationRequired schemas m (location inHeaders ts) =
      .ok (locate schemas (part inHeaders m.parts) ts).1
        { m with parts := setPart inHeaders m.parts (locate schemas (part inHeaders m.parts) ts).2.1 } b := by
  obtain ⟨h1, h2, h3⟩ := location_parts inHeaders ts hne hp
  obtain ⟨p, hq, hb⟩ := hl
  unfold isLocationRequired
  cases inHeaders
  · have h1 : fieldOf (location false ts) = .payload := h1
    simp only [part, if_neg (show ¬ (false = true) by simp)] at hq
    rw [h1]
    simp only [h2, lastRequired, h3, hq, hb]
    rfl
  · have h1 : fieldOf (location true ts) = .header := h1
    simp only [part, if_true] at hq
    rw [h1]
    simp only [h2, lastRequired, h3, hq, hb]
    rfl

theorem typeOf_body (schemas : Nat → Tree) (nm : Str → Str) (force : Bool) (t t' : Tree) (p : List Str)
    (h : body schemas t = body schemas t') : typeOf schemas nm force t p = typeOf schemas nm force t' p := by
  cases p with
  | nil => rfl
  | cons f p => rw [typeOf, typeOf, h]

theorem fits_body (schemas : Nat → Tree) (nm : Str → Str) (force : Bool) (t t' : Tree) (p : List Str) (v : GV) (hp : p ≠ [])
    (h : body schemas t = body schemas t') : Fits schemas nm force t p v ↔ Fits schemas nm force t' p v := by
  cases p with
  | nil => exact absurd rfl hp
  | cons f p => rw [Fits, Fits, h]

theorem object_of_along (nm : Str → Str) (t : Tree) (ts : List Str) (h : Along nm t ts) : t.info.type = tyObject := by
  cases ts with
  | nil => exact h.elim
  | cons v ts => exact h.1

/-- Where the location is looked up: the tree is that of the root, and the part has its type. -/
theorem locate_root (d : Doc) (nm : Str → Str) (p : Option Tree) (ts : List Str)
    (hr : ∀ t k, p = some t → t.info.ref = some k → t.info.type = []) (ha : Along nm (root d p) ts) :
    (locate d.schemas p ts).2.2 = down (root d p) ts ∧
    ∃ t, (locate d.schemas p ts).2.1 = some t ∧
      body (locate d.schemas p ts).1 t = body (locate d.schemas p ts).1 (down (root d p) ts) := by
  cases p with
  | none => exact ⟨rfl, _, rfl, rfl⟩
  | some t =>
    cases hk : t.info.ref with
    | none =>
      have h1 : locate d.schemas (some t) ts = (d.schemas, some (down t ts), down t ts) := by simp only [locate, hk]
      have h2 : root d (some t) = t := by simp only [root, hk]
      rw [h1, h2]
      exact ⟨rfl, _, rfl, rfl⟩
    | some k =>
      have h1 : locate d.schemas (some t) ts =
          (fun j => if j = k then down (d.schemas k) ts else d.schemas j, some t, down (d.schemas k) ts) := by
        simp only [locate, hk]
      have h2 : root d (some t) = d.schemas k := by simp only [root, hk]
      rw [h2] at ha
      rw [h1, h2]
      refine ⟨rfl, _, rfl, ?_⟩
      have ho := object_of_along nm _ _ ha
      rw [body_object _ (down (d.schemas k) ts) (by rw [down_info]; exact ho)]
      unfold body
      rw [if_neg (by rw [hr t k rfl hk]; decide), if_pos (hr t k rfl hk), hk]
      simp only [if_true, down_info, ho]

theorem msgType_part (schemas : Nat → Tree) (nm : Str → Str) (force : Bool) (m : Msg) (inHeaders : Bool) (p : List Str) :
    msgType schemas nm force m (partField inHeaders :: p) = (part inHeaders m).bind (fun t => typeOf schemas nm force t p) := by
  rw [msgType.eq_def]
  cases inHeaders
  · simp only
    rw [if_neg (by decide), if_pos (by decide)]
    rfl
  · simp only
    rw [if_pos (by decide)]
    rfl

/-- What is looked at, and what the code is generated for. -/
theorem generated_channel (d : Doc) (nm : Str → Str) (force : Bool) (op : Op) (m : MsgDef) (rest : List MsgDef) (inHeaders : Bool)
    (ts : List Str) (hne : ts ≠ []) (hp : ∀ t ∈ ts, '/' ∉ t) (h1 : op.messages = []) (h2 : op.channel = m :: rest)
    (h3 : (follow d m).ref = none)
    (hr : ∀ t k, part inHeaders (follow d m).parts = some t → t.info.ref = some k → t.info.type = [])
    (ha : Along nm (root d (part inHeaders (follow d m).parts)) ts) :
    generated d nm force op (location inHeaders ts) =
      some (compiles (locate d.schemas (part inHeaders (follow d m).parts) ts).1 nm force
          (setPart inHeaders (follow d m).parts (locate d.schemas (part inHeaders (follow d m).parts) ts).2.1)
          (location inHeaders ts) (lastReq (root d (part inHeaders (follow d m).parts)) ts),
        (locate d.schemas (part inHeaders (follow d m).parts) ts).1,
        setPart inHeaders (follow d m).parts (locate d.schemas (part inHeaders (follow d m).parts) ts).2.1,
        lastReq (root d (part inHeaders (follow d m).parts)) ts) := by
  have hg : getMessage d op = some (follow d m) := by simp only [getMessage, h1, h2]
  obtain ⟨hl, _⟩ := locate_root d nm _ ts hr ha
  unfold generated
  rw [hg]
  simp only
  rw [required_location d.schemas (follow d m) inHeaders ts hne hp _ (by rw [hl]; exact lastReq_down nm ts _ hne ha)]
  have hf : ∀ parts, follow d { follow d m with parts := parts } = { follow d m with parts := parts } := by
    intro parts
    simp only [follow] at h3 ⊢
    rw [h3]
  simp only [hf]

/-- **C108.** For every document, every operation without messages of its own, whose channel has a message written there
or referred to, and every location in its headers or its payload along required objects: the code that reads the address
of the reply compiles, and for every request it gives the text that is there, or `ErrChannelAddressEmpty` if there is none.
It never panics. -/
theorem C108_address_read_partial (d : Doc) (nm : Str → Str) (hn : NamesParts nm) (op : Op) (m : MsgDef) (rest : List MsgDef)
    (inHeaders : Bool) (ts : List Str) (hne : ts ≠ []) (hp : ∀ t ∈ ts, Plain t) (h1 : op.messages = [])
    (h2 : op.channel = m :: rest) (h3 : (follow d m).ref = none)
    (hr : ∀ t k, part inHeaders (follow d m).parts = some t → t.info.ref = some k → t.info.type = [])
    (ha : Along nm (root d (part inHeaders (follow d m).parts)) ts) :
    ∃ schemas target required, generated d nm false op (location inHeaders ts) = some (true, schemas, target, required) ∧
      ∀ v, FitsMsg schemas nm inHeaders target (ts.map nm) v →
        address required v (attributes nm (location inHeaders ts)) = .ok (textAt v (partField inHeaders :: ts.map nm)) := by
  have hs : ∀ t ∈ ts, '/' ∉ t := fun t ht => (hp t ht).1
  obtain ⟨_, t, ht, hb⟩ := locate_root d nm _ ts hr ha
  have hgen := generated_channel d nm false op m rest inHeaders ts hne hs h1 h2 h3 hr ha
  have hcomp : compiles (locate d.schemas (part inHeaders (follow d m).parts) ts).1 nm false
      (setPart inHeaders (follow d m).parts (locate d.schemas (part inHeaders (follow d m).parts) ts).2.1)
      (location inHeaders ts) (lastReq (root d (part inHeaders (follow d m).parts)) ts) = true := by
    unfold compiles
    rw [attributes_location nm hn inHeaders ts hne hp, msgType_part, part_setPart, ht, Option.bind_some,
      typeOf_body _ nm false t _ _ hb]
    obtain ⟨c, hc, hty⟩ := typeOf_down (locate d.schemas (part inHeaders (follow d m).parts) ts).1 nm ts _ ha
    rw [hc]
    simp only [hty, decide_true, Bool.and_true]
    cases lastReq (root d (part inHeaders (follow d m).parts)) ts <;> rfl
  rw [hcomp] at hgen
  refine ⟨_, _, _, hgen, ?_⟩
  · rintro v ⟨t', fs, w, ht', rfl, hw, hf⟩
    rw [part_setPart, ht] at ht'
    cases ht'
    rw [fits_body _ nm false t _ _ _ (by simpa using hne) hb] at hf
    have hsel := sels_down _ nm ts _ w ha hf
    rw [attributes_location nm hn inHeaders ts hne hp]
    have e1 : sels (.struct fs) (partField inHeaders :: ts.map nm) = sels w (ts.map nm) := by
      simp only [sels, sel, hw]
    have e2 : textAt (.struct fs) (partField inHeaders :: ts.map nm) = textAt w (ts.map nm) := by
      rw [textAt, hw]
    unfold address
    rw [e1, e2]
    cases hq : lastReq (root d (part inHeaders (follow d m).parts)) ts with
    | true =>
      rw [if_pos hq] at hsel
      obtain ⟨s, ha, hb⟩ := hsel
      rw [ha, hb]
      rfl
    | false =>
      rw [if_neg (by rw [hq]; simp)] at hsel
      rcases hsel with ⟨ha, hb⟩ | ⟨s, ha, hb⟩
      · rw [ha, hb]; rfl
      · rw [ha, hb]; rfl

/-! ## Where it fails -/

theorem field_some (nm : Str → Str) (t : Tree) (v k : Str) (c : Tree) (hinj : ∀ k ∈ t.props.keys, nm k = nm v → k = v)
    (h : field nm t (nm v) = some (k, c)) : k = v ∧ ∀ c', t.props.get v = some c' → c' = c := by
  unfold field at h
  split at h
  · rename_i p hf
    cases h
    have hm : (k, c) ∈ t.props.filter (fun p => nm p.1 == nm v) := by rw [hf]; simp
    rw [List.mem_filter] at hm
    have hk : k = v := hinj k (List.mem_map.2 ⟨_, hm.1, rfl⟩) (by simpa using hm.2)
    refine ⟨hk, fun c' hc => ?_⟩
    have hm' : (v, c') ∈ t.props.filter (fun p => nm p.1 == nm v) :=
      List.mem_filter.2 ⟨GoMap.mem_of_get hc, by simp⟩
    rw [hf] at hm'
    simp at hm'
    exact hm'.2
  · cases h

/-- A field that is required is no pointer. -/
theorem typeOf_required (schemas : Nat → Tree) (nm : Str → Str) : ∀ (ts : List Str) (t : Tree) (p : Bool) (c : Tree),
    Along nm t ts → lastReq t ts = true → typeOf schemas nm false t (ts.map nm) = some (p, c) → p = false := by
  intro ts
  induction ts with
  | nil => intro t p c h; exact h.elim
  | cons v ts ih =>
    intro t p c ha hl h
    obtain ⟨hty, hinj, ha⟩ := ha
    rw [ty_object] at hty
    rw [List.map_cons, typeOf, body_object _ _ hty] at h
    simp only at h
    cases hf : field nm t (nm v) with
    | none => rw [hf] at h; cases h
    | some e =>
      obtain ⟨k, x⟩ := e
      rw [hf] at h
      obtain ⟨rfl, hx⟩ := field_some nm t v k x hinj hf
      simp only at h
      cases ts with
      | nil =>
        simp only [List.map_nil, if_true] at h
        cases h
        simp only [lastReq, if_true, decide_eq_true_eq] at hl
        unfold isPointer
        rw [if_neg (by simp), isInSlice_eq]
        simp [hl]
      | cons w ts =>
        rw [if_neg (by simp)] at ha h
        obtain ⟨_, c', hc, ha⟩ := ha
        have hcx := hx c' hc
        subst hcx
        simp only [lastReq, hc, reduceCtorEq, if_false] at hl
        exact ih _ p c ha hl h

theorem body_root (d : Doc) (nm : Str → Str) (t : Tree) (ts : List Str)
    (hr : ∀ k, t.info.ref = some k → t.info.type = []) (ha : Along nm (root d (some t)) ts) :
    body d.schemas t = body d.schemas (root d (some t)) := by
  cases hk : t.info.ref with
  | none => simp only [root, hk]
  | some k =>
    have h2 : root d (some t) = d.schemas k := by simp only [root, hk]
    rw [h2] at ha ⊢
    have ho := object_of_along nm _ _ ha
    rw [body_object _ _ ho]
    unfold body
    rw [if_neg (by rw [hr k hk]; decide), if_pos (hr k hk), hk]
    simp only [ho, if_true]

/-- What is generated when the operation lists its messages, by reference as AsyncAPI wants it. -/
theorem generated_listed (d : Doc) (nm : Str → Str) (force : Bool) (op : Op) (k : Nat) (rest : List Nat) (inHeaders : Bool)
    (ts : List Str) (hne : ts ≠ []) (hp : ∀ t ∈ ts, '/' ∉ t) (h1 : op.messages = k :: rest) :
    generated d nm force op (location inHeaders ts) =
      some (compiles d.schemas nm force (d.msgs k).parts (location inHeaders ts) false, d.schemas, (d.msgs k).parts, false) := by
  have hg : getMessage d op = some ⟨some k, ⟨none, none⟩⟩ := by simp only [getMessage, h1]
  have hpart : part inHeaders (⟨some k, ⟨none, none⟩⟩ : MsgDef).parts = none := by cases inHeaders <;> rfl
  obtain ⟨q, hq, hb⟩ := requires_eq none ts hne
  have hb' : Dedup.isInSlice q.info.required (ts.getLast hne) = false := by rw [hb]; rfl
  unfold generated
  rw [hg]
  simp only
  rw [required_location d.schemas _ inHeaders ts hne hp false (by rw [hpart]; exact ⟨q, hq, hb'⟩), hpart]
  rfl

/-- **C108 is violated** (1): for every operation that lists its messages (by reference, as AsyncAPI demands) and every
location that the first of them requires, the code does not compile: the reference itself is asked, which requires
nothing. -/
theorem C108_violated_listed (d : Doc) (nm : Str → Str) (hn : NamesParts nm) (op : Op) (k : Nat) (rest : List Nat)
    (inHeaders : Bool) (ts : List Str) (hne : ts ≠ []) (hp : ∀ t ∈ ts, Plain t) (h1 : op.messages = k :: rest) (t : Tree)
    (ht : part inHeaders (d.msgs k).parts = some t) (hr : ∀ j, t.info.ref = some j → t.info.type = [])
    (ha : Along nm (root d (some t)) ts) (hl : lastReq (root d (some t)) ts = true) :
    (generated d nm false op (location inHeaders ts)).map (·.1) = some false := by
  rw [generated_listed d nm false op k rest inHeaders ts hne (fun t ht => (hp t ht).1) h1]
  simp only [Option.map_some, Option.some.injEq]
  unfold compiles
  rw [attributes_location nm hn inHeaders ts hne hp, msgType_part, ht, Option.bind_some,
    typeOf_body _ nm false t _ _ (body_root d nm t ts hr ha)]
  cases hty : typeOf d.schemas nm false (root d (some t)) (ts.map nm) with
  | none => rfl
  | some e =>
    obtain ⟨p, c⟩ := e
    have := typeOf_required d.schemas nm ts _ p c ha hl hty
    subst this
    rfl

/-- **C108 is violated** (2): nor does it compile when that message has no such part: it is created in the reference. -/
theorem C108_violated_created (d : Doc) (nm : Str → Str) (hn : NamesParts nm) (op : Op) (k : Nat) (rest : List Nat)
    (inHeaders : Bool) (ts : List Str) (hne : ts ≠ []) (hp : ∀ t ∈ ts, Plain t) (h1 : op.messages = k :: rest)
    (ht : part inHeaders (d.msgs k).parts = none) :
    (generated d nm false op (location inHeaders ts)).map (·.1) = some false := by
  rw [generated_listed d nm false op k rest inHeaders ts hne (fun t ht => (hp t ht).1) h1]
  simp only [Option.map_some, Option.some.injEq]
  unfold compiles
  rw [attributes_location nm hn inHeaders ts hne hp, msgType_part, ht]
  rfl

theorem typeOf_forced (schemas : Nat → Tree) (nm : Str → Str) : ∀ (ts : List Str) (t : Tree), Along nm t ts →
    ∃ c, typeOf schemas nm true (down t ts) (ts.map nm) = some (true, c) := by
  intro ts
  induction ts with
  | nil => intro t h; exact h.elim
  | cons v ts ih =>
    intro t ha
    obtain ⟨hty, hinj, ha⟩ := ha
    rw [ty_object] at hty
    rw [down_cons, List.map_cons, typeOf, body_object _ _ (by exact hty)]
    simp only
    rw [field_put nm _ _ _ _ hinj]
    cases ts with
    | nil =>
      simp only [List.map_nil, if_true, down, if_true] at ha ⊢
      have key : ∀ c, (match t.props.get v with
          | some c => c
          | none => newSchema tyString) = c → c.info.type = tyString := by
        intro c hc
        cases hg : t.props.get v with
        | none => rw [hg] at hc; subst hc; rfl
        | some c' => rw [hg] at hc; subst hc; exact ha _ hg
      have key2 : ∀ (q : Tree) (c : Tree), c.info.type = tyString → isPointer true q v c = true := by
        intro q c hc
        unfold isPointer
        rw [if_pos rfl, hc]
        decide
      exact ⟨_, by rw [key2 _ _ (key _ rfl)]⟩
    | cons w ts =>
      rw [if_neg (by simp)] at ha
      obtain ⟨_, c, hc, ha⟩ := ha
      simp only [hc]
      rw [if_neg (by simp)]
      exact ih c ha

/-- **C108 is violated** (3): with forced pointers, for every location that is required. -/
theorem C108_violated_forced (d : Doc) (nm : Str → Str) (hn : NamesParts nm) (op : Op) (m : MsgDef) (rest : List MsgDef)
    (inHeaders : Bool) (ts : List Str) (hne : ts ≠ []) (hp : ∀ t ∈ ts, Plain t) (h1 : op.messages = [])
    (h2 : op.channel = m :: rest) (h3 : (follow d m).ref = none)
    (hr : ∀ t k, part inHeaders (follow d m).parts = some t → t.info.ref = some k → t.info.type = [])
    (ha : Along nm (root d (part inHeaders (follow d m).parts)) ts)
    (hl : lastReq (root d (part inHeaders (follow d m).parts)) ts = true) :
    (generated d nm true op (location inHeaders ts)).map (·.1) = some false := by
  obtain ⟨_, t, ht, hb⟩ := locate_root d nm _ ts hr ha
  rw [generated_channel d nm true op m rest inHeaders ts hne (fun t ht => (hp t ht).1) h1 h2 h3 hr ha]
  simp only [Option.map_some, Option.some.injEq]
  unfold compiles
  rw [attributes_location nm hn inHeaders ts hne hp, msgType_part, part_setPart, ht, Option.bind_some,
    typeOf_body _ nm true t _ _ hb]
  obtain ⟨c, hc⟩ := typeOf_forced (locate d.schemas (part inHeaders (follow d m).parts) ts).1 nm ts _ ha
  rw [hc, hl]
  rfl

/-- The path of a location through objects; what is at its end may have any type. -/
def Objects (nm : Str → Str) : Tree → List Str → Tree → Prop
  | _, [], _ => False
  | t, v :: rest, x => t.info.type = "object".toList ∧ (∀ k ∈ t.props.keys, nm k = nm v → k = v) ∧
      ∃ c, t.props.get v = some c ∧ if rest = [] then c = x else Objects nm c rest x

theorem typeOf_objects (schemas : Nat → Tree) (nm : Str → Str) (force : Bool) : ∀ (ts : List Str) (t x : Tree), Objects nm t ts x →
    ∃ p, typeOf schemas nm force (down t ts) (ts.map nm) = some (p, x) := by
  intro ts
  induction ts with
  | nil => intro t x h; exact h.elim
  | cons v ts ih =>
    rintro t x ⟨hty, hinj, c, hc, h⟩
    rw [ty_object] at hty
    rw [down_cons, List.map_cons, typeOf, body_object _ _ (by exact hty)]
    simp only
    rw [field_put nm _ _ _ _ hinj]
    simp only [hc]
    cases ts with
    | nil =>
      rw [if_pos rfl] at h
      subst h
      rw [List.map_nil, if_pos rfl]
      exact ⟨_, rfl⟩
    | cons w ts =>
      rw [if_neg (by simp)] at h
      rw [if_neg (by simp)]
      exact ih c x h

/-- **C108 is violated** (6): a location in the message of the channel where there is something other than a string written in
place, such as an integer or a reference. The code does not compile. -/
theorem C108_violated_type (d : Doc) (nm : Str → Str) (hn : NamesParts nm) (force : Bool) (op : Op) (m : MsgDef) (rest : List MsgDef)
    (inHeaders : Bool) (ts : List Str) (hne : ts ≠ []) (hp : ∀ t ∈ ts, Plain t) (h1 : op.messages = [])
    (h2 : op.channel = m :: rest) (h3 : (follow d m).ref = none) (t x : Tree)
    (ht : part inHeaders (follow d m).parts = some t) (hr : t.info.ref = none) (ho : Objects nm t ts x)
    (hx : x.info.type ≠ "string".toList) :
    (generated d nm force op (location inHeaders ts)).map (·.1) = some false := by
  have hg : getMessage d op = some (follow d m) := by simp only [getMessage, h1, h2]
  have hl : locate d.schemas (some t) ts = (d.schemas, some (down t ts), down t ts) := by simp only [locate, hr]
  obtain ⟨q, hq, hb⟩ := requires_eq (some t) ts hne
  unfold generated
  rw [hg]
  simp only
  rw [required_location d.schemas (follow d m) inHeaders ts hne (fun t ht => (hp t ht).1) _ (by rw [ht, hl]; exact ⟨q, hq, hb⟩)]
  have hf : ∀ parts, follow d { follow d m with parts := parts } = { follow d m with parts := parts } := by
    intro parts
    simp only [follow] at h3 ⊢
    rw [h3]
  simp only [hf, ht, hl, Option.map_some, Option.some.injEq]
  obtain ⟨p, h⟩ := typeOf_objects d.schemas nm force ts t x ho
  have hx : x.info.type ≠ tyString := hx
  unfold compiles
  rw [attributes_location nm hn inHeaders ts hne hp, msgType_part, part_setPart, Option.bind_some, h]
  simp only [decide_eq_false hx, Bool.and_false]

/-! ### Examples -/

/-- A schema with properties. -/
def obj (required : List Str) (props : List (Str × Tree)) : Tree := .node ⟨tyObject, required, none⟩ props
def str : Tree := .node ⟨tyString, [], none⟩ []
def kReplyTo : Str := ['r', 'e', 'p', 'l', 'y', 'T', 'o']
def kMeta : Str := ['m', 'e', 't', 'a']

/-- The first letter in upper case. -/
def capital : Str → Str
  | [] => []
  | c :: s => c.toUpper :: s

/-- A request with a required header `replyTo`. -/
def request : MsgDef := ⟨none, ⟨some (obj [kReplyTo] [(kReplyTo, str)]), none⟩⟩
/-- A request with the address in an optional object of its payload. -/
def nested : MsgDef := ⟨none, ⟨none, some (obj [] [(kMeta, obj [kReplyTo] [(kReplyTo, str)])])⟩⟩
/-- A request with the address in a property named `header` of its payload. -/
def named : MsgDef := ⟨none, ⟨none, some (obj [tyHeader] [(tyHeader, str)])⟩⟩

def doc : Doc := ⟨fun _ => request, fun _ => str⟩

theorem capital_names : NamesParts capital := by unfold NamesParts; decide

theorem plain_replyTo : ∀ t ∈ [kReplyTo], Plain t := by
  intro t ht
  simp only [List.mem_singleton] at ht
  subst ht
  unfold Plain
  decide

theorem request_along : Along capital (root doc request.parts.headers) [kReplyTo] := by
  refine ⟨rfl, ?_, ?_⟩
  · intro k hk _
    have : k ∈ [kReplyTo] := hk
    simpa using this
  · rw [if_pos rfl]
    intro c hc
    have : some str = some c := hc
    cases this
    rfl

/-- **C108 is violated** (4): an optional object on the way. The code compiles, and a request without that object makes it
panic. -/
theorem C108_violated_panic : (generated doc capital false ⟨[], [nested]⟩ (location false [kMeta, kReplyTo])).map
      (fun r => (r.1, r.2.2.2)) = some (true, true) ∧
    address true (.struct [("Payload".toList, .struct [(capital kMeta, .nilPtr)])])
      (attributes capital (location false [kMeta, kReplyTo])) = .panic := by decide

/-- **C108 is violated** (5): a property named `header`, which is written `Headers`. -/
theorem C108_violated_header : (generated doc capital false ⟨[], [named]⟩ (location false [tyHeader])).map (·.1) = some false := by
  decide

/-- The hypotheses of the theorems hold for the required header `replyTo`, in a message of the channel … -/
example : ∃ schemas target required,
    generated doc capital false ⟨[], [request]⟩ (location true [kReplyTo]) = some (true, schemas, target, required) ∧
      ∀ v, FitsMsg schemas capital true target [capital kReplyTo] v →
        address required v (attributes capital (location true [kReplyTo])) = .ok (textAt v ["Headers".toList, capital kReplyTo]) :=
  C108_address_read_partial doc capital capital_names ⟨[], [request]⟩ request [] true [kReplyTo] (by simp) plain_replyTo rfl rfl rfl
    (by intro t k h; cases h; intro h; cases h) request_along

/-- … and in a message that the operation refers to. -/
example : (generated doc capital false ⟨[0], [request]⟩ (location true [kReplyTo])).map (·.1) = some false :=
  C108_violated_listed doc capital capital_names ⟨[0], [request]⟩ 0 [] true [kReplyTo] (by simp) plain_replyTo rfl _ rfl
    (by intro k h; cases h) request_along (by decide)

example : (generated doc capital true ⟨[], [request]⟩ (location true [kReplyTo])).map (·.1) = some false :=
  C108_violated_forced doc capital capital_names ⟨[], [request]⟩ request [] true [kReplyTo] (by simp) plain_replyTo rfl rfl rfl
    (by intro t k h; cases h; intro h; cases h) request_along (by decide)

/-- An address that is there, and one that is not. -/
example : address true (.struct [("Headers".toList, .struct [(capital kReplyTo, .text "a")])])
      (attributes capital (location true [kReplyTo])) = .ok (some "a") ∧
    address false (.struct [("Headers".toList, .struct [(capital kReplyTo, .nilPtr)])])
      (attributes capital (location true [kReplyTo])) = .ok none := by decide

/-- A request whose header `replyTo` is a number. -/
def numbered : Tree := .node ⟨['n', 'u', 'm', 'b', 'e', 'r'], [], none⟩ []

example : (generated doc capital false ⟨[], [⟨none, ⟨some (obj [] [(kReplyTo, numbered)]), none⟩⟩]⟩ (location true [kReplyTo])).map (·.1) =
    some false :=
  C108_violated_type doc capital capital_names false _ ⟨none, ⟨some (obj [] [(kReplyTo, numbered)]), none⟩⟩ [] true [kReplyTo] (by simp)
    plain_replyTo rfl rfl rfl _ numbered rfl rfl
    ⟨rfl, by intro k hk _; simpa [obj, props_node, GoMap.keys] using hk, numbered, rfl, by rw [if_pos rfl]⟩ (by decide)

end Verif.ReplyLoc
