import Verif.Model.NatsWire
import Verif.Spec.NatsWire
import Verif.Props.Transport

/-! # C115: headers over NATS -/

namespace Verif.Transport

/-! ## Names -/

def marks : List Char := ['!', '#', '$', '%', '&', '\'', '*', '+', '-', '.', '^', '_', '`', '|', '~']

theorem isToken_iff (c : Char) : isToken c = true ↔ c.isAlphanum = true ∨ c ∈ "!#$%&'*+-.^_`|~".toList := by
  have hm : "!#$%&'*+-.^_`|~".toList = marks := rfl
  rw [hm]
  have e1 : 'a'.toNat = 97 := rfl
  have e2 : 'z'.toNat = 122 := rfl
  have e3 : 'A'.toNat = 65 := rfl
  have e4 : 'Z'.toNat = 90 := rfl
  have e5 : '0'.toNat = 48 := rfl
  have e6 : '9'.toNat = 57 := rfl
  have h1 : c.isAlphanum = true ↔ (97 ≤ c.toNat ∧ c.toNat ≤ 122) ∨ (65 ≤ c.toNat ∧ c.toNat ≤ 90) ∨
      (48 ≤ c.toNat ∧ c.toNat ≤ 57) := by
    simp only [Char.isAlphanum, Char.isAlpha, Char.isUpper, Char.isLower, Char.isDigit, Bool.or_eq_true,
      Bool.and_eq_true, decide_eq_true_eq, UInt32.le_iff_toNat_le, ge_iff_le, Char.toNat]
    constructor
    · rintro ((⟨a, b⟩ | ⟨a, b⟩) | ⟨a, b⟩)
      · exact .inr (.inl ⟨a, b⟩)
      · exact .inl ⟨a, b⟩
      · exact .inr (.inr ⟨a, b⟩)
    · rintro (⟨a, b⟩ | ⟨a, b⟩ | ⟨a, b⟩)
      · exact .inl (.inr ⟨a, b⟩)
      · exact .inl (.inl ⟨a, b⟩)
      · exact .inr ⟨a, b⟩
  rw [h1]
  unfold isToken
  rw [e1, e2, e3, e4, e5, e6, Bool.or_eq_true, Bool.or_eq_true, Bool.or_eq_true, Bool.and_eq_true, Bool.and_eq_true,
    Bool.and_eq_true, List.contains_iff_mem]
  simp only [decide_eq_true_eq]
  show (((_ ∨ _) ∨ _) ∨ c ∈ marks) ↔ _
  constructor
  · rintro (((h | h) | h) | h)
    · exact .inl (.inl h)
    · exact .inl (.inr (.inl h))
    · exact .inl (.inr (.inr h))
    · exact .inr h
  · rintro ((h | h | h) | h)
    · exact .inl (.inl (.inl h))
    · exact .inl (.inl (.inr h))
    · exact .inl (.inr h)
    · exact .inr h

theorem isToken_small (c : Char) (h : isToken c = true) : c.toNat < 128 ∧ c.toNat ≠ 58 ∧ c.toNat ≠ 10 := by
  unfold isToken at h
  have e1 : 'a'.toNat = 97 := rfl
  have e2 : 'z'.toNat = 122 := rfl
  have e3 : 'A'.toNat = 65 := rfl
  have e4 : 'Z'.toNat = 90 := rfl
  have e5 : '0'.toNat = 48 := rfl
  have e6 : '9'.toNat = 57 := rfl
  rw [e1, e2, e3, e4, e5, e6, Bool.or_eq_true, Bool.or_eq_true, Bool.or_eq_true, Bool.and_eq_true, Bool.and_eq_true,
    Bool.and_eq_true, List.contains_iff_mem] at h
  simp only [decide_eq_true_eq] at h
  rcases h with ((h | h) | h) | h
  · omega
  · omega
  · omega
  · have : ∀ c ∈ marks, c.toNat < 128 ∧ c.toNat ≠ 58 ∧ c.toNat ≠ 10 := by decide
    exact this c h

theorem validName_iff (k : String) : validName k = true ↔ Token k := by
  unfold validName Token
  simp only [Bool.and_eq_true, Bool.not_eq_true', List.all_eq_true, isToken_iff, List.isEmpty_eq_false_iff]
  rw [show (k.toList ≠ []) ↔ k ≠ "" from not_congr String.toList_eq_nil_iff]

theorem ofNat_toNat (c : Char) (h : c.toNat < 128) : (UInt8.ofNat c.toNat).toNat = c.toNat := by
  simp only [UInt8.toNat_ofNat']
  omega

theorem nameOf_nameBytes (k : String) (h : validName k = true) : nameOf (nameBytes k) = k := by
  unfold validName at h
  simp only [Bool.and_eq_true, List.all_eq_true] at h
  unfold nameOf nameBytes
  rw [List.map_map]
  have : k.toList.map ((fun x : UInt8 => Char.ofNat x.toNat) ∘ fun c => UInt8.ofNat c.toNat) = k.toList := by
    rw [List.map_congr_left (g := id)]
    · simp
    · intro c hc
      simp only [Function.comp_apply, id_eq]
      rw [ofNat_toNat c (isToken_small c (h.2 c hc)).1, Char.ofNat_toNat]
  rw [this, String.ofList_toList]

theorem nameBytes_ne (k : String) (h : validName k = true) : nameBytes k ≠ [] ∧ (58 : UInt8) ∉ nameBytes k ∧ (10 : UInt8) ∉ nameBytes k := by
  unfold validName at h
  simp only [Bool.and_eq_true, List.all_eq_true, Bool.not_eq_true', List.isEmpty_eq_false_iff] at h
  unfold nameBytes
  refine ⟨by simpa using h.1, ?_, ?_⟩
  · intro hm
    obtain ⟨c, hc, e⟩ := List.mem_map.1 hm
    obtain ⟨h1, h2, _⟩ := isToken_small c (h.2 c hc)
    apply h2
    rw [← ofNat_toNat c h1, e]; rfl
  · intro hm
    obtain ⟨c, hc, e⟩ := List.mem_map.1 hm
    obtain ⟨h1, _, h2⟩ := isToken_small c (h.2 c hc)
    apply h2
    rw [← ofNat_toNat c h1, e]; rfl

/-! ## Values -/

theorem isSpace_iff (b : UInt8) : isSpace b = true ↔ Blank b := by
  unfold isSpace Blank
  simp only [Bool.or_eq_true, beq_iff_eq]
  rw [or_assoc, or_assoc]

theorem isSpace_toSpace (b : UInt8) : isSpace (toSpace b) = isSpace b := by
  unfold toSpace
  split
  · next h => rcases h with h | h <;> subst h <;> rfl
  · rfl

theorem dropWhile_toSpace (v : Bytes) : (v.map toSpace).dropWhile isSpace = (v.dropWhile isSpace).map toSpace := by
  induction v with
  | nil => rfl
  | cons b v ih =>
    simp only [List.map_cons, List.dropWhile_cons, isSpace_toSpace]
    cases isSpace b <;> simp [ih]

theorem trim_toSpace (v : Bytes) : trim (v.map toSpace) = (trim v).map toSpace := by
  unfold trim
  rw [dropWhile_toSpace, ← List.map_reverse, dropWhile_toSpace, List.map_reverse]

theorem dropWhile_head (p : UInt8 → Bool) (l : Bytes) (b : UInt8) (h : (l.dropWhile p).head? = some b) : p b = false := by
  induction l with
  | nil => cases h
  | cons c l ih =>
    rw [List.dropWhile_cons] at h
    split at h
    · exact ih h
    · next hc => cases h; simpa using hc

theorem takeWhile_mem (p : UInt8 → Bool) (l : Bytes) (b : UInt8) (h : b ∈ l.takeWhile p) : p b = true := by
  induction l with
  | nil => cases h
  | cons c l ih =>
    rw [List.takeWhile_cons] at h
    split at h
    · next hc =>
      rcases List.mem_cons.1 h with h | h
      · rw [h]; exact hc
      · exact ih h
    · cases h

theorem trim_parts (v : Bytes) : ∃ before after, v = before ++ trim v ++ after ∧ (∀ b ∈ before, Blank b) ∧
    (∀ b ∈ after, Blank b) ∧ Tight (trim v) := by
  have hd : v = v.takeWhile isSpace ++ v.dropWhile isSpace := List.takeWhile_append_dropWhile.symm
  have hr : v.dropWhile isSpace = trim v ++ ((v.dropWhile isSpace).reverse.takeWhile isSpace).reverse := by
    unfold trim
    rw [← List.reverse_append, List.takeWhile_append_dropWhile, List.reverse_reverse]
  refine ⟨v.takeWhile isSpace, ((v.dropWhile isSpace).reverse.takeWhile isSpace).reverse, ?_, ?_, ?_, ?_, ?_⟩
  · rw [List.append_assoc, ← hr]; exact hd
  · intro b hb
    exact (isSpace_iff b).1 (takeWhile_mem _ _ _ hb)
  · intro b hb
    exact (isSpace_iff b).1 (takeWhile_mem _ _ _ (List.mem_reverse.1 hb))
  · intro b hb hbl
    have : (v.dropWhile isSpace).head? = some b := by
      rw [hr, List.head?_append, hb]; rfl
    have := dropWhile_head _ _ _ this
    rw [(isSpace_iff b).2 hbl] at this
    cases this
  · intro b hb hbl
    unfold trim at hb
    rw [List.getLast?_reverse] at hb
    have := dropWhile_head _ _ _ hb
    rw [(isSpace_iff b).2 hbl] at this
    cases this

theorem cleaned_trim (v : Bytes) : Cleaned v (trim (v.map toSpace)) := by
  obtain ⟨b, a, h1, h2, h3, h4⟩ := trim_parts v
  refine ⟨b, trim v, a, h1, h2, h3, h4, by rw [trim_toSpace, List.length_map], ?_⟩
  intro i x hx
  rw [trim_toSpace, List.getElem?_map, hx]
  simp only [Option.map_some, Option.some.injEq]
  unfold toSpace Eol
  constructor
  · intro h; rw [if_pos h]
  · intro h; rw [if_neg h]

theorem clean_facts (v : Bytes) : (10 : UInt8) ∉ trim (v.map toSpace) ∧ skipBlanks (32 :: trim (v.map toSpace)) = trim (v.map toSpace) := by
  constructor
  · rw [trim_toSpace]
    intro h
    obtain ⟨b, _, e⟩ := List.mem_map.1 h
    unfold toSpace at e
    split at e
    · cases e
    · next hb => exact hb (.inl e)
  · obtain ⟨_, _, _, _, _, h4⟩ := trim_parts (v.map toSpace)
    unfold skipBlanks
    rw [List.dropWhile_cons]
    simp only [beq_self_eq_true, Bool.true_or, if_true]
    cases ht : trim (v.map toSpace) with
    | nil => rfl
    | cons b w =>
      rw [ht] at h4
      have := h4.1 b rfl
      rw [List.dropWhile_cons, if_neg]
      intro hb
      simp only [Bool.or_eq_true, beq_iff_eq] at hb
      exact this (hb.imp id .inl)

/-! ## Lines -/

theorem elide_cr (l : Bytes) : elide (l ++ [13]) = l := by
  unfold elide
  simp

theorem linesOf_line (x s : Bytes) (h : (10 : UInt8) ∉ x) : ∀ acc, linesOf acc (x ++ 13 :: 10 :: s) = (acc ++ x) :: linesOf [] s := by
  induction x with
  | nil =>
    intro acc
    simp only [List.nil_append, linesOf, List.append_nil]
    rw [if_neg (by decide), if_pos trivial, elide_cr]
  | cons b x ih =>
    intro acc
    simp only [List.mem_cons, not_or] at h
    simp only [List.cons_append, linesOf]
    rw [if_neg (fun e => h.1 e.symm), ih h.2, List.append_assoc]
    rfl

theorem cutColon_append (a r : Bytes) (h : (58 : UInt8) ∉ a) : cutColon (a ++ 58 :: r) = some (a, r) := by
  induction a with
  | nil => simp [cutColon]
  | cons b a ih =>
    simp only [List.mem_cons, not_or] at h
    simp only [List.cons_append, cutColon]
    rw [if_neg (fun e => h.1 e.symm), ih h.2]
    rfl

/-- What is written, header by header. -/
def entries (order : List (String × List Bytes)) : List (String × Bytes) :=
  order.flatMap (fun e => if validName e.1 then e.2.map (fun v => (e.1, trim (v.map toSpace))) else [])

def textOf (e : String × Bytes) : Bytes := nameBytes e.1 ++ 58 :: 32 :: e.2

theorem linesOf_values (k : String) (hk : validName k = true) (vs : List Bytes) (s : Bytes) :
    linesOf [] (vs.flatMap (line k) ++ s) = (vs.map (fun v => textOf (k, trim (v.map toSpace)))) ++ linesOf [] s := by
  induction vs with
  | nil => rfl
  | cons v vs ih =>
    have e : (v :: vs).flatMap (line k) ++ s =
        (nameBytes k ++ 58 :: 32 :: trim (v.map toSpace)) ++ 13 :: 10 :: (vs.flatMap (line k) ++ s) := by
      simp [line, List.flatMap_cons, List.append_assoc]
    rw [e, linesOf_line, ih]
    · rfl
    · intro h
      rcases List.mem_append.1 h with h | h
      · exact (nameBytes_ne k hk).2.2 h
      · simp only [List.mem_cons] at h
        rcases h with h | h | h
        · cases h
        · cases h
        · exact (clean_facts v).1 h

theorem linesOf_header (order : List (String × List Bytes)) (s : Bytes) :
    linesOf [] (writeHeader order ++ s) = (entries order).map textOf ++ linesOf [] s := by
  induction order with
  | nil => rfl
  | cons e order ih =>
    have e1 : writeHeader (e :: order) = (if validName e.1 then e.2.flatMap (line e.1) else []) ++ writeHeader order := by
      simp [writeHeader]
    have e2 : entries (e :: order) = (if validName e.1 then e.2.map (fun v => (e.1, trim (v.map toSpace))) else []) ++ entries order := by
      simp [entries]
    rw [e1, e2]
    by_cases hk : validName e.1 = true
    · rw [if_pos hk, if_pos hk, List.append_assoc, linesOf_values _ hk, ih, List.map_append, List.map_map, List.append_assoc]
      rfl
    · rw [if_neg hk, if_neg hk, List.nil_append, List.nil_append, ih]

theorem entries_valid (order : List (String × List Bytes)) : ∀ e ∈ entries order, validName e.1 = true ∧
    ∃ v : Bytes, e.2 = trim (v.map toSpace) := by
  intro e he
  unfold entries at he
  obtain ⟨x, _, hx⟩ := List.mem_flatMap.1 he
  split at hx
  · next hk =>
    obtain ⟨v, _, rfl⟩ := List.mem_map.1 hx
    exact ⟨hk, v, rfl⟩
  · cases hx

theorem readLines_texts (es : List (String × Bytes)) (h : ∀ e ∈ es, validName e.1 = true ∧ ∃ v : Bytes, e.2 = trim (v.map toSpace)) :
    ∀ m, readLines m (es.map textOf ++ [[]]) = some (es.foldl (fun m e => addValue m e.1 e.2) m) := by
  induction es with
  | nil => intro m; simp [readLines]
  | cons e es ih =>
    intro m
    obtain ⟨hk, v, hv⟩ := h e (by simp)
    obtain ⟨hn, hc, _⟩ := nameBytes_ne e.1 hk
    simp only [List.map_cons, List.cons_append, List.foldl_cons]
    rw [readLines]
    · have : cutColon (textOf e) = some (nameBytes e.1, 32 :: e.2) := cutColon_append _ _ hc
      rw [this]
      simp only
      rw [if_neg hn, nameOf_nameBytes _ hk, hv, (clean_facts v).2, ← hv]
      exact ih (fun e he => h e (List.mem_cons_of_mem _ he)) _
    · intro he
      unfold textOf at he
      simp at he

theorem readHeaders_bytes (order : List (String × List Bytes)) :
    readHeaders (headerBytes order) = some ((entries order).foldl (fun m e => addValue m e.1 e.2) []) := by
  have h1 : linesOf [] (headerBytes order) = hdrLine.take 8 :: ((entries order).map textOf ++ [[]]) := by
    unfold headerBytes
    have : hdrLine ++ writeHeader order ++ [13, 10] = hdrLine.take 8 ++ 13 :: 10 :: (writeHeader order ++ [13, 10]) := by
      simp [hdrLine]
    rw [this, linesOf_line _ _ (by decide), linesOf_header]
    rfl
  unfold readHeaders
  rw [h1]
  simp only
  rw [if_pos (List.prefix_refl _)]
  exact readLines_texts _ (entries_valid order) _

/-! ## Maps -/

theorem addValue_get (m : GoMap String (List Bytes)) (k : String) (v : Bytes) (h : m.get k = none) : addValue m k v = m.put k [v] := by
  unfold addValue; rw [h]

theorem addValue_wf (m : GoMap String (List Bytes)) (k : String) (v : Bytes) (h : m.WF) : (addValue m k v).WF := by
  unfold addValue; split <;> exact GoMap.wf_put h _ _

theorem addAll_wf (es : List (String × Bytes)) : ∀ m : GoMap String (List Bytes), m.WF →
    GoMap.WF (es.foldl (fun m e => addValue m e.1 e.2) m) := by
  induction es with
  | nil => intro m h; exact h
  | cons e es ih => intro m h; exact ih _ (addValue_wf _ _ _ h)

theorem addAll_get (es : List (String × Bytes)) (hw : GoMap.WF es) : ∀ m : GoMap String (List Bytes),
    (∀ e ∈ es, m.get e.1 = none) → ∀ k, GoMap.get (es.foldl (fun m e => addValue m e.1 e.2) m) k =
      ((GoMap.get es k).map (fun v => [v])).orElse (fun _ => m.get k) := by
  induction es with
  | nil => intro m _ k; simp
  | cons e es ih =>
    obtain ⟨a, v⟩ := e
    intro m hm k
    rw [GoMap.wf_cons] at hw
    simp only [List.foldl_cons]
    rw [addValue_get _ _ _ (hm (a, v) (by simp)), ih hw.2]
    · simp only [GoMap.get_put, GoMap.get_cons]
      by_cases hk : a = k
      · subst hk
        rw [(GoMap.get_eq_none_iff es a).mpr hw.1]
        simp
      · simp [hk]
    · intro e he
      rw [GoMap.get_put, if_neg]
      · exact hm e (List.mem_cons_of_mem _ he)
      · intro h
        apply hw.1
        have h : a = e.1 := h
        rw [h]
        exact List.mem_map_of_mem he

theorem entries_get (order : List (String × List Bytes)) (hw : GoMap.WF order) (hs : ∀ e ∈ order, ∃ v, e.2 = [v]) :
    GoMap.WF (entries order) ∧ ∀ k, GoMap.get (entries order) k =
      if validName k then ((GoMap.get order k).bind (fun vs => vs.head?)).map (fun v => trim (v.map toSpace)) else none := by
  induction order with
  | nil => exact ⟨GoMap.wf_nil, by intro k; simp [entries]⟩
  | cons e order ih =>
    obtain ⟨a, vs⟩ := e
    rw [GoMap.wf_cons] at hw
    obtain ⟨v, hv⟩ := hs (a, vs) (by simp)
    simp only at hv
    subst hv
    obtain ⟨i1, i2⟩ := ih hw.2 (fun e he => hs e (List.mem_cons_of_mem _ he))
    have e2 : entries ((a, [v]) :: order) = (if validName a then [(a, trim (v.map toSpace))] else []) ++ entries order := by
      simp [entries]
    rw [e2]
    by_cases hk : validName a = true
    · rw [if_pos hk]
      refine ⟨?_, ?_⟩
      · show GoMap.WF ((a, trim (v.map toSpace)) :: entries order)
        rw [GoMap.wf_cons]
        refine ⟨?_, i1⟩
        rw [← GoMap.get_eq_none_iff, i2, (GoMap.get_eq_none_iff order a).mpr hw.1]
        simp
      · intro k
        show GoMap.get ((a, trim (v.map toSpace)) :: entries order) k = _
        rw [GoMap.get_cons, GoMap.get_cons, i2]
        by_cases hak : a = k
        · subst hak; simp [hk]
        · simp [hak]
    · rw [if_neg hk, List.nil_append]
      refine ⟨i1, ?_⟩
      intro k
      rw [i2, GoMap.get_cons]
      by_cases hak : a = k
      · subst hak; simp [hk]
      · simp [hak]

/-! ## The property -/

/-- The headers as they are received. -/
theorem received (bm : BrokerMessage) (hwf : (headersOf bm).WF) (o1 : List (String × Bytes)) (h1 : o1.Perm (headersOf bm))
    (ow : List (String × List Bytes)) (hw : ow.Perm (natsEncode o1 bm).header) :
    ∃ m', wire ow (natsEncode o1 bm) = some m' ∧ ∀ o2, o2.Perm m'.header →
      bytesOf (natsDecode o2 m').payload = bytesOf bm.payload ∧
      ∀ k, (headersOf (natsDecode o2 m')).get k =
        if validName k then ((headersOf bm).get k).map (fun v => trim (v.map toSpace)) else none := by
  have hwf1 : GoMap.WF o1 := GoMap.wf_perm h1.symm hwf
  have hwfw : GoMap.WF ow := GoMap.wf_perm hw.symm (natsEncode_wf bm o1)
  have hgetw : ∀ k, GoMap.get ow k = ((headersOf bm).get k).map (fun v => [v]) := by
    intro k
    rw [GoMap.get_perm hw hwfw k, natsEncode_get bm o1 hwf1 k, GoMap.get_perm h1 hwf1 k]
  have hsw := single_of_get ow hwfw _ hgetw
  obtain ⟨ew, eg⟩ := entries_get ow hwfw hsw
  unfold wire
  by_cases hn : (natsEncode o1 bm).header = []
  · rw [if_pos hn]
    refine ⟨_, rfl, ?_⟩
    intro o2 ho
    rw [hn] at ho hw
    have : o2 = [] := List.perm_nil.1 ho
    subst this
    refine ⟨rfl, ?_⟩
    intro k
    have := hgetw k
    rw [List.perm_nil.1 hw] at this
    have hnone : (headersOf bm).get k = none := by
      cases hg : (headersOf bm).get k with
      | none => rfl
      | some v => rw [hg] at this; cases this
    rw [hnone]
    show GoMap.get (([] : List (String × List Bytes)).foldl putFirst []) k = _
    simp
  · rw [if_neg hn, readHeaders_bytes]
    refine ⟨_, rfl, ?_⟩
    intro o2 ho
    refine ⟨rfl, ?_⟩
    intro k
    have hwf2 : GoMap.WF o2 := GoMap.wf_perm ho.symm (addAll_wf _ _ GoMap.wf_nil)
    have hget2 : ∀ k, GoMap.get o2 k = (GoMap.get (entries ow) k).map (fun v => [v]) := by
      intro k
      rw [GoMap.get_perm ho hwf2 k]
      simp only
      rw [addAll_get _ ew [] (by intro e _; rfl)]
      simp
    show GoMap.get (o2.foldl putFirst []) k = _
    rw [natsDecode_get o2 [] hwf2 (single_of_get o2 hwf2 _ hget2) k, hget2, eg, hgetw]
    split
    · cases (headersOf bm).get k <;> simp
    · simp

/-- **C115 (what arrives).** Over NATS and JetStream a message always arrives, its payload as it was; of its headers those
whose name is a token, with their values put in one line and freed of the blanks around them; and no others. For every order
in which maps are walked. -/
theorem C115_what_arrives (bm : BrokerMessage) (hwf : (headersOf bm).WF) (o1 : List (String × Bytes))
    (h1 : o1.Perm (headersOf bm)) (ow : List (String × List Bytes)) (hw : ow.Perm (natsEncode o1 bm).header) :
    ∃ m', wire ow (natsEncode o1 bm) = some m' ∧ ∀ o2, o2.Perm m'.header →
      bytesOf (natsDecode o2 m').payload = bytesOf bm.payload ∧
      ∀ k, (∀ v, Token k → (headersOf bm).get k = some v →
          ∃ w, (headersOf (natsDecode o2 m')).get k = some w ∧ Cleaned v w) ∧
        (¬ Token k ∨ (headersOf bm).get k = none → (headersOf (natsDecode o2 m')).get k = none) := by
  obtain ⟨m', e, h⟩ := received bm hwf o1 h1 ow hw
  refine ⟨m', e, fun o2 ho => ⟨(h o2 ho).1, fun k => ⟨?_, ?_⟩⟩⟩
  · intro v hk hv
    rw [(h o2 ho).2, if_pos ((validName_iff k).2 hk), hv]
    exact ⟨_, rfl, cleaned_trim v⟩
  · intro hk
    rw [(h o2 ho).2]
    split
    · next hv =>
      rcases hk with hk | hk
      · exact absurd ((validName_iff k).1 hv) hk
      · rw [hk]; rfl
    · rfl

theorem oneLine_of_cleaned (v : Bytes) (h : Cleaned v v) : OneLine v := by
  obtain ⟨b, mid, a, e, hb, ha, ht, hl, hi⟩ := h
  have hlen : v.length = b.length + mid.length + a.length := by rw [e]; simp [Nat.add_assoc]
  have hb0 : b = [] := List.length_eq_zero_iff.1 (by omega)
  have ha0 : a = [] := List.length_eq_zero_iff.1 (by omega)
  subst hb0 ha0
  simp only [List.nil_append, List.append_nil] at e
  subst e
  refine ⟨ht, ?_⟩
  intro x hx hex
  obtain ⟨i, hlt, hxi⟩ := List.getElem_of_mem hx
  have hg : v[i]? = some x := by rw [List.getElem?_eq_getElem hlt, hxi]
  have := (hi i x hg).1 hex
  rw [hg] at this
  cases this
  rcases hex with h | h <;> cases h

theorem cleaned_oneLine (v w : Bytes) (h : Cleaned v w) (ho : OneLine v) : w = v := by
  obtain ⟨b, mid, a, e, hb, ha, ht, hl, hi⟩ := h
  have hb0 : b = [] := by
    cases b with
    | nil => rfl
    | cons x b =>
      exact absurd (hb x (by simp)) (ho.1.1 x (by rw [e]; rfl))
  have ha0 : a = [] := by
    cases hl : a.getLast? with
    | none => exact List.getLast?_eq_none_iff.1 hl
    | some x =>
      exact absurd (ha x (List.mem_of_getLast? hl)) (ho.1.2 x (by rw [e, List.getLast?_append, hl]; rfl))
  subst hb0 ha0
  simp only [List.nil_append, List.append_nil] at e
  subst e
  apply List.ext_getElem? 
  intro i
  cases hv : v[i]? with
  | none =>
    rw [List.getElem?_eq_none_iff] at hv ⊢
    omega
  | some x =>
    exact (hi i x hv).2 (ho.2 x (List.mem_of_getElem? hv))

/-- **C115 (exactly when).** A message arrives unchanged exactly when all its headers have names that are tokens and values
of one line without blanks around them. -/
theorem C115_unchanged_iff_partial (bm : BrokerMessage) (hwf : (headersOf bm).WF) (o1 : List (String × Bytes))
    (h1 : o1.Perm (headersOf bm)) (ow : List (String × List Bytes)) (hw : ow.Perm (natsEncode o1 bm).header) :
    ∃ m', wire ow (natsEncode o1 bm) = some m' ∧ ∀ o2, o2.Perm m'.header →
      (SameMessage (natsDecode o2 m') bm ↔ ∀ k v, (headersOf bm).get k = some v → Token k ∧ OneLine v) := by
  obtain ⟨m', e, h⟩ := C115_what_arrives bm hwf o1 h1 ow hw
  refine ⟨m', e, fun o2 ho => ⟨?_, ?_⟩⟩
  · intro hs k v hv
    have hg := hs.headers k
    rw [hv] at hg
    by_cases hk : Token k
    · obtain ⟨w, hw, hc⟩ := ((h o2 ho).2 k).1 v hk hv
      rw [hw] at hg
      cases hg
      exact ⟨hk, oneLine_of_cleaned _ hc⟩
    · rw [((h o2 ho).2 k).2 (.inl hk)] at hg
      cases hg
  · intro hall
    refine ⟨(h o2 ho).1, ?_⟩
    intro k
    cases hv : (headersOf bm).get k with
    | none => exact ((h o2 ho).2 k).2 (.inr hv)
    | some v =>
      obtain ⟨hk, hone⟩ := hall k v hv
      obtain ⟨w, hw, hc⟩ := ((h o2 ho).2 k).1 v hk hv
      rw [hw, cleaned_oneLine v w hc hone]

/-! ## Violations -/

/-- A message with one header. -/
def withHeader (k : String) (v : Bytes) (p : Bytes) : BrokerMessage := ⟨some [(k, v)], some p⟩

theorem withHeader_wf (k : String) (v p : Bytes) : (headersOf (withHeader k v p)).WF := by
  show GoMap.WF [(k, v)]
  simp [GoMap.WF, GoMap.keys]

/-- **C115 is violated by names**: a header whose name is not a token is left out without an error. -/
theorem C115_violated_names (k : String) (hk : ¬ Token k) (v p : Bytes) :
    ∃ m', wire [(k, [v])] (natsEncode [(k, v)] (withHeader k v p)) = some m' ∧ ∀ o2, o2.Perm m'.header →
      ∀ k', (headersOf (natsDecode o2 m')).get k' = none := by
  obtain ⟨m', e, h⟩ := C115_what_arrives (withHeader k v p) (withHeader_wf k v p) [(k, v)] (List.Perm.refl _) [(k, [v])]
    (List.Perm.refl _)
  refine ⟨m', e, fun o2 ho k' => ((h o2 ho).2 k').2 ?_⟩
  by_cases hkk : k = k'
  · exact .inl (hkk ▸ hk)
  · exact .inr (by show GoMap.get [(k, v)] k' = none; simp [GoMap.get_cons, hkk])

/-- A name with a blank, one with a letter beyond ASCII, an empty one. -/
example : ¬ Token "reply to" ∧ ¬ Token "größe" ∧ ¬ Token "" := by
  refine ⟨?_, ?_, fun h => h.1 rfl⟩ <;> rw [← validName_iff] <;> decide

/-- **C115 is violated by values**: every value of several lines or with blanks around it arrives as another one. -/
theorem C115_violated_values (k : String) (hk : Token k) (v p : Bytes) (hv : ¬ OneLine v) :
    ∃ m', wire [(k, [v])] (natsEncode [(k, v)] (withHeader k v p)) = some m' ∧ ∀ o2, o2.Perm m'.header →
      ∃ w, (headersOf (natsDecode o2 m')).get k = some w ∧ w ≠ v := by
  obtain ⟨m', e, h⟩ := C115_what_arrives (withHeader k v p) (withHeader_wf k v p) [(k, v)] (List.Perm.refl _) [(k, [v])]
    (List.Perm.refl _)
  refine ⟨m', e, fun o2 ho => ?_⟩
  obtain ⟨w, hw, hc⟩ := ((h o2 ho).2 k).1 v hk (by show GoMap.get [(k, v)] k = some v; simp)
  refine ⟨w, hw, ?_⟩
  intro hwv
  subst hwv
  exact hv (oneLine_of_cleaned _ hc)

/-- `a`, line feed, `b` becomes `a b`; the blank before a text is lost. -/
example : Token "x-note" ∧ ¬ OneLine [97, 10, 98] ∧ ¬ OneLine [32, 97] ∧
    trim ([97, 10, 98].map toSpace) = [97, 32, 98] ∧ trim ([32, 97].map toSpace) = [97] := by
  refine ⟨(validName_iff _).1 (by decide), ?_, ?_, rfl, rfl⟩
  · intro h; exact h.2 10 (by simp) (.inl rfl)
  · intro h; exact h.1.1 32 rfl (.inl rfl)

/-- Non-vacuity of the exact condition: two headers that survive, one of them with a blank inside. -/
example : (headersOf ⟨some [("x-note", [97, 32, 98]), ("corr", [49])], some [7]⟩).WF ∧
    Token "x-note" ∧ OneLine [97, 32, 98] := by
  refine ⟨by simp [headersOf, GoMap.WF, GoMap.keys], (validName_iff _).1 (by decide), ⟨?_, ?_⟩, ?_⟩
  · intro b hb
    cases hb
    unfold Blank; decide
  · intro b hb
    cases hb
    unfold Blank; decide
  · intro b hb
    unfold Eol
    revert b
    decide

end Verif.Transport
