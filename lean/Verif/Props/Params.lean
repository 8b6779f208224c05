import Verif.Props.ChannelAddr
import Verif.Props.JetStream

/-! # C102: what a subscription to a channel with parameters receives -/

namespace Verif.ChannelAddr

open Naming (Uni)
open JetStream (PatternMatches Matches matchSubject)

/-- Every parameter but a final one is followed by a text whose first character is in neither value. -/
inductive Separated (v v' : Str → Str) : List Seg → Prop
  | nil : Separated v v' []
  | text (s : Str) {r : List Seg} : Separated v v' r → Separated v v' (.text s :: r)
  | last (p : Str) : Separated v v' [.param p]
  | param (p : Str) (c : Char) (s : Str) {r : List Seg} : c ∉ v p → c ∉ v' p →
      Separated v v' (.text (c :: s) :: r) → Separated v v' (.param p :: .text (c :: s) :: r)

theorem append_cons_inj (c : Char) : ∀ (a b x y : Str), c ∉ a → c ∉ b → a ++ c :: x = b ++ c :: y → a = b ∧ x = y := by
  intro a
  induction a with
  | nil =>
    intro b x y _ hb h
    cases b with
    | nil => simpa using h
    | cons d b =>
      simp only [List.nil_append, List.cons_append, List.cons.injEq] at h
      exact absurd (by simp [h.1]) hb
  | cons d a ih =>
    intro b x y ha hb h
    cases b with
    | nil =>
      simp only [List.nil_append, List.cons_append, List.cons.injEq] at h
      exact absurd (by simp [h.1]) ha
    | cons e b =>
      simp only [List.cons_append, List.cons.injEq] at h
      simp only [List.mem_cons, not_or] at ha hb
      obtain ⟨h1, h2⟩ := ih b x y ha.2 hb.2 h.2
      exact ⟨by rw [h.1, h1], h2⟩

/-- The address determines the parameters. -/
theorem values_inj (v v' : Str → Str) (segs : List Seg) (h : Separated v v' segs)
    (he : segs.flatMap (Seg.value v) = segs.flatMap (Seg.value v')) : ∀ p, .param p ∈ segs → v p = v' p := by
  induction h with
  | nil => intro p hp; cases hp
  | text s _ ih =>
    intro p hp
    simp only [List.mem_cons, reduceCtorEq, false_or] at hp
    simp only [List.flatMap_cons, Seg.value, List.append_cancel_left_eq] at he
    exact ih he p hp
  | last q =>
    intro p hp
    simp only [List.mem_singleton, Seg.param.injEq] at hp
    subst hp
    simpa [Seg.value] using he
  | param q c s h1 h2 _ ih =>
    rename_i r _
    intro p hp
    have e : ∀ w, (Seg.param q :: Seg.text (c :: s) :: r).flatMap (Seg.value w) = w q ++ c :: (s ++ r.flatMap (Seg.value w)) := by
      intro w; simp [Seg.value]
    rw [e, e] at he
    obtain ⟨e1, e2⟩ := append_cons_inj c _ _ _ _ h1 h2 he
    rw [List.mem_cons] at hp
    rcases hp with hp | hp
    · rw [Seg.param.injEq] at hp
      rw [hp, e1]
    · exact ih (by simpa [Seg.value] using e2) p hp

theorem values_congr (v v' : Str → Str) (segs : List Seg) (h : ∀ p, .param p ∈ segs → v p = v' p) :
    segs.flatMap (Seg.value v) = segs.flatMap (Seg.value v') := by
  induction segs with
  | nil => rfl
  | cons g segs ih =>
    rw [List.flatMap_cons, List.flatMap_cons, ih (fun p hp => h p (List.mem_cons_of_mem _ hp))]
    cases g with
    | text s => rfl
    | param p => rw [Seg.value, Seg.value, h p (by simp)]

/-- What the generated code needs of an address with parameters (C44). -/
structure Addressable (u : Uni) (keys : List Str) (segs : List Seg) : Prop where
  ok : ∀ g ∈ segs, g.Ok
  noPercent : '%' ∉ segs.flatMap Seg.render
  names : (keys.map (nameOf u)).Nodup
  declared : ∀ p, .param p ∈ segs → p ∈ keys ∧ nameOf u p ≠ some [] ∧ ∀ c ∈ p, c.toNat < 128

theorem address (u : Uni) (isPrint : Char → Bool) (verb : Char) (hv : verb = 's' ∨ verb = 'v') (keys : List Str)
    (segs : List Seg) (ha : Addressable u keys segs) (v : Str → Str) :
    ∃ text, genText u isPrint verb true (segs.flatMap Seg.render) = some text ∧
      evalText (fields u keys v) text = some (segs.flatMap (Seg.value v)) := by
  obtain ⟨h1, h2⟩ := C44_segments v segs ha.ok
  obtain ⟨text, h3, h4⟩ := C44_substitutes_partial u isPrint verb hv _ ha.noPercent keys v ha.names
    (fun p hp => ha.declared p ((h2 p).mp hp))
  exact ⟨text, h3, by rw [h4, h1]⟩

/-- **C102 (partial: an address C44 covers, in which every parameter but a final one is followed by a character
that its values do not have).** For every such address and any two choices of parameter values: the addresses
that the generated code computes are equal exactly when the values are. -/
theorem C102_address_determines_parameters_partial (u : Uni) (isPrint : Char → Bool) (verb : Char)
    (hv : verb = 's' ∨ verb = 'v') (keys : List Str) (segs : List Seg) (ha : Addressable u keys segs)
    (v v' : Str → Str) (hs : Separated v v' segs) :
    ∃ text, genText u isPrint verb true (segs.flatMap Seg.render) = some text ∧
      ∃ a a', evalText (fields u keys v) text = some a ∧ evalText (fields u keys v') text = some a' ∧
        (a = a' ↔ ∀ p, .param p ∈ segs → v p = v' p) := by
  obtain ⟨text, h1, h2⟩ := address u isPrint verb hv keys segs ha v
  obtain ⟨text', h1', h2'⟩ := address u isPrint verb hv keys segs ha v'
  rw [h1] at h1'
  cases h1'
  exact ⟨text, h1, _, _, h2, h2', values_inj v v' segs hs, values_congr v v' segs⟩

/-- No token of a subject is a wildcard. -/
def NoWildcard (pattern : Str) : Prop := ∀ t ∈ Str.split '.' pattern, t ≠ ['*'] ∧ t ≠ ['>']

theorem matches_literal (ps : List Str) (h : ∀ t ∈ ps, t ≠ ['*'] ∧ t ≠ ['>']) (ss : List Str) :
    Matches ps ss ↔ ss = ps := by
  constructor
  · intro hm
    induction hm with
    | nil => rfl
    | lit _ _ _ ih => rw [ih (fun t ht => h t (List.mem_cons_of_mem _ ht))]
    | star _ _ _ => exact absurd rfl (h _ (by simp)).1
    | rest _ => exact absurd rfl (h _ (by simp)).2
  · rintro rfl
    induction ss with
    | nil => exact .nil
    | cons t ts ih =>
      exact .lit (h t (by simp)).1 (h t (by simp)).2 (ih (fun t ht => h t (List.mem_cons_of_mem _ ht)))

theorem patternMatches_literal (p s : Str) (h : NoWildcard p) : PatternMatches p s ↔ p ≠ [] ∧ s = p := by
  unfold PatternMatches
  rw [matches_literal _ h]
  constructor
  · rintro ⟨h1, _, h3⟩
    refine ⟨h1, ?_⟩
    rw [← Str.join_split '.' s, h3, Str.join_split]
  · rintro ⟨h1, rfl⟩
    exact ⟨h1, h1, rfl⟩

/-- **C102 (partial: as above, and the subscriber's address is not empty and has no token `*` or `>`).** For
every such address and any parameters of a subscription and of a publication: the message published matches the
subscription, by the rules of NATS and in the controller's own matching, exactly when the parameters are the
same. -/
theorem C102_isolated_partial (u : Uni) (isPrint : Char → Bool) (verb : Char)
    (hv : verb = 's' ∨ verb = 'v') (keys : List Str) (segs : List Seg) (ha : Addressable u keys segs)
    (v v' : Str → Str) (hs : Separated v v' segs) :
    ∃ text, genText u isPrint verb true (segs.flatMap Seg.render) = some text ∧
      ∃ a a', evalText (fields u keys v) text = some a ∧ evalText (fields u keys v') text = some a' ∧
        (a ≠ [] → NoWildcard a →
          (PatternMatches a a' ↔ ∀ p, .param p ∈ segs → v p = v' p) ∧
          (matchSubject a a' = some true ↔ ∀ p, .param p ∈ segs → v p = v' p)) := by
  obtain ⟨text, h1, a, a', h2, h3, h4⟩ := C102_address_determines_parameters_partial u isPrint verb hv keys segs ha v v' hs
  refine ⟨text, h1, a, a', h2, h3, fun hne hw => ?_⟩
  have key : PatternMatches a a' ↔ ∀ p, .param p ∈ segs → v p = v' p := by
    rw [patternMatches_literal a a' hw, ← h4]
    exact ⟨fun h => h.2.symm, fun h => ⟨hne, h.symm⟩⟩
  exact ⟨key, by rw [JetStream.matchSubject_true, key]⟩

/-- The address `user.{user_id}.{kind}`. -/
def userSegs : List Seg := [.text "user.".toList, .param "user_id".toList, .text ".".toList, .param "kind".toList]

/-- Its parameters. -/
def userKeys : List Str := ["user_id".toList, "kind".toList]

/-- Values for its parameters. -/
def userVals (a b : Str) (p : Str) : Str := if p = "user_id".toList then a else b

theorem user_addressable : Addressable Naming.uni0 userKeys userSegs where
  ok := by
    intro g hg
    simp only [userSegs, List.mem_cons, List.not_mem_nil, or_false] at hg
    rcases hg with rfl | rfl | rfl | rfl <;> simp only [Seg.Ok] <;> decide
  noPercent := by decide
  names := by decide
  declared := by
    intro p hp
    simp only [userSegs, List.mem_cons, List.not_mem_nil, or_false, reduceCtorEq, false_or, Seg.param.injEq] at hp
    rcases hp with rfl | rfl <;> decide

/-- Non-vacuity: an address that meets the hypotheses, with values without dots and wildcards. -/
example : Addressable Naming.uni0 userKeys userSegs ∧
    Separated (userVals "7".toList "new".toList) (userVals "8".toList "new".toList) userSegs ∧
    NoWildcard "user.7.new".toList ∧
    userSegs.flatMap (Seg.value (userVals "7".toList "new".toList)) = "user.7.new".toList := by
  refine ⟨user_addressable, ?_, ?_, by decide⟩
  · exact .text _ (.param _ '.' [] (by decide) (by decide) (.text _ (.last _)))
  · rw [NoWildcard]; decide

theorem user_address (a b : Str) : ∃ text, genText Naming.uni0 (fun _ => true) 's' true (userSegs.flatMap Seg.render) = some text ∧
    evalText (fields Naming.uni0 userKeys (userVals a b)) text = some ("user.".toList ++ (a ++ '.' :: b)) := by
  obtain ⟨text, h1, h2⟩ := address Naming.uni0 (fun _ => true) 's' (Or.inl rfl) userKeys userSegs user_addressable (userVals a b)
  refine ⟨text, h1, ?_⟩
  rw [h2]
  have e1 : userVals a b "user_id".toList = a := if_pos rfl
  have e2 : userVals a b "kind".toList = b := if_neg (by decide)
  simp only [userSegs, List.flatMap_cons, List.flatMap_nil, Seg.value, e1, e2, List.append_nil]
  rfl

/-- **C102 is violated**: a value with a `.` reaches another subscription — the messages for user `x.y` of kind
`z` go to whoever subscribed for user `x` and kind `y.z`. -/
theorem C102_violated_separator : ∃ text,
    genText Naming.uni0 (fun _ => true) 's' true (userSegs.flatMap Seg.render) = some text ∧
    evalText (fields Naming.uni0 userKeys (userVals "x.y".toList "z".toList)) text =
      evalText (fields Naming.uni0 userKeys (userVals "x".toList "y.z".toList)) text ∧
    evalText (fields Naming.uni0 userKeys (userVals "x".toList "y.z".toList)) text = some "user.x.y.z".toList := by
  obtain ⟨t, h1, h2⟩ := user_address "x.y".toList "z".toList
  obtain ⟨t', h1', h2'⟩ := user_address "x".toList "y.z".toList
  rw [h1] at h1'
  cases h1'
  exact ⟨t, h1, by rw [h2, h2']; decide, by rw [h2']; decide⟩

/-- **C102 is violated**: on NATS, subscribing with the value `*` gets the messages for every value; whatever the
user, the subscription for the user `*` matches. -/
theorem C102_violated_wildcard (id : Str) (hid : id ≠ []) (hdot : '.' ∉ id) : ∃ text a a',
    genText Naming.uni0 (fun _ => true) 's' true (userSegs.flatMap Seg.render) = some text ∧
    evalText (fields Naming.uni0 userKeys (userVals "*".toList "new".toList)) text = some a ∧
    evalText (fields Naming.uni0 userKeys (userVals id "new".toList)) text = some a' ∧
    matchSubject a a' = some true := by
  obtain ⟨t, h1, h2⟩ := user_address "*".toList "new".toList
  obtain ⟨t', h1', h2'⟩ := user_address id "new".toList
  rw [h1] at h1'
  cases h1'
  refine ⟨t, _, _, h1, h2, h2', ?_⟩
  have ea : ("user.".toList ++ ("*".toList ++ '.' :: "new".toList)) = Str.join '.' ["user".toList, ['*'], "new".toList] := by decide
  have eb : ("user.".toList ++ (id ++ '.' :: "new".toList)) = Str.join '.' ["user".toList, id, "new".toList] := by
    simp [Str.join]
  obtain ⟨b, hb1, hb2⟩ := JetStream.C30_matches_like_nats ["user".toList, ['*'], "new".toList] ["user".toList, id, "new".toList]
    (by simp) (by simp) (by decide) (by
      intro s hs
      simp only [List.mem_cons, List.not_mem_nil, or_false] at hs
      rcases hs with rfl | rfl | rfl
      · decide
      · exact hdot
      · decide)
  rw [ea, eb, hb1, hb2.mpr ⟨by decide, by simp [Str.join], .lit (by decide) (by decide) (.star hid (.lit (by decide) (by decide) .nil))⟩]

end Verif.ChannelAddr
