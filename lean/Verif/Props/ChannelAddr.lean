import Verif.Proofs.ChannelAddr

/-! # C44, C45: channel addresses and comments in the generated code -/

namespace Verif.ChannelAddr

open AddProps (goEsc goQuote)
open Naming (Uni)

/-- What the caller's values make of an address (specification). -/
def subst (val : Str → Str) : Tok → Str
  | .lit c => [c]
  | .par p => val p

/-- The value of a parameter. -/
def valOf (val : Str → Str) : Tok → Option Str
  | .lit _ => none
  | .par p => some (val p)

theorem stripPrefix_append (p s : Str) : stripPrefix p (p ++ s) = some s := by
  induction p with
  | nil => rfl
  | cons c p ih => simp [stripPrefix, ih]

/-- Nothing else has the prefix: the reader of expressions is strict. -/
theorem stripPrefix_iff (p s r : Str) : stripPrefix p s = some r ↔ s = p ++ r := by
  constructor
  · intro h
    induction p generalizing s with
    | nil => cases h; rfl
    | cons c p ih =>
      cases s with
      | nil => cases h
      | cons a s =>
        unfold stripPrefix at h
        split at h
        · rename_i e
          rw [ih s h, e]; rfl
        · cases h
  · rintro rfl
    exact stripPrefix_append p r

theorem sprintf_tokens (val : Str → Str) (verb : Char) (hv : verb = 's' ∨ verb = 'v') (toks : List Tok)
    (hp : (.lit '%') ∉ toks) :
    sprintf (toks.flatMap (formatOf verb)) (toks.filterMap (valOf val)) = some (toks.flatMap (subst val)) := by
  induction toks with
  | nil => rfl
  | cons t toks ih =>
    simp only [List.mem_cons, not_or] at hp
    have ih := ih hp.2
    cases t with
    | lit c =>
      have hc : c ≠ '%' := fun h => hp.1 (by rw [h])
      simp only [List.flatMap_cons, formatOf, List.singleton_append, List.filterMap_cons, valOf, subst]
      rw [sprintf.eq_def]
      simp [hc, ih]
    | par p =>
      have hvp : verb ≠ '%' := by rcases hv with rfl | rfl <;> decide
      simp only [List.flatMap_cons, formatOf, List.cons_append, List.nil_append, List.filterMap_cons, valOf, subst]
      rw [sprintf.eq_def]
      simp [hvp, hv, ih]

theorem fields_eq (u : Uni) (keys : List Str) (val : Str → Str) (hnd : (keys.map (nameOf u)).Nodup) (p n : Str)
    (hp : p ∈ keys) (hn : nameOf u p = some n) : fields u keys val n = some (val p) := by
  have : keys.filter (fun k => nameOf u k == some n) = [p] := by
    induction keys with
    | nil => cases hp
    | cons k keys ih =>
      simp only [List.map_cons, List.nodup_cons] at hnd
      simp only [List.mem_cons] at hp
      rcases hp with rfl | hp
      · rw [List.filter_cons_of_pos (by simp [hn])]
        congr 1
        rw [List.filter_eq_nil_iff]
        intro k hk
        simp only [beq_iff_eq]
        intro he
        exact hnd.1 (List.mem_map.mpr ⟨k, hk, by rw [he, hn]⟩)
      · rw [List.filter_cons_of_neg]
        · exact ih hnd.2 hp
        · simp only [beq_iff_eq]
          intro he
          exact hnd.1 (List.mem_map.mpr ⟨p, hp, by rw [he, hn]⟩)
  unfold fields
  rw [this]

theorem names_spec (u : Uni) (keys : List Str) (val : Str → Str) (hnd : (keys.map (nameOf u)).Nodup) (toks : List Tok)
    (hp : ∀ p, .par p ∈ toks → p ∈ keys ∧ nameOf u p ≠ some [] ∧ ∀ c ∈ p, c.toNat < 128) :
    ∃ names, (toks.filterMap parOf).mapM (nameOf u) = some names ∧ (∀ n ∈ names, ',' ∉ n ∧ n ≠ []) ∧
      names.mapM (fields u keys val) = some (toks.filterMap (valOf val)) := by
  induction toks with
  | nil => exact ⟨[], rfl, by simp, rfl⟩
  | cons t toks ih =>
    obtain ⟨names, h1, h2, h3⟩ := ih (fun p h => hp p (List.mem_cons_of_mem _ h))
    cases t with
    | lit c => exact ⟨names, by rw [List.filterMap_cons]; exact h1, h2, by rw [List.filterMap_cons]; exact h3⟩
    | par p =>
      obtain ⟨hk, hne, hasc⟩ := hp p (by simp)
      obtain ⟨n, hn, hc⟩ := nameOf_some u p
      have hn' : nameOf u ('{' :: (p ++ ['}'])) = some n := by rw [nameOf_braces u p hasc, hn]
      refine ⟨n :: names, ?_, ?_, ?_⟩
      · simp [parOf, List.mapM_cons, hn', h1]
      · intro m hm
        simp only [List.mem_cons] at hm
        rcases hm with rfl | hm
        · exact ⟨hc, fun h => hne (by rw [hn, h])⟩
        · exact h2 m hm
      · simp [valOf, List.mapM_cons, fields_eq u keys val hnd p n hk hn, h3]

/-- The arguments as written. -/
def argText (names : List Str) : Str := names.flatMap (fun n => kwParams ++ n ++ [','])

theorem argText_dropLast (n : Str) (names : List Str) :
    (argText (n :: names)).dropLast = Str.join ',' ((n :: names).map (kwParams ++ ·)) := by
  induction names generalizing n with
  | nil =>
    simp only [argText, List.flatMap_cons, List.flatMap_nil, List.append_nil, List.map_cons, List.map_nil, Str.join]
    rw [List.dropLast_concat]
  | cons m names ih =>
    have e : argText (n :: m :: names) = (kwParams ++ n ++ [',']) ++ argText (m :: names) := rfl
    have hne : argText (m :: names) ≠ [] := by simp [argText]
    rw [e, List.dropLast_append_of_ne_nil hne, ih m]
    have : ∀ (a b : Str) (l : List Str), Str.join ',' (a :: b :: l) = a ++ ',' :: Str.join ',' (b :: l) := fun _ _ _ => rfl
    simp only [List.map_cons, this, List.append_assoc, List.singleton_append]

theorem mapM_selector (field : Str → Option Str) (names : List Str) (h : ∀ n ∈ names, n ≠ []) :
    (names.map (kwParams ++ ·)).mapM (selector field) = names.mapM field := by
  induction names with
  | nil => rfl
  | cons n names ih =>
    have hn : selector field (kwParams ++ n) = field n := by
      unfold selector
      rw [stripPrefix_append]
      simp only [if_neg (h n (by simp))]
    rw [List.map_cons, List.mapM_cons, List.mapM_cons, ih (fun m hm => h m (List.mem_cons_of_mem _ hm)), hn]

theorem argsOf_names (field : Str → Option Str) (names : List Str) (h : ∀ n ∈ names, ',' ∉ n ∧ n ≠ []) :
    argsOf field (((([' '] ++ argText names).dropLast ++ [')']).dropLast).dropWhile (· == ' ')) =
      names.mapM field := by
  rw [List.dropLast_concat]
  cases names with
  | nil => rfl
  | cons n names =>
    have hne : argText (n :: names) ≠ [] := by simp [argText]
    rw [List.dropLast_append_of_ne_nil hne, argText_dropLast]
    have hj : ∃ t, Str.join ',' ((n :: names).map (kwParams ++ ·)) = 'p' :: t := by
      cases names with
      | nil => exact ⟨_, rfl⟩
      | cons m names => exact ⟨_, rfl⟩
    have hd : (([' '] ++ Str.join ',' ((n :: names).map (kwParams ++ ·))).dropWhile (· == ' ')) =
        Str.join ',' ((n :: names).map (kwParams ++ ·)) := by
      obtain ⟨t, ht⟩ := hj
      rw [ht]
      rfl
    rw [hd]
    unfold argsOf
    rw [if_neg (by obtain ⟨t, ht⟩ := hj; rw [ht]; simp)]
    rw [Str.split_join ',' _ (by simp)]
    · exact mapM_selector field (n :: names) (fun m hm => (h m hm).2)
    · intro t ht
      rw [List.mem_map] at ht
      obtain ⟨m, hm, rfl⟩ := ht
      simp only [List.mem_append, not_or]
      exact ⟨by decide, (h m hm).1⟩

/-- The generated expression calls `Sprintf` with the format and the values of the parameters. -/
theorem eval_gen (u : Uni) (isPrint : Char → Bool) (verb : Char)
    (addr : Str) (keys : List Str) (val : Str → Str) (hnd : (keys.map (nameOf u)).Nodup)
    (hp : ∀ p, .par p ∈ tokens none addr → p ∈ keys ∧ nameOf u p ≠ some [] ∧ ∀ c ∈ p, c.toNat < 128) :
    ∃ text, genText u isPrint verb true addr = some text ∧ evalText (fields u keys val) text =
      sprintf ((tokens none addr).flatMap (formatOf verb)) ((tokens none addr).filterMap (valOf val)) := by
  obtain ⟨names, h1, h2, h3⟩ := names_spec u keys val hnd (tokens none addr) hp
  let f := (tokens none addr).flatMap (formatOf verb)
  have hrest : ∃ rest, rest = (([' '] ++ argText names).dropLast ++ [')']) := ⟨_, rfl⟩
  obtain ⟨rest, hrest⟩ := hrest
  refine ⟨(kwCall ++ ['"']) ++ (f.flatMap (goEsc isPrint) ++ '"' :: ',' :: rest), ?_, ?_⟩
  · unfold genText
    simp only [if_true, h1]
    congr 1
    rw [hrest]
    have e : kwCall ++ goQuote isPrint f ++ [',', ' '] ++
        names.flatMap (fun n => kwParams ++ n ++ [',']) =
        (kwCall ++ ['"'] ++ f.flatMap (goEsc isPrint) ++ ['"', ',']) ++ ([' '] ++ argText names) := by
      simp [goQuote, argText]
    rw [e, List.dropLast_append_of_ne_nil (by simp)]
    simp [f]
  · rw [show ∀ t, evalText (fields u keys val) ((kwCall ++ ['"']) ++ t) = evalCall (fields u keys val) ((kwCall ++ ['"']) ++ t) from fun _ => rfl,
      evalCall, stripPrefix_append]
    simp only [GoLit.readStr_goQuote]
    have hl : rest.getLast? = some ')' := by rw [hrest]; simp
    rw [if_pos hl, hrest, argsOf_names _ names h2, h3]

/-- **C44 (partial: no `%` in the address; parameter names in ASCII, each with a letter, declared and with
distinct Go names).** For every address, parameter values and quoting of unprintable characters: the
generated Go expression evaluates to the address with each `{parameter}` replaced by its value, everything
else unchanged. Missing: the other cases, for which it is false (below) or the code does not compile. -/
theorem C44_substitutes_partial (u : Uni) (isPrint : Char → Bool) (verb : Char) (hv : verb = 's' ∨ verb = 'v')
    (addr : Str) (hpc : '%' ∉ addr) (keys : List Str) (val : Str → Str) (hnd : (keys.map (nameOf u)).Nodup)
    (hp : ∀ p, .par p ∈ tokens none addr → p ∈ keys ∧ nameOf u p ≠ some [] ∧ ∀ c ∈ p, c.toNat < 128) :
    ∃ text, genText u isPrint verb true addr = some text ∧
      evalText (fields u keys val) text = some ((tokens none addr).flatMap (subst val)) := by
  obtain ⟨text, h1, h2⟩ := eval_gen u isPrint verb addr keys val hnd hp
  exact ⟨text, h1, by rw [h2]; exact sprintf_tokens val verb hv _ (tokens_no_percent addr hpc)⟩

/-- **C44 (channels without parameters).** The generated expression is the address itself, for every
address. -/
theorem C44_without_parameters (u : Uni) (isPrint : Char → Bool) (verb : Char) (addr : Str) (field : Str → Option Str) :
    ∃ text, genText u isPrint verb false addr = some text ∧ evalText field text = some addr := by
  refine ⟨goQuote isPrint addr, rfl, ?_⟩
  unfold goQuote evalText
  simp [GoLit.readStr_goQuote]

/-- A piece of an address as a document writes it. -/
inductive Seg
  | text (s : Str)
  | param (p : Str)

/-- How it is written. -/
def Seg.render : Seg → Str
  | .text s => s
  | .param p => '{' :: (p ++ ['}'])

/-- What it stands for. -/
def Seg.value (val : Str → Str) : Seg → Str
  | .text s => s
  | .param p => val p

/-- Texts have no opening brace, parameter names have no brace. -/
def Seg.Ok : Seg → Prop
  | .text s => '{' ∉ s
  | .param p => '{' ∉ p ∧ '}' ∉ p

theorem tokens_text (s t : Str) (h : '{' ∉ s) : tokens none (s ++ t) = s.map .lit ++ tokens none t := by
  induction s with
  | nil => rfl
  | cons c s ih =>
    simp only [List.mem_cons, not_or] at h
    simp [tokens, Ne.symm h.1, ih h.2]

theorem tokens_param (p t : Str) (h : '{' ∉ p ∧ '}' ∉ p) : ∀ acc, tokens (some acc) (p ++ '}' :: t) = .par (acc ++ p) :: tokens none t := by
  induction p with
  | nil => intro acc; simp [tokens]
  | cons c p ih =>
    intro acc
    simp only [List.mem_cons, not_or] at h
    simp only [List.cons_append, tokens, Ne.symm h.1.1, Ne.symm h.2.1, if_false]
    rw [ih ⟨h.1.2, h.2.2⟩]
    simp

/-- **C44 (what the parameters are).** In an address made of texts and `{parameters}`, substituting replaces
exactly the parameters. -/
theorem C44_segments (val : Str → Str) (segs : List Seg) (h : ∀ g ∈ segs, g.Ok) :
    (tokens none (segs.flatMap Seg.render)).flatMap (subst val) = segs.flatMap (Seg.value val) ∧
    ∀ p, .par p ∈ tokens none (segs.flatMap Seg.render) ↔ Seg.param p ∈ segs := by
  induction segs with
  | nil => simp [tokens]
  | cons g segs ih =>
    obtain ⟨ih1, ih2⟩ := ih (fun g hg => h g (List.mem_cons_of_mem _ hg))
    have hg := h g (by simp)
    cases g with
    | text s =>
      simp only [List.flatMap_cons, Seg.render, Seg.value]
      rw [tokens_text s _ hg, List.flatMap_append, flatMap_lit (subst val) (fun c => [c]) (fun _ => rfl), flatMap_single, ih1]
      refine ⟨rfl, fun p => ?_⟩
      simp [ih2]
    | param q =>
      have e : ∀ t : Str, tokens none (('{' :: (q ++ ['}'])) ++ t) = .par q :: tokens none t := by
        intro t
        have := tokens_param q t hg []
        simpa [tokens] using this
      simp only [List.flatMap_cons, Seg.render, Seg.value]
      rw [e, List.flatMap_cons, ih1]
      refine ⟨rfl, fun p => ?_⟩
      simp [ih2]

/-- **C44 is violated**: a `%` in the address of a channel with parameters is taken for a verb. -/
theorem C44_violated (u : Uni) (isPrint : Char → Bool) :
    ∃ text, genText u isPrint 's' true "50%d/{id}".toList = some text ∧
      evalText (fields u ["id".toList] (fun _ => ['7'])) text = some "50%!d(string=7)/%!s(MISSING)".toList := by
  have hn : nameOf u "id".toList = some "Id".toList := by
    unfold nameOf
    rw [show utf8 "id".toList = Naming.lit "id" by decide, Naming.namify_ascii u _ (by
      intro b hb; revert b; decide)]
    decide
  have ht : tokens none "50%d/{id}".toList = "50%d/".toList.map .lit ++ [.par "id".toList] := by decide
  obtain ⟨text, h1, h2⟩ := eval_gen u isPrint 's' "50%d/{id}".toList ["id".toList] (fun _ => ['7']) (by simp) (by
    intro p hp
    rw [ht] at hp
    have : p = "id".toList := by simpa using hp
    subst this
    exact ⟨by simp, by rw [hn]; decide, by decide⟩)
  refine ⟨text, h1, ?_⟩
  rw [h2, ht]
  decide

/-- **C44 is violated**: a parameter without letter or digit has no Go name, and the generated expression is none. -/
theorem C44_violated_unnamed (u : Uni) (isPrint : Char → Bool) (val : Str → Str) :
    ∃ text, genText u isPrint 's' true "rooms/{-}".toList = some text ∧
      evalText (fields u ["-".toList] val) text = none := by
  have hn : nameOf u "{-}".toList = some [] := by
    unfold nameOf
    rw [show utf8 "{-}".toList = Naming.lit "{-}" by decide, Naming.namify_ascii u _ (by
      intro b hb; revert b; decide)]
    decide
  have ht : tokens none "rooms/{-}".toList = "rooms/".toList.map .lit ++ [.par "-".toList] := by decide
  have hm : ((tokens none "rooms/{-}".toList).filterMap parOf).mapM (nameOf u) = some [[]] := by
    rw [show (tokens none "rooms/{-}".toList).filterMap parOf = ["{-}".toList] by rw [ht]; decide]
    simp only [List.mapM_cons, List.mapM_nil, hn]
    rfl
  obtain ⟨f, hf⟩ : ∃ f, f = (tokens none "rooms/{-}".toList).flatMap (formatOf 's') := ⟨_, rfl⟩
  refine ⟨(kwCall ++ ['"']) ++ (f.flatMap (goEsc isPrint) ++ '"' :: ',' :: ' ' :: (kwParams ++ [')'])), ?_, ?_⟩
  · unfold genText
    simp only [if_true, hm, ← hf]
    congr 1
    rw [show kwCall ++ goQuote isPrint f ++ [',', ' '] ++ [[]].flatMap (fun n => kwParams ++ n ++ [',']) =
        (kwCall ++ ['"'] ++ f.flatMap (goEsc isPrint) ++ ['"', ',', ' '] ++ kwParams) ++ [','] by simp [goQuote],
      List.dropLast_concat]
    simp
  · rw [show ∀ t, evalText (fields u ["-".toList] val) ((kwCall ++ ['"']) ++ t) =
        evalCall (fields u ["-".toList] val) ((kwCall ++ ['"']) ++ t) from fun _ => rfl, evalCall, stripPrefix_append]
    simp only [GoLit.readStr_goQuote]
    rw [if_pos (show (' ' :: (kwParams ++ [')'])).getLast? = some ')' by decide)]
    rfl

/-- Non-vacuity of `C44_substitutes_partial`. -/
example : ('%' ∉ "users/{user_id}/{kind}".toList) ∧
    ((["user_id".toList, "kind".toList].map (nameOf Naming.uni0)).Nodup) ∧
    (∀ p ∈ ["user_id".toList, "kind".toList], nameOf Naming.uni0 p ≠ some []) ∧
    tokens none "users/{user_id}/{kind}".toList =
      "users/".toList.map .lit ++ [.par "user_id".toList, .lit '/', .par "kind".toList] := by decide

/-! ## C45 -/

theorem split_mlc (s : Str) : Str.split '\n' (s.flatMap (fun c => if c = '\n' then ['\n', '/', '/', ' '] else [c])) =
    match Str.split '\n' s with
    | [] => []
    | l :: ls => l :: ls.map (['/', '/', ' '] ++ ·) := by
  have key : ∀ (t : Str) (l : Str) (ls : List Str), Str.split '\n' t = l :: ls → ∀ p : Str, '\n' ∉ p →
      Str.split '\n' (p ++ t) = (p ++ l) :: ls := by
    intro t l ls ht p hp
    induction p with
    | nil => simpa using ht
    | cons c p ih =>
      simp only [List.mem_cons, not_or] at hp
      simp [Str.split, Ne.symm hp.1, ih hp.2]
  induction s with
  | nil => rfl
  | cons c s ih =>
    rw [List.flatMap_cons]
    match hs : Str.split '\n' s with
    | [] => exact absurd hs (Str.split_ne_nil _ _)
    | l :: ls =>
      rw [hs] at ih
      simp only at ih
      by_cases hc : c = '\n'
      · subst hc
        rw [if_pos rfl]
        have e : ∀ t : Str, ['\n', '/', '/', ' '] ++ t = '\n' :: (['/', '/', ' '] ++ t) := fun _ => rfl
        rw [e]
        have k := key _ _ _ ih ['/', '/', ' '] (by decide)
        simp only [Str.split, if_true, k, hs, List.map_cons]
      · rw [if_neg hc]
        simp only [List.singleton_append, Str.split, hc, if_false, ih, hs]

/-- **C45.** Whatever the description, and whatever comment line it is put in: its lines are the lines of the
description (without a final newline), the first one after the beginning of the comment and every other one
after `// `. -/
theorem C45_every_line_is_comment (start desc : Str) (hs : '\n' ∉ start) :
    ∃ l ls, Str.split '\n' (trimNewline desc) = l :: ls ∧
      Str.split '\n' (start ++ multiLineComment desc) = (start ++ l) :: ls.map (['/', '/', ' '] ++ ·) := by
  match hd : Str.split '\n' (trimNewline desc) with
  | [] => exact absurd hd (Str.split_ne_nil _ _)
  | l :: ls =>
    refine ⟨l, ls, rfl, ?_⟩
    have h := split_mlc (trimNewline desc)
    rw [hd] at h
    simp only at h
    unfold multiLineComment
    revert h
    generalize (trimNewline desc).flatMap _ = t
    intro ht
    induction start with
    | nil => simpa using ht
    | cons c p ih =>
      simp only [List.mem_cons, not_or] at hs
      simp [Str.split, Ne.symm hs.1, ih hs.2]

/-- **C45 (corollary).** Every generated line starts with `//`. -/
theorem C45_lines_start_with_slashes (start desc : Str) (hs : '\n' ∉ start) :
    ∀ line ∈ Str.split '\n' (['/', '/'] ++ start ++ multiLineComment desc), ∃ t, line = ['/', '/'] ++ t := by
  obtain ⟨l, ls, _, h⟩ := C45_every_line_is_comment (['/', '/'] ++ start) desc (by
    simp only [List.mem_append, not_or]; exact ⟨by decide, hs⟩)
  rw [h]
  intro line hm
  simp only [List.mem_cons, List.mem_map] at hm
  rcases hm with rfl | ⟨t, _, rfl⟩
  · exact ⟨start ++ l, by simp [List.append_assoc]⟩
  · exact ⟨' ' :: t, rfl⟩

example : multiLineComment "a\n}\nfunc init() {\n".toList = "a\n// }\n// func init() {".toList := by decide

end Verif.ChannelAddr
