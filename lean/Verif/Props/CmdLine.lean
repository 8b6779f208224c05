import Verif.Spec.CmdLine

/-!
# C95: every way to write an option means the same, the last value counts, documents add up
-/

namespace Verif.CmdLine

/-- Setting options one after the other. -/
def setAll (csv : Str → Option (List Str)) (f : Flags) : List (Flag × Str) → Option Flags
  | [] => some f
  | (n, v) :: s =>
    match set csv f n v with
    | none => none
    | some f => setAll csv f s

/-- What remains when the arguments are read. -/
def finish (o : Option St) : Option Flags :=
  match o with
  | none => none
  | some st => if st.pending.isSome then none else some st.flags

theorem parse_eq (csv : Str → Option (List Str)) (l : List Str) :
    parse csv l = finish (args csv { flags := {} } l) := rfl

theorem args_cons (csv : Str → Option (List Str)) (st : St) (a : Str) (l : List Str) :
    args csv st (a :: l) = (arg csv st a).bind (fun st => args csv st l) := by
  rw [args]
  cases arg csv st a <;> rfl

/-- The names the parser knows are the documented ones. -/
theorem byName_names {f : Flag} {n : String} {c : Option Char} (h : (f, n, c) ∈ names) : byName n.toList = some f := by
  simp only [names, List.mem_cons, Prod.mk.injEq, List.not_mem_nil, or_false] at h
  rcases h with h | h | h | h | h | h | h | h | h | h <;> obtain ⟨rfl, rfl, _⟩ := h <;> decide

theorem byShort_names {f : Flag} {n : String} {c : Char} (h : (f, n, some c) ∈ names) : byShort c = some f := by
  simp only [names, List.mem_cons, Prod.mk.injEq, List.not_mem_nil, or_false] at h
  rcases h with h | h | h | h | h | h | h | h | h | h <;> obtain ⟨rfl, _, h⟩ := h <;> first | cases h; decide | cases h

theorem names_plain {f : Flag} {n : String} {c : Option Char} (h : (f, n, c) ∈ names) :
    '=' ∉ n.toList ∧ ∃ d s, n.toList = d :: s ∧ d ≠ '-' := by
  simp only [names, List.mem_cons, Prod.mk.injEq, List.not_mem_nil, or_false] at h
  rcases h with h | h | h | h | h | h | h | h | h | h <;> obtain ⟨_, rfl, _⟩ := h <;>
    exact ⟨by decide, _, _, rfl, by decide⟩

theorem short_plain {f : Flag} {n : String} {c : Char} (h : (f, n, some c) ∈ names) : c ≠ 't' ∧ c ≠ '-' := by
  simp only [names, List.mem_cons, Prod.mk.injEq, List.not_mem_nil, or_false] at h
  rcases h with h | h | h | h | h | h | h | h | h | h <;> obtain ⟨_, _, h⟩ := h <;> first | cases h; decide | cases h

theorem isBool_iff (f : Flag) : f.isBool = true ↔ f ∈ switches := by cases f <;> decide

theorem cutEq_eq (n v : Str) (h : '=' ∉ n) : cutEq (n ++ '=' :: v) = (n, some v) := by
  induction n with
  | nil => simp [cutEq]
  | cons c n ih =>
    have hc : c ≠ '=' := fun e => h (by simp [e])
    have hn : '=' ∉ n := fun e => h (by simp [e])
    simp [cutEq, hc, ih hn]

theorem cutEq_none (n : Str) (h : '=' ∉ n) : cutEq n = (n, none) := by
  induction n with
  | nil => simp [cutEq]
  | cons c n ih =>
    have hc : c ≠ '=' := fun e => h (by simp [e])
    have hn : '=' ∉ n := fun e => h (by simp [e])
    simp [cutEq, hc, ih hn]

theorem arg_long {csv : Str → Option (List Str)} {f : Flags} {d : Char} {s : Str} :
    arg csv { flags := f } ('-' :: '-' :: d :: s) = long csv f (d :: s) := rfl

theorem arg_short {csv : Str → Option (List Str)} {f : Flags} {c : Char} {s : Str} (hc : c ≠ '-') :
    arg csv { flags := f } ('-' :: c :: s) = shorts csv f (c :: s) := by
  unfold arg
  simp only [Bool.false_eq_true, if_false]
  split
  · rename_i h; simp at h; exact absurd h.1 hc
  · rename_i h; simp at h; exact absurd h.1 hc
  · rename_i h; simp at h; rw [h.1, h.2]
  · rename_i h1 h2 h3; exact absurd rfl (h3 c s)

theorem arg_word {csv : Str → Option (List Str)} {f : Flags} {a : Str} (h : a.head? ≠ some '-' ∨ a = ['-']) :
    arg csv { flags := f } a = some { flags := f } := by
  rcases h with h | rfl
  · unfold arg
    simp only [Bool.false_eq_true, if_false]
    split <;> first | rfl | (simp at h)
  · rfl

theorem arg_pending {csv : Str → Option (List Str)} {f : Flags} {n : Flag} {a : Str} :
    arg csv { flags := f, pending := some n } a = (set csv f n a).map (fun f => { flags := f }) := rfl

theorem args_rest {csv : Str → Option (List Str)} {f : Flags} (l : List Str) :
    args csv { flags := f, rest := true } l = some { flags := f, rest := true } := by
  induction l with
  | nil => rfl
  | cons a l ih => rw [args_cons, show arg csv { flags := f, rest := true } a = some { flags := f, rest := true } from rfl]; exact ih

theorem test_prefix {c : Char} {s : Str} (h : c ≠ 't') : kwTest.isPrefixOf (c :: s) = false := by
  have : kwTest = 't' :: "est.".toList := by decide
  rw [this]
  simp [List.isPrefixOf, Ne.symm h]

theorem long_value {csv : Str → Option (List Str)} {f : Flags} {n : String} {fl : Flag} {c : Option Char} {v : Str}
    (h : (fl, n, c) ∈ names) :
    arg csv { flags := f } ('-' :: '-' :: (n.toList ++ '=' :: v)) = (set csv f fl v).map (fun f => { flags := f }) := by
  obtain ⟨he, d, s, hd, hm⟩ := names_plain h
  have hde : d ≠ '=' := fun e => he (by rw [hd, e]; simp)
  have ha : arg csv { flags := f } ('-' :: '-' :: (n.toList ++ '=' :: v)) = long csv f (n.toList ++ '=' :: v) := by
    rw [hd]; rfl
  rw [ha, long, cutEq_eq _ _ he, byName_names h]
  rw [if_neg]
  rw [hd]; simp [hm, hde]

theorem long_name {csv : Str → Option (List Str)} {f : Flags} {n : String} {fl : Flag} {c : Option Char}
    (h : (fl, n, c) ∈ names) :
    arg csv { flags := f } ('-' :: '-' :: n.toList) =
      if fl.isBool then (set csv f fl kwTrue).map (fun f => { flags := f }) else some { flags := f, pending := some fl } := by
  obtain ⟨he, d, s, hd, hm⟩ := names_plain h
  have hde : d ≠ '=' := fun e => he (by rw [hd, e]; simp)
  have ha : arg csv { flags := f } ('-' :: '-' :: n.toList) = long csv f n.toList := by
    rw [hd]; rfl
  rw [ha, long, cutEq_none _ he, byName_names h]
  rw [if_neg]
  rw [hd]; simp [hm, hde]

/-- Reading arguments is setting options: nothing is left over. -/
def Sets (csv : Str → Option (List Str)) (l : List Str) (s : List (Flag × Str)) : Prop :=
  ∃ r, ("--".toList ∉ l → r = false) ∧
    ∀ f, args csv { flags := f } l = (setAll csv f s).map (fun f => { flags := f, rest := r })

theorem set_step (csv : Str → Option (List Str)) (n : Flag) (v : Str) (l as : List Str) (s : List (Flag × Str))
    (ih : Sets csv l s)
    (h : ∀ f, args csv { flags := f } (as ++ l) =
      ((set csv f n v).map (fun f => ({ flags := f } : St))).bind (fun st => args csv st l)) :
    Sets csv (as ++ l) ((n, v) :: s) := by
  obtain ⟨r, hr, ih⟩ := ih
  refine ⟨r, fun hm => hr (fun h => hm (List.mem_append_right _ h)), fun f => ?_⟩
  rw [h f, setAll]
  cases set csv f n v with
  | none => rfl
  | some f => exact ih f

/-- The parser sets what the command line says. -/
theorem says_set {csv : Str → Option (List Str)} {l : List Str} {s : List (Flag × Str)} (h : Says l s) :
    Sets csv l s := by
  induction h with
  | nil => exact ⟨false, fun _ => rfl, fun _ => rfl⟩
  | longEq hn _ ih =>
    refine set_step csv _ _ _ [_] _ ih (fun f => ?_)
    rw [List.singleton_append, args_cons, long_value hn]
  | long hn hs _ ih =>
    refine set_step csv _ _ _ [_, _] _ ih (fun f => ?_)
    have hs := mt (isBool_iff _).mp hs
    rw [List.cons_append, List.singleton_append, args_cons, long_name hn, if_neg hs, Option.bind_some, args_cons, arg_pending]
  | short hn hs _ ih =>
    refine set_step csv _ _ _ [_, _] _ ih (fun f => ?_)
    have hs := mt (isBool_iff _).mp hs
    obtain ⟨ht, hm⟩ := short_plain hn
    rw [List.cons_append, List.singleton_append, args_cons, arg_short hm, shorts, test_prefix ht, byShort_names hn]
    simp only [Bool.false_eq_true, if_false, List.head?_nil, hs, ne_eq, not_true_eq_false]
    simp only [reduceCtorEq, false_and, if_false, Option.bind_some]
    rw [args_cons, arg_pending]
  | attached hn hs hv hv' _ ih =>
    refine set_step csv _ _ _ [_] _ ih (fun f => ?_)
    have hs := mt (isBool_iff _).mp hs
    obtain ⟨ht, hm⟩ := short_plain hn
    rw [List.singleton_append, args_cons, arg_short hm, shorts, test_prefix ht, byShort_names hn]
    simp only [Bool.false_eq_true, if_false, hv', false_and, hs, ne_eq, hv, not_false_eq_true, if_true]
  | @shortEq fl n c v l s hn hv _ ih =>
    refine set_step csv _ _ _ [_] _ ih (fun f => ?_)
    obtain ⟨ht, hm⟩ := short_plain hn
    rw [List.singleton_append, args_cons, arg_short hm, shorts, test_prefix ht, byShort_names hn]
    have : 1 < ('=' :: v).length := by cases v with | nil => exact absurd rfl hv | cons => simp
    simp only [Bool.false_eq_true, if_false, List.head?_cons, this, and_self, if_true, List.tail_cons]
  | switch hn hs _ ih =>
    refine set_step csv _ _ _ [_] _ ih (fun f => ?_)
    have hs := (isBool_iff _).mpr hs
    rw [List.singleton_append, args_cons, long_name hn, if_pos hs]
    rfl
  | @shortSwitch fl n c l s hn hs _ ih =>
    refine set_step csv _ _ _ [_] _ ih (fun f => ?_)
    have hs := (isBool_iff _).mpr hs
    obtain ⟨ht, hm⟩ := short_plain hn
    rw [List.singleton_append, args_cons, arg_short hm, shorts, test_prefix ht, byShort_names hn]
    simp only [Bool.false_eq_true, if_false, List.head?_nil, reduceCtorEq, false_and, hs, if_true]
    rw [show "true".toList = kwTrue from rfl]
    cases set csv f fl kwTrue <;> rfl
  | word hw _ ih =>
    obtain ⟨r, hr, ih⟩ := ih
    refine ⟨r, fun hm => hr (fun h => hm (List.mem_cons_of_mem _ h)), fun f => ?_⟩
    rw [args_cons, arg_word hw]; exact ih f
  | @cluster fl n c d t l s hn hs hd he _ ih =>
    obtain ⟨r, hr, ih⟩ := ih
    refine ⟨r, fun hm => hr (fun h => hm ?_), fun f => ?_⟩
    · rcases List.mem_cons.mp h with h | h
      · have : ['-', '-'] = '-' :: d :: t := h
        simp only [List.cons.injEq, true_and] at this
        exact absurd this.1.symm hd
      · exact List.mem_cons_of_mem _ h
    · have hs := (isBool_iff _).mpr hs
      obtain ⟨ht, hm⟩ := short_plain hn
      rw [args_cons, arg_short hm, shorts, test_prefix ht, byShort_names hn]
      simp only [Bool.false_eq_true, if_false, List.head?_cons, Option.some.injEq, he, false_and, hs, if_true]
      rw [setAll, show "true".toList = kwTrue from rfl]
      cases set csv f fl kwTrue with
      | none => rfl
      | some f =>
        simp only
        rw [← ih f, args_cons, arg_short hd]
  | @dashes l =>
    refine ⟨true, fun h => absurd (by simp) h, fun f => ?_⟩
    rw [args_cons, show arg csv { flags := f } "--".toList = some { flags := f, rest := true } from rfl, Option.bind_some,
      args_rest]
    rfl

theorem says_parse {csv : Str → Option (List Str)} {l : List Str} {s : List (Flag × Str)} (h : Says l s) :
    parse csv l = setAll csv {} s := by
  obtain ⟨r, _, h⟩ := says_set (csv := csv) h
  rw [parse_eq, h]
  cases setAll csv {} s <;> rfl

/-- The values are such that the options can be set: documents without quotation marks and line breaks, and
`true` or `false` for switches. -/
def Valid (s : List (Flag × Str)) : Prop :=
  ∀ e ∈ s, (e.1 = .input → '"' ∉ e.2 ∧ '\n' ∉ e.2 ∧ '\r' ∉ e.2) ∧
    (e.1 ∈ switches → e.2 ∈ trues ∨ e.2 ∈ falses)

/-- The documents that the values of `input` name: separated by commas, none in an empty value. -/
def documents (vs : List Str) : List Str := vs.flatMap (fun v => if v = [] then [] else Str.split ',' v)

theorem given_cons (f n : Flag) (v : Str) (s : List (Flag × Str)) :
    given f ((n, v) :: s) = if n = f then v :: given f s else given f s := by
  unfold given
  by_cases h : n = f <;> simp [h]

theorem parseBool_true (v : Str) : parseBool v = some true ↔ v ∈ trues := by
  simp only [parseBool, trues, List.map_cons, List.map_nil, List.mem_cons, List.not_mem_nil, or_false]
  constructor
  · intro h
    split at h
    · rename_i hh; grind
    · split at h <;> cases h
  · intro h
    rw [if_pos]
    grind

theorem parseBool_false (v : Str) : parseBool v = some false ↔ v ∈ falses := by
  constructor
  · intro h
    unfold parseBool at h
    split at h
    · cases h
    · split at h
      · rename_i hh
        revert hh
        simp only [falses, List.map_cons, List.map_nil, List.mem_cons, List.not_mem_nil, or_false]
        grind
      · cases h
  · intro h
    simp only [falses, List.map_cons, List.map_nil, List.mem_cons, List.not_mem_nil, or_false] at h
    rcases h with rfl | rfl | rfl | rfl | rfl | rfl <;> decide

theorem getLastD_map {α β : Type} (f : α → β) (d : α) : ∀ l : List α, (l.map f).getLastD (f d) = f (l.getLastD d)
  | [] => rfl
  | a :: l => by rw [List.map_cons, List.getLastD_cons, List.getLastD_cons]; exact getLastD_map f a l

theorem readAsCSV_simple (csv : Str → Option (List Str)) (v : Str) (h : '"' ∉ v ∧ '\n' ∉ v ∧ '\r' ∉ v) :
    readAsCSV csv v = some (if v = [] then [] else Str.split ',' v) := by
  have hs : simple v = true := by
    rw [simple, List.all_eq_true]
    intro c hc
    have h1 : c ≠ '"' := fun e => h.1 (e ▸ hc)
    have h2 : c ≠ '\n' := fun e => h.2.1 (e ▸ hc)
    have h3 : c ≠ '\r' := fun e => h.2.2 (e ▸ hc)
    simp [h1, h2, h3]
  unfold readAsCSV
  by_cases hv : v = [] <;> simp [hv, hs]

/-- What is set, whatever was set before. -/
theorem setAll_values (csv : Str → Option (List Str)) : ∀ (s : List (Flag × Str)) (f : Flags), Valid s →
    ∃ g, setAll csv f s = some g ∧
      g.inputs = (if f.changed then f.inputs ++ documents (given .input s)
        else if given .input s = [] then f.inputs else documents (given .input s)) ∧
      g.output = (given .output s).getLastD f.output ∧
      g.package = (given .package s).getLastD f.package ∧
      g.generate = (given .generate s).getLastD f.generate ∧
      g.convertKeys = (given .convertKeys s).getLastD f.convertKeys ∧
      g.naming = (given .naming s).getLastD f.naming ∧
      some g.noFormat = ((given .noFormat s).map parseBool).getLastD (some f.noFormat) ∧
      some g.ignoreFormat = ((given .ignoreFormat s).map parseBool).getLastD (some f.ignoreFormat) ∧
      some g.forcePointers = ((given .forcePointers s).map parseBool).getLastD (some f.forcePointers) ∧
      some g.help = ((given .help s).map parseBool).getLastD (some f.help) := by
  intro s
  induction s with
  | nil => intro f _; exact ⟨f, rfl, by simp [given, documents], rfl, rfl, rfl, rfl, rfl, rfl, rfl, rfl, rfl⟩
  | cons e s ih =>
    obtain ⟨n, v⟩ := e
    intro f hv
    have hv' : Valid s := fun e he => hv e (by simp [he])
    obtain ⟨hi, hb⟩ := hv (n, v) (by simp)
    simp only at hi hb
    have hset : ∃ f', set csv f n v = some f' ∧
        (f'.changed = (f.changed || decide (n = .input))) ∧
        (f'.inputs = if n = .input then (if f.changed then f.inputs ++ documents [v] else documents [v]) else f.inputs) ∧
        (f'.output = if n = .output then v else f.output) ∧
        (f'.package = if n = .package then v else f.package) ∧
        (f'.generate = if n = .generate then v else f.generate) ∧
        (f'.convertKeys = if n = .convertKeys then v else f.convertKeys) ∧
        (f'.naming = if n = .naming then v else f.naming) ∧
        (some f'.noFormat = if n = .noFormat then parseBool v else some f.noFormat) ∧
        (some f'.ignoreFormat = if n = .ignoreFormat then parseBool v else some f.ignoreFormat) ∧
        (some f'.forcePointers = if n = .forcePointers then parseBool v else some f.forcePointers) ∧
        (some f'.help = if n = .help then parseBool v else some f.help) := by
      have hbool : n ∈ switches → ∃ b, parseBool v = some b := by
        intro h
        rcases hb h with e | e
        · exact ⟨true, (parseBool_true v).2 e⟩
        · exact ⟨false, (parseBool_false v).2 e⟩
      cases n with
      | input =>
        refine ⟨_, by rw [set, readAsCSV_simple csv v (hi rfl)], ?_⟩
        simp [documents]
      | output => exact ⟨_, rfl, by simp⟩
      | package => exact ⟨_, rfl, by simp⟩
      | generate => exact ⟨_, rfl, by simp⟩
      | convertKeys => exact ⟨_, rfl, by simp⟩
      | naming => exact ⟨_, rfl, by simp⟩
      | noFormat => obtain ⟨b, e⟩ := hbool (by decide); exact ⟨_, by rw [set, e]; rfl, by simp [e]⟩
      | ignoreFormat => obtain ⟨b, e⟩ := hbool (by decide); exact ⟨_, by rw [set, e]; rfl, by simp [e]⟩
      | forcePointers => obtain ⟨b, e⟩ := hbool (by decide); exact ⟨_, by rw [set, e]; rfl, by simp [e]⟩
      | help => obtain ⟨b, e⟩ := hbool (by decide); exact ⟨_, by rw [set, e]; rfl, by simp [e]⟩
    obtain ⟨f', hf', hc, h0, h1, h2, h3, h4, h5, h6, h7, h8, h9⟩ := hset
    obtain ⟨g, hg, g0, g1, g2, g3, g4, g5, g6, g7, g8, g9⟩ := ih f' hv'
    have last : ∀ (k : Flag) (a b : Str), a = (if n = k then v else b) →
        (given k s).getLastD a = (given k ((n, v) :: s)).getLastD b := by
      intro k a b e
      rw [given_cons, e]
      by_cases h : n = k
      · rw [if_pos h, if_pos h, List.getLastD_cons]
      · rw [if_neg h, if_neg h]
    have lastB : ∀ (k : Flag) (a b : Option Bool), a = (if n = k then parseBool v else b) →
        ((given k s).map parseBool).getLastD a = ((given k ((n, v) :: s)).map parseBool).getLastD b := by
      intro k a b e
      rw [given_cons, e]
      by_cases h : n = k
      · rw [if_pos h, if_pos h, List.map_cons, List.getLastD_cons]
      · rw [if_neg h, if_neg h]
    refine ⟨g, by rw [setAll, hf']; exact hg, ?_, ?_, ?_, ?_, ?_, ?_, ?_, ?_, ?_, ?_⟩
    · rw [g0, hc, h0, given_cons]
      by_cases h : n = .input
      · subst h
        by_cases h' : f.changed = true <;> simp [h', documents]
      · simp [h]
    · rw [g1]; exact last _ _ _ h1
    · rw [g2]; exact last _ _ _ h2
    · rw [g3]; exact last _ _ _ h3
    · rw [g4]; exact last _ _ _ h4
    · rw [g5]; exact last _ _ _ h5
    · rw [g6]; exact lastB _ _ _ h6
    · rw [g7]; exact lastB _ _ _ h7
    · rw [g8]; exact lastB _ _ _ h8
    · rw [g9]; exact lastB _ _ _ h9

/-- **C95.** However the options are written, the command takes the documents of all `input` options in order
(`asyncapi.yaml` if there is none), and for every other option the last value given (or its default). -/
theorem C95_values (csv : Str → Option (List Str)) (l : List Str) (s : List (Flag × Str)) (h : Says l s) (hv : Valid s) :
    ∃ g, parse csv l = some g ∧
      g.inputs = (if given .input s = [] then ["asyncapi.yaml".toList] else documents (given .input s)) ∧
      g.output = last .output "asyncapi.gen.go" s ∧
      g.package = last .package "asyncapi" s ∧
      g.generate = last .generate "user,application,types" s ∧
      g.convertKeys = last .convertKeys "none" s ∧
      g.naming = last .naming "none" s ∧
      (g.noFormat = true ↔ last .noFormat "false" s ∈ trues) ∧
      (g.ignoreFormat = true ↔ last .ignoreFormat "false" s ∈ trues) ∧
      (g.forcePointers = true ↔ last .forcePointers "false" s ∈ trues) ∧
      (g.help = true ↔ last .help "false" s ∈ trues) := by
  obtain ⟨g, hg, g0, g1, g2, g3, g4, g5, g6, g7, g8, g9⟩ := setAll_values csv s {} hv
  have on : ∀ (k : Flag) (b : Bool), some b = ((given k s).map parseBool).getLastD (some false) →
      (b = true ↔ last k "false" s ∈ trues) := by
    intro k b e
    rw [show some false = parseBool "false".toList by decide, getLastD_map] at e
    rw [← parseBool_true, last, ← e, Option.some.injEq]
  refine ⟨g, by rw [says_parse h, hg], ?_, ?_, ?_, ?_, ?_, ?_, ?_, ?_, ?_, ?_⟩
  · rw [g0]; rfl
  · rw [g1]; rfl
  · rw [g2]; rfl
  · rw [g3]; rfl
  · rw [g4]; rfl
  · rw [g5]; rfl
  · exact on _ _ g6
  · exact on _ _ g7
  · exact on _ _ g8
  · exact on _ _ g9

example : Says ["-i".toList, "a.yaml".toList, "--input=b.yaml,c.yaml".toList, "-of.go".toList, "--force-pointers".toList]
    [(.input, "a.yaml".toList), (.input, "b.yaml,c.yaml".toList), (.output, "f.go".toList), (.forcePointers, "true".toList)] :=
  .short (c := 'i') (n := "input") (by simp [names]) (by decide)
    (.longEq (n := "input") (c := some 'i') (by simp [names])
      (.attached (n := "output") (c := 'o') (by simp [names]) (by decide) (by decide) (by decide)
        (.switch (n := "force-pointers") (c := none) (by simp [names]) (by decide) .nil)))

example : Says ["-fofile.go".toList, "-".toList] [(.noFormat, "true".toList), (.output, "file.go".toList)] :=
  .cluster (n := "disable-formatting") (c := 'f') (by simp [names]) (by decide) (by decide) (by decide)
    (.attached (n := "output") (c := 'o') (by simp [names]) (by decide) (by decide) (by decide)
      (.word (.inr rfl) .nil))

/-- A prefix of options that can be set changes nothing else about how the rest is read. -/
theorem args_append (csv : Str → Option (List Str)) (l l' : List Str) (st : St) :
    args csv st (l ++ l') = (args csv st l).bind (fun st => args csv st l') := by
  induction l generalizing st with
  | nil => rfl
  | cons a l ih =>
    rw [List.cons_append, args_cons, args_cons]
    cases arg csv st a with
    | none => rfl
    | some st => exact ih st

/-- **C95.** An option that does not exist is refused, wherever it stands before `--`, whatever precedes and follows
it; so is an option that misses its value at the end, and a switch with a value that is no truth value. -/
theorem C95_refused (csv : Str → Option (List Str)) (l l' : List Str) (s : List (Flag × Str)) (h : Says l s)
    (hd : "--".toList ∉ l) :
    (∀ name v : Str, name ++ v ≠ [] → '=' ∉ name → v = [] ∨ v.head? = some '=' → (∀ e ∈ names, name ≠ e.2.1.toList) →
      parse csv (l ++ ('-' :: '-' :: (name ++ v)) :: l') = none) ∧
    (∀ c : Char, c ≠ '-' → c ≠ 't' → (∀ e ∈ names, e.2.2 ≠ some c) → ∀ t, parse csv (l ++ ('-' :: c :: t) :: l') = none) ∧
    (∀ f n c, (f, n, c) ∈ names → f ∉ switches → parse csv (l ++ ['-' :: '-' :: n.toList]) = none) ∧
    (∀ f n c v, (f, n, c) ∈ names → f ∈ switches → v ∉ trues → v ∉ falses →
      parse csv (l ++ ('-' :: '-' :: (n.toList ++ '=' :: v)) :: l') = none) := by
  obtain ⟨r, hr, hl⟩ := says_set (csv := csv) h
  have key : ∀ (a : Str) (l' : List Str), (∀ f, arg csv { flags := f } a = none) → parse csv (l ++ a :: l') = none := by
    intro a l' ha
    rw [parse_eq, args_append, hl, hr hd]
    cases setAll csv {} s with
    | none => rfl
    | some f =>
      show finish (args csv { flags := f } (a :: l')) = none
      rw [args_cons, ha]; rfl
  refine ⟨fun name v hne he hv hn => ?_, fun c hc ht hn t => key _ _ (fun f => ?_), fun f n c hn hs => ?_,
    fun f n c v hn hs h1 h2 => key _ _ (fun g => ?_)⟩
  · have hc : (cutEq (name ++ v)).1 = name := by
      rcases hv with rfl | hv
      · rw [List.append_nil, cutEq_none _ he]
      · obtain ⟨d, t⟩ := v
        · cases hv
        · simp at hv; subst hv; rw [cutEq_eq _ _ he]
    rw [← hc] at hn
    generalize name ++ v = name at hne hn
    refine key _ _ (fun f => ?_)
    obtain ⟨d, t, rfl⟩ : ∃ d t, name = d :: t := by
      cases name with
      | nil => exact absurd rfl hne
      | cons d t => exact ⟨d, t, rfl⟩
    rw [arg_long, long]
    split
    · rfl
    · have : byName (cutEq (d :: t)).1 = none := by
        generalize (cutEq (d :: t)).1 = x at hn
        have h1 : x ≠ nInput := hn (.input, "input", some 'i') (by simp [names])
        have h2 : x ≠ nOutput := hn (.output, "output", some 'o') (by simp [names])
        have h3 : x ≠ nPackage := hn (.package, "package", some 'p') (by simp [names])
        have h4 : x ≠ nGenerate := hn (.generate, "generate", some 'g') (by simp [names])
        have h5 : x ≠ nNoFormat := hn (.noFormat, "disable-formatting", some 'f') (by simp [names])
        have h6 : x ≠ nConvertKeys := hn (.convertKeys, "convert-keys", some 'c') (by simp [names])
        have h7 : x ≠ nNaming := hn (.naming, "naming-scheme", some 'n') (by simp [names])
        have h8 : x ≠ nIgnoreFormat := hn (.ignoreFormat, "ignore-string-format", none) (by simp [names])
        have h9 : x ≠ nForcePointers := hn (.forcePointers, "force-pointers", none) (by simp [names])
        have h10 : x ≠ nHelp := hn (.help, "help", some 'h') (by simp [names])
        rw [byName, if_neg h1, if_neg h2, if_neg h3, if_neg h4, if_neg h5, if_neg h6, if_neg h7, if_neg h8, if_neg h9, if_neg h10]
      rw [this]
  · rw [arg_short hc, shorts, test_prefix ht]
    have : byShort c = none := by
      simp only [names, List.mem_cons, List.not_mem_nil, or_false, forall_eq_or_imp, forall_eq, ne_eq, Option.some.injEq] at hn
      obtain ⟨h1, h2, h3, h4, h5, h6, h7, _, _, h8⟩ := hn
      simp only [byShort, Ne.symm h1, Ne.symm h2, Ne.symm h3, Ne.symm h4, Ne.symm h5, Ne.symm h6, Ne.symm h7, Ne.symm h8, if_false]
    rw [this]
    rfl
  · have hs := mt (isBool_iff _).mp hs
    rw [parse_eq, args_append, hl, hr hd]
    cases setAll csv {} s with
    | none => rfl
    | some g =>
      show finish (args csv { flags := g } ['-' :: '-' :: n.toList]) = none
      rw [args_cons, long_name hn, if_neg hs]
      rfl
  · rw [long_value hn]
    have hp : parseBool v = none := by
      cases e : parseBool v with
      | none => rfl
      | some b =>
        cases b with
        | true => exact (h1 ((parseBool_true v).1 e)).elim
        | false => exact (h2 ((parseBool_false v).1 e)).elim
    simp only [switches, List.mem_cons, List.not_mem_nil, or_false] at hs
    rcases hs with rfl | rfl | rfl | rfl <;> simp [set, hp]

example : (∀ e ∈ names, "broker".toList ≠ e.2.1.toList) ∧ (∀ e ∈ names, e.2.2 ≠ some 'b') := by decide

/-- **C95 (violated).** A document that is given without `-i`, and any other word, is ignored: the command reads
`asyncapi.yaml`, or what `-i` names, instead. -/
theorem C95_violated_word (csv : Str → Option (List Str)) (ws : List Str) (h : ∀ w ∈ ws, w.head? ≠ some '-') :
    parse csv ws = parse csv [] ∧ ∃ g, parse csv ws = some g ∧ g.inputs = ["asyncapi.yaml".toList] := by
  have hs : ∀ ws : List Str, (∀ w ∈ ws, w.head? ≠ some '-') → Says ws [] := by
    intro ws
    induction ws with
    | nil => intro _; exact .nil
    | cons w ws ih => intro h; exact .word (.inl (h w (by simp))) (ih (fun x hx => h x (by simp [hx])))
  have e := says_parse (csv := csv) (hs ws h)
  exact ⟨e, _, e, rfl⟩

/-- **C95 (violated).** An empty value of `input` leaves no document at all. -/
theorem C95_violated_empty (csv : Str → Option (List Str)) :
    ∃ g, parse csv ["-i".toList, []] = some g ∧ g.inputs = [] ∧ g.help = false := ⟨_, rfl, rfl, rfl⟩

/-- A value with quotation marks or line breaks is read as CSV. -/
theorem C95_quoted (csv : Str → Option (List Str)) (v : Str) (h : '"' ∈ v ∨ '\n' ∈ v ∨ '\r' ∈ v) :
    readAsCSV csv v = csv v := by
  have hne : v ≠ [] := by
    rintro rfl
    simp at h
  have hs : simple v = false := by
    rw [simple, List.all_eq_false]
    rcases h with h | h | h
    · exact ⟨_, h, by decide⟩
    · exact ⟨_, h, by decide⟩
    · exact ⟨_, h, by decide⟩
  rw [readAsCSV, if_neg hne, hs]
  rfl

example : readAsCSV (fun _ => some [['a', ',', 'b']]) ['"', 'a', ',', 'b', '"'] = some [['a', ',', 'b']] := by decide

/-- **C95.** Naming documents in several options or in one, separated by commas, is the same. -/
theorem C95_commas (csv : Str → Option (List Str)) (ds : List Str) (hne : ds ≠ [])
    (h : ∀ d ∈ ds, d ≠ [] ∧ ',' ∉ d ∧ '"' ∉ d ∧ '\n' ∉ d ∧ '\r' ∉ d) :
    (∃ g, parse csv (ds.flatMap (fun d => ["--input".toList, d])) = some g ∧ g.inputs = ds) ∧
    (∃ g, parse csv ["--input".toList, Str.join ',' ds] = some g ∧ g.inputs = ds) := by
  have hn : (Flag.input, "input", some 'i') ∈ names := by simp [names]
  constructor
  · have hs : ∀ ds : List Str, Says (ds.flatMap (fun d => ["--input".toList, d])) (ds.map (fun d => (.input, d))) := by
      intro ds
      induction ds with
      | nil => exact .nil
      | cons d ds ih => exact .long hn (by decide) ih
    have hg : ∀ ds : List Str, given .input (ds.map (fun d => (Flag.input, d))) = ds := by
      intro ds
      induction ds with
      | nil => rfl
      | cons d ds ih => rw [List.map_cons, given_cons, if_pos rfl, ih]
    obtain ⟨g, e, hi, hrest⟩ := C95_values csv _ _ (hs ds) (by
      intro e he
      obtain ⟨d, hd, rfl⟩ := List.mem_map.mp he
      exact ⟨fun _ => (h d hd).2.2, fun hw => absurd hw (show Flag.input ∉ switches by decide)⟩)
    refine ⟨g, e, ?_⟩
    rw [hi, hg, if_neg hne]
    clear hi e hs hg hrest
    induction ds with
    | nil => rfl
    | cons d ds ih =>
      obtain ⟨h1, h2, _⟩ := h d (by simp)
      show (if d = [] then [] else Str.split ',' d) ++ documents ds = d :: ds
      rw [if_neg h1, Str.split_single ',' d h2]
      cases ds with
      | nil => rfl
      | cons d' ds =>
        rw [ih (by simp) (fun x hx => h x (by simp [hx]))]
        rfl
  · have hj : ∀ (ds : List Str) (c : Char), c ≠ ',' → (∀ d ∈ ds, c ∉ d) → c ∉ Str.join ',' ds := by
      intro ds c hc
      induction ds with
      | nil => intro _; simp [Str.join]
      | cons d ds ih =>
        intro hh
        cases ds with
        | nil => simpa [Str.join] using hh d (by simp)
        | cons d' ds =>
          rw [Str.join]
          · simp only [List.mem_append, List.mem_cons, not_or]
            exact ⟨hh d (by simp), hc, ih (fun x hx => hh x (by simp [hx]))⟩
          · simp
    have hs : Says ["--input".toList, Str.join ',' ds] [(.input, Str.join ',' ds)] := .long hn (by decide) .nil
    obtain ⟨g, e, hi, _⟩ := C95_values csv _ _ hs (by
      intro e he
      obtain rfl := List.mem_singleton.mp he
      refine ⟨fun _ => ⟨?_, ?_, ?_⟩, fun hw => absurd hw (show Flag.input ∉ switches by decide)⟩
      · exact hj ds _ (by decide) (fun d hd => (h d hd).2.2.1)
      · exact hj ds _ (by decide) (fun d hd => (h d hd).2.2.2.1)
      · exact hj ds _ (by decide) (fun d hd => (h d hd).2.2.2.2))
    refine ⟨g, e, ?_⟩
    have hne' : Str.join ',' ds ≠ [] := by
      cases ds with
      | nil => exact absurd rfl hne
      | cons d ds =>
        have := (h d (by simp)).1
        cases ds with
        | nil => simpa [Str.join] using this
        | cons d' ds => rw [Str.join]; simp; simp
    rw [hi]
    show (if [Str.join ',' ds] = [] then _ else (if Str.join ',' ds = [] then [] else Str.split ',' (Str.join ',' ds)) ++ []) = ds
    rw [if_neg (by simp), if_neg hne', List.append_nil]
    exact Str.split_join ',' ds hne (fun d hd => (h d hd).2.1)

example : parse (fun _ => none) ["--input".toList, "a.yaml,b.yaml".toList] =
    parse (fun _ => none) ["--input".toList, "a.yaml".toList, "-i".toList, "b.yaml".toList] := by decide

end Verif.CmdLine
