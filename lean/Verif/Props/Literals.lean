import Verif.Model.Literals
import Verif.Spec.Literals
import Verif.Props.ChannelAddr

/-!
# C92. Texts of the document are the values of the literals generated for them
-/

namespace Verif.Literals

open Json (prepend)
open GoLit (readStr readStr_close readStr_plain)

theorem readStr_text (t rest : Str) (h : Plain t) : readStr (t ++ '"' :: rest) = some (t, rest) := by
  induction t with
  | nil => exact readStr_close rest
  | cons c t ih =>
    have hc := h c (by simp)
    rw [List.cons_append, readStr_plain c _ hc.1 hc.2.2 hc.2.1, ih (fun x hx => h x (by simp [hx]))]
    rfl

theorem prepend_some {c : Char} {o : Option (Str × Str)} {v r : Str} (h : prepend c o = some (v, r)) :
    ∃ v', o = some (v', r) ∧ v = c :: v' := by
  cases o with
  | none => simp [prepend] at h
  | some p => obtain ⟨a, b⟩ := p; simp [prepend] at h; exact ⟨a, by simp [h.2], h.1.symm⟩

/-- Reading a literal: it takes at least as many characters as it has, plus one; and exactly as many only
when all of them are plain. -/
theorem readStr_len : ∀ (n : Nat) (s v r : Str), s.length ≤ n → readStr s = some (v, r) →
    v.length + 1 + r.length ≤ s.length ∧
    (v.length + 1 + r.length = s.length → Plain v ∧ s = v ++ '"' :: r) := by
  intro n
  induction n with
  | zero => 
    intro s v r hn h
    have : s = [] := List.eq_nil_of_length_eq_zero (by omega)
    subst this
    rw [readStr.eq_def] at h; simp at h
  | succ n ih =>
    intro s v r hn h
    rw [readStr.eq_def] at h
    match s, hn, h with
    | [], hn, h => simp at h
    | c :: s, hn, h =>
      simp only at h
      simp only [List.length_cons] at hn
      split at h
      · rename_i hc
        simp only [Option.some.injEq, Prod.mk.injEq] at h
        obtain ⟨rfl, rfl⟩ := h
        subst hc
        exact ⟨by simp; omega, fun _ => ⟨by intro c hc; simp at hc, rfl⟩⟩
      · split at h
        · simp at h
        · rename_i hq hnl
          split at h
          · rename_i hb
            have fin : ∀ (s2 : Str) (ch : Char), s2.length + 1 ≤ s.length → prepend ch (readStr s2) = some (v, r) →
                v.length + 1 + r.length ≤ (c :: s).length ∧
                (v.length + 1 + r.length = (c :: s).length → Plain v ∧ c :: s = v ++ '"' :: r) := by
              intro s2 ch hl hp
              obtain ⟨v', e, rfl⟩ := prepend_some hp
              have := (ih s2 v' r (by omega) e).1
              simp only [List.length_cons]
              exact ⟨by omega, fun he => by omega⟩
            split at h
            · split at h
              · simp at h
              · exact fin _ _ (by simp only [List.length_cons]; omega) h
            · split at h
              · simp at h
              · exact fin _ _ (by simp only [List.length_cons]; omega) h
            · split at h
              · simp at h
              · exact fin _ _ (by simp only [List.length_cons]; omega) h
            · split at h
              · simp at h
              · exact fin _ _ (by simp only [List.length_cons]; omega) h
            · simp at h
          · rename_i hb
            obtain ⟨v', e, rfl⟩ := prepend_some h
            obtain ⟨h1, h2⟩ := ih s v' r (by omega) e
            simp only [List.length_cons]
            refine ⟨by omega, fun he => ?_⟩
            obtain ⟨p, q⟩ := h2 (by omega)
            refine ⟨?_, by rw [q]; rfl⟩
            intro x hx
            rcases List.mem_cons.mp hx with rfl | hx
            · exact ⟨hq, hb, hnl⟩
            · exact p x hx

theorem readStr_text_iff (t rest : Str) : readStr (t ++ '"' :: rest) = some (t, rest) ↔ Plain t := by
  refine ⟨fun h => ?_, readStr_text t rest⟩
  exact ((readStr_len _ _ _ _ (Nat.le_refl _) h).2 (by simp; omega)).1

theorem firstLit_append (p s : Str) (hp : '"' ∉ p) :
    firstLit (p ++ '"' :: s) = (readStr s).map (fun r => (p, r.1, r.2)) := by
  induction p with
  | nil => simp [firstLit]
  | cons c p ih =>
    simp only [List.mem_cons, not_or] at hp
    simp only [List.cons_append, firstLit, if_neg (Ne.symm hp.1), ih hp.2, Option.map_map]
    rfl

/-- The names printed next to the literal have no quotation mark (C42: they have letters and digits only). -/
def Site.Ok : Site → Prop
  | .path name => '"' ∉ name
  | _ => True

theorem before_ok (s : Site) (h : s.Ok) : '"' ∉ before s := by
  cases s with
  | path name => 
    simp only [before, List.mem_append, not_or]
    exact ⟨h, by decide⟩
  | _ => simp only [before]; decide

theorem firstLit_line (s : Site) (h : s.Ok) (text : Str) :
    firstLit (line s text) = (readStr (text ++ '"' :: after s)).map (fun r => (before s, r.1, r.2)) :=
  firstLit_append _ _ (before_ok s h)

/-- **C92 (partial).** At every place where a text of the document is printed between quotation marks — the
version, the paths of channels, the names of headers where they are read and written, the names of declared
properties — the line generated is the intended one with this very text as the value of its literal exactly
when the text has no quotation mark, no backslash and no line break. -/
theorem C92_literal_partial (s : Site) (h : s.Ok) (text : Str) :
    firstLit (line s text) = some (before s, text, after s) ↔ Plain text := by
  rw [firstLit_line s h, ← readStr_text_iff text (after s)]
  constructor
  · intro e
    match hr : readStr (text ++ '"' :: after s) with
    | none => rw [hr] at e; simp at e
    | some (a, b) => rw [hr] at e; simp at e; rw [e.1, e.2]
  · intro e; rw [e]; rfl

example : Plain "x-request-id".toList ∧ (Site.headerCase "XRequestId".toList).Ok := by
  exact ⟨by decide, trivial⟩

/-- **C92 (partial).** A header with a name that a literal may hold is written under its name, in `headers[…] = value`,
and read in the case of the same name; a property likewise, and the version is a constant and in the context. -/
theorem C92_lines_partial (name value text : Str) (h : Plain text) :
    firstLit (line (.headerSet value) text) = some ("headers[".toList, text, "] = ".toList ++ value) ∧
    (∃ note, firstLit (line (.headerCase name) text) = some ("case k == ".toList, text, ':' :: ' ' :: '/' :: '/' :: note)) ∧
    firstLit (line .propertyCase text) = some ("case ".toList, text, [':']) ∧
    firstLit (line .version text) = some ("const AsyncAPIVersion = ".toList, text, []) ∧
    firstLit (line .contextVersion text) =
      some ("ctx = context.WithValue(ctx, extensions.ContextKeyIsVersion, ".toList, text, [')']) :=
  ⟨(C92_literal_partial (.headerSet value) trivial text).mpr h,
    ⟨_, (C92_literal_partial (.headerCase name) trivial text).mpr h⟩,
    (C92_literal_partial .propertyCase trivial text).mpr h,
    (C92_literal_partial .version trivial text).mpr h,
    (C92_literal_partial .contextVersion trivial text).mpr h⟩

example : Plain "x-request-id".toList := by decide

/-- **C92 (partial).** The path constant of a channel without parameters is the address that the functions of
the controllers use, exactly when the address is plain. -/
theorem C92_path_partial (u : Naming.Uni) (isPrint : Char → Bool) (verb : Char) (name addr : Str) (hn : '"' ∉ name) :
    ∃ text, ChannelAddr.genText u isPrint verb false addr = some text ∧
      (firstLit (line (.path name) addr) =
        (ChannelAddr.evalText (fun _ => none) text).map (fun v => (name ++ kwPath, v, [])) ↔ Plain addr) := by
  obtain ⟨text, h1, h2⟩ := ChannelAddr.C44_without_parameters u isPrint verb addr (fun _ => none)
  refine ⟨text, h1, ?_⟩
  rw [h2]
  exact C92_literal_partial (.path name) hn addr

/-- **C92, violated.** A version may contain any Go code: it becomes code of the generated package. -/
theorem C92_violated_code (code : Str) :
    firstLit (line .version ("1\"; ".toList ++ code ++ "; var _ = \"".toList)) =
      some ("const AsyncAPIVersion = ".toList, ['1'], "; ".toList ++ code ++ "; var _ = \"\"".toList) := by
  rw [firstLit_line .version trivial]
  rw [show "1\"; ".toList ++ code ++ "; var _ = \"".toList ++ '"' :: after .version =
    ['1'] ++ '"' :: ("; ".toList ++ code ++ "; var _ = \"\"".toList) by simp [after]]
  rw [readStr_text ['1'] _ (by decide)]
  rfl

/-- **C92, violated.** A header named with a backslash is read and written under another name; a line break
in a text leaves no literal at all. -/
theorem C92_violated_value (name value : Str) :
    firstLit (line (.headerCase name) "a\\tb".toList) =
      some ("case k == ".toList, "a\tb".toList, after (.headerCase name)) ∧
    firstLit (line (.headerSet value) "a\\tb".toList) =
      some ("headers[".toList, "a\tb".toList, after (.headerSet value)) ∧
    firstLit (line .version "1\n2".toList) = none := by
  refine ⟨?_, ?_, by decide⟩
  · rw [firstLit_line (.headerCase name) trivial]
    rw [show "a\\tb".toList ++ '"' :: after (.headerCase name) = 'a' :: '\\' :: 't' :: 'b' :: '"' :: after (.headerCase name)
      by simp]
    rw [readStr_plain 'a' _ (by decide) (by decide) (by decide),
      GoLit.readStr_esc 't' '\t' _ (by decide) (by decide) (by decide) (by decide),
      readStr_plain 'b' _ (by decide) (by decide) (by decide), readStr_close]
    rfl
  · rw [firstLit_line (.headerSet value) trivial]
    rw [show "a\\tb".toList ++ '"' :: after (.headerSet value) = 'a' :: '\\' :: 't' :: 'b' :: '"' :: after (.headerSet value)
      by simp]
    rw [readStr_plain 'a' _ (by decide) (by decide) (by decide),
      GoLit.readStr_esc 't' '\t' _ (by decide) (by decide) (by decide) (by decide),
      readStr_plain 'b' _ (by decide) (by decide) (by decide), readStr_close]
    rfl

theorem takeWhile_line (s : Str) :
    (s.takeWhile (· ≠ '\n') = s ∧ s.dropWhile (· ≠ '\n') = []) ↔ '\n' ∉ s := by
  induction s with
  | nil => simp
  | cons c s ih =>
    by_cases hc : c = '\n'
    · subst hc; simp
    · simp only [List.takeWhile_cons, List.dropWhile_cons, hc, ne_eq, not_false_eq_true, decide_true, if_true,
        List.cons.injEq, true_and, List.mem_cons, not_or]
      simp only [ne_eq] at ih
      rw [ih]
      exact ⟨fun h => ⟨Ne.symm hc, h⟩, fun h => h.2⟩

/-- The names in a comment have no line break (C42: they have letters and digits only). -/
def Note.Ok : Note → Prop
  | .subscribe name => '\n' ∉ name
  | .unsubscribe name => '\n' ∉ name
  | .publish name => '\n' ∉ name
  | .subscriber name => '\n' ∉ name
  | .path name => '\n' ∉ name

/-- The comment before the text, without its slashes. -/
theorem note_shape (n : Note) (h : n.Ok) : ∃ start, noteBefore n = '/' :: '/' :: start ∧ '\n' ∉ start := by
  cases n with
  | subscribe name =>
    exact ⟨kwSubscribe.drop 2 ++ name ++ kwSubscribe2, rfl, by
      simp only [List.mem_append, not_or]; exact ⟨⟨by decide, h⟩, by decide⟩⟩
  | unsubscribe name =>
    exact ⟨kwUnsubscribe.drop 2 ++ name ++ kwUnsubscribe2, rfl, by
      simp only [List.mem_append, not_or]; exact ⟨⟨by decide, h⟩, by decide⟩⟩
  | publish name =>
    exact ⟨kwPublish.drop 2 ++ name ++ kwPublish2, rfl, by
      simp only [List.mem_append, not_or]; exact ⟨⟨by decide, h⟩, by decide⟩⟩
  | subscriber name =>
    exact ⟨kwSlashes.drop 2 ++ name ++ kwPlaced, rfl, by
      simp only [List.mem_append, not_or]; exact ⟨⟨by decide, h⟩, by decide⟩⟩
  | path name =>
    exact ⟨kwSlashes.drop 2 ++ name ++ kwConstant, rfl, by
      simp only [List.mem_append, not_or]; exact ⟨⟨by decide, h⟩, by decide⟩⟩

theorem noteAfter_ok (n : Note) : '\n' ∉ noteAfter n := by
  cases n <;> simp only [noteAfter] <;> decide

/-- **C92 (partial).** The comments that mention a channel are one comment, with nothing after it, exactly when
the text mentioned has no line break. -/
theorem C92_comment_partial (n : Note) (h : n.Ok) (text : Str) :
    comment (note n text) = some ((note n text).drop 2, []) ↔ '\n' ∉ text := by
  obtain ⟨start, e, hs⟩ := note_shape n h
  have he := noteAfter_ok n
  unfold note
  rw [e]
  simp only [List.cons_append, comment, Option.some.injEq, Prod.mk.injEq, List.drop_succ_cons, List.drop_zero]
  rw [takeWhile_line]
  simp only [List.mem_append, not_or]
  exact ⟨fun k => k.1.2, fun k => ⟨⟨hs, k⟩, he⟩⟩

example : '\n' ∉ "user/signed up".toList ∧ (Note.subscribe "UserSignedUp".toList).Ok := by
  unfold Note.Ok; decide

/-- **C92, violated.** After a line break in the name of a channel the rest of the name is code. -/
theorem C92_violated_comment (n : Note) (h : n.Ok) (code : Str) :
    ∃ c, comment (note n ('\n' :: code)) = some (c, '\n' :: (code ++ noteAfter n)) := by
  obtain ⟨start, e, hs⟩ := note_shape n h
  unfold note
  rw [e]
  simp only [List.cons_append, comment, Option.some.injEq, Prod.mk.injEq]
  refine ⟨_, rfl, ?_⟩
  rw [List.append_assoc, List.dropWhile_append_of_pos]
  · simp
  · intro x hx
    have : x ≠ '\n' := fun e => hs (e ▸ hx)
    simpa using this

end Verif.Literals
