import Verif.Model.CiDirs

/-!
# C119: every example is run, once
-/

namespace Verif.CiDirs

/-! ## Specification -/

/-- The directory at a path of names, `n` levels below the top one. -/
inductive At : Nat → List (Str × Entry) → List Str → Prop
  | here {es : List (Str × Entry)} {e : Str} {sub : List (Str × Entry)} : (e, .dir sub) ∈ es → At 0 es [e]
  | under {n : Nat} {es : List (Str × Entry)} {e : Str} {sub : List (Str × Entry)} {p : List Str} :
      (e, .dir sub) ∈ es → At n sub p → At (n + 1) es (e :: p)

/-- An entry that cannot be opened, at most `n` levels below the top. -/
inductive Breaks : Nat → List (Str × Entry) → Prop
  | here {n : Nat} {es : List (Str × Entry)} {e : Str} : (e, .broken) ∈ es → Breaks n es
  | under {n : Nat} {es : List (Str × Entry)} {e : Str} {sub : List (Str × Entry)} : (e, .dir sub) ∈ es → Breaks n sub →
      Breaks (n + 1) es

/-- The text of a path. -/
def text (base : Str) : List Str → Str
  | [] => base
  | e :: p => text (base ++ '/' :: e) p

/-- Names of one directory are different, and no name contains a slash. -/
inductive Named : List (Str × Entry) → Prop
  | mk {es : List (Str × Entry)} : (es.map (·.1)).Nodup → (∀ e ∈ es, '/' ∉ e.1) → (∀ e sub, (e, Entry.dir sub) ∈ es → Named sub) →
      Named es

/-! ## Proofs -/

theorem at_cons (n : Nat) (x : Str × Entry) (es : List (Str × Entry)) (p : List Str) :
    At n (x :: es) p ↔ At n [x] p ∨ At n es p := by
  constructor
  · intro h
    cases h with
    | here h =>
      rcases List.mem_cons.1 h with h | h
      · exact Or.inl (.here (List.mem_singleton.2 h))
      · exact Or.inr (.here h)
    | under h h' =>
      rcases List.mem_cons.1 h with h | h
      · exact Or.inl (.under (List.mem_singleton.2 h) h')
      · exact Or.inr (.under h h')
  · rintro (h | h)
    · cases h with
      | here h => exact .here (List.mem_cons.2 (Or.inl (List.mem_singleton.1 h)))
      | under h h' => exact .under (List.mem_cons.2 (Or.inl (List.mem_singleton.1 h))) h'
    · cases h with
      | here h => exact .here (List.mem_cons_of_mem _ h)
      | under h h' => exact .under (List.mem_cons_of_mem _ h) h'

theorem breaks_cons (n : Nat) (x : Str × Entry) (es : List (Str × Entry)) :
    Breaks n (x :: es) ↔ Breaks n [x] ∨ Breaks n es := by
  constructor
  · intro h
    cases h with
    | here h =>
      rcases List.mem_cons.1 h with h | h
      · exact Or.inl (.here (List.mem_singleton.2 h))
      · exact Or.inr (.here h)
    | under h h' =>
      rcases List.mem_cons.1 h with h | h
      · exact Or.inl (.under (List.mem_singleton.2 h) h')
      · exact Or.inr (.under h h')
  · rintro (h | h)
    · cases h with
      | here h => exact .here (List.mem_cons.2 (Or.inl (List.mem_singleton.1 h)))
      | under h h' => exact .under (List.mem_cons.2 (Or.inl (List.mem_singleton.1 h))) h'
    · cases h with
      | here h => exact .here (List.mem_cons_of_mem _ h)
      | under h h' => exact .under (List.mem_cons_of_mem _ h) h'

/-- The result and the specification, entry by entry. -/
theorem loop_spec : ∀ (n : Nat) (es : List (Str × Entry)) (base : Str),
    (loop es n base = none ↔ Breaks n es) ∧
    ∀ ps, loop es n base = some ps → ∀ t, t ∈ ps ↔ ∃ p, At n es p ∧ text base p = t := by
  intro n
  induction n with
  | zero =>
    intro es base
    induction es with
    | nil =>
      refine ⟨⟨by rw [loop]; nofun, fun h => by cases h with | here h => cases h⟩, ?_⟩
      intro ps e t
      rw [loop] at e
      cases e
      refine ⟨nofun, ?_⟩
      rintro ⟨p, h, _⟩
      cases h with | here h => cases h
    | cons x es ih =>
      obtain ⟨name, y⟩ := x
      cases y with
      | broken =>
        refine ⟨⟨fun _ => .here (List.mem_cons_self ..), fun _ => by rw [loop]⟩, ?_⟩
        intro ps e
        rw [loop] at e
        cases e
      | file =>
        have hb : ¬ Breaks 0 [(name, Entry.file)] := by
          intro h; cases h with | here h => rw [List.mem_singleton] at h; cases h
        have ha : ∀ p, ¬ At 0 [(name, Entry.file)] p := by
          intro p h; cases h with | here h => rw [List.mem_singleton] at h; cases h
        rw [loop, breaks_cons]
        refine ⟨by rw [ih.1]; exact ⟨Or.inr, fun h => h.resolve_left hb⟩, ?_⟩
        intro ps e t
        rw [ih.2 ps e t]
        refine exists_congr (fun p => ?_)
        rw [at_cons]
        exact ⟨fun h => ⟨Or.inr h.1, h.2⟩, fun h => ⟨h.1.resolve_left (ha p), h.2⟩⟩
      | dir sub =>
        have hb : ¬ Breaks 0 [(name, Entry.dir sub)] := by
          intro h; cases h with | here h => rw [List.mem_singleton] at h; cases h
        have ha : ∀ p, At 0 [(name, Entry.dir sub)] p ↔ p = [name] := by
          intro p
          constructor
          · intro h
            cases h with
            | here h => rw [List.mem_singleton] at h; cases h; rfl
          · rintro rfl; exact .here (List.mem_singleton.2 rfl)
        rw [loop, breaks_cons]
        refine ⟨by rw [Option.map_eq_none_iff, ih.1]; exact ⟨Or.inr, fun h => h.resolve_left hb⟩, ?_⟩
        intro ps e t
        obtain ⟨qs, hq, rfl⟩ := Option.map_eq_some_iff.1 e
        rw [List.mem_cons, ih.2 qs hq t]
        constructor
        · rintro (rfl | ⟨p, h, rfl⟩)
          · exact ⟨[name], (at_cons ..).2 (Or.inl ((ha _).2 rfl)), rfl⟩
          · exact ⟨p, (at_cons ..).2 (Or.inr h), rfl⟩
        · rintro ⟨p, h, rfl⟩
          rcases (at_cons ..).1 h with h | h
          · rw [(ha p).1 h]; exact Or.inl rfl
          · exact Or.inr ⟨p, h, rfl⟩
  | succ n ihn =>
    intro es base
    induction es with
    | nil =>
      refine ⟨⟨by rw [loop]; nofun, fun h => by cases h with | here h => cases h | under h => cases h⟩, ?_⟩
      intro ps e t
      rw [loop] at e
      cases e
      refine ⟨nofun, ?_⟩
      rintro ⟨p, h, _⟩
      cases h with | under h => cases h
    | cons x es ih =>
      obtain ⟨name, y⟩ := x
      cases y with
      | broken =>
        refine ⟨⟨fun _ => .here (List.mem_cons_self ..), fun _ => by rw [loop]⟩, ?_⟩
        intro ps e
        rw [loop] at e
        cases e
      | file =>
        have hb : ¬ Breaks (n + 1) [(name, Entry.file)] := by
          intro h
          cases h with
          | here h => rw [List.mem_singleton] at h; cases h
          | under h => rw [List.mem_singleton] at h; cases h
        have ha : ∀ p, ¬ At (n + 1) [(name, Entry.file)] p := by
          intro p h; cases h with | under h => rw [List.mem_singleton] at h; cases h
        rw [loop, breaks_cons]
        refine ⟨by rw [ih.1]; exact ⟨Or.inr, fun h => h.resolve_left hb⟩, ?_⟩
        intro ps e t
        rw [ih.2 ps e t]
        refine exists_congr (fun p => ?_)
        rw [at_cons]
        exact ⟨fun h => ⟨Or.inr h.1, h.2⟩, fun h => ⟨h.1.resolve_left (ha p), h.2⟩⟩
      | dir sub =>
        have hs := ihn sub (base ++ '/' :: name)
        have hb : Breaks (n + 1) [(name, Entry.dir sub)] ↔ Breaks n sub := by
          constructor
          · intro h
            cases h with
            | here h => rw [List.mem_singleton] at h; cases h
            | under h h' => rw [List.mem_singleton] at h; cases h; exact h'
          · exact .under (List.mem_singleton.2 rfl)
        have ha : ∀ p, At (n + 1) [(name, Entry.dir sub)] p ↔ ∃ q, p = name :: q ∧ At n sub q := by
          intro p
          constructor
          · intro h
            cases h with
            | under h h' => rw [List.mem_singleton] at h; cases h; exact ⟨_, rfl, h'⟩
          · rintro ⟨q, rfl, h⟩; exact .under (List.mem_singleton.2 rfl) h
        rw [loop, breaks_cons, hb, dirsAt]
        cases h1 : loop sub n (base ++ '/' :: name) with
        | none =>
          refine ⟨⟨fun _ => Or.inl (hs.1.1 h1), fun _ => rfl⟩, ?_⟩
          intro ps e
          cases e
        | some qs =>
          have hnb : ¬ Breaks n sub := fun h => by rw [hs.1.2 h] at h1; cases h1
          simp only
          refine ⟨by rw [Option.map_eq_none_iff, ih.1]; exact ⟨Or.inr, fun h => h.resolve_left hnb⟩, ?_⟩
          intro ps e t
          obtain ⟨rs, hr, rfl⟩ := Option.map_eq_some_iff.1 e
          rw [List.mem_append, ih.2 rs hr t, hs.2 qs h1 t]
          constructor
          · rintro (⟨p, h, rfl⟩ | ⟨p, h, rfl⟩)
            · exact ⟨name :: p, (at_cons ..).2 (Or.inl ((ha _).2 ⟨p, rfl, h⟩)), rfl⟩
            · exact ⟨p, (at_cons ..).2 (Or.inr h), rfl⟩
          · rintro ⟨p, h, rfl⟩
            rcases (at_cons ..).1 h with h | h
            · obtain ⟨q, rfl, hq⟩ := (ha p).1 h
              exact Or.inl ⟨q, hq, rfl⟩
            · exact Or.inr ⟨p, h, rfl⟩

/-- **C119.** The directories found are exactly those at the level asked for, files and directories at other levels left out;
an error is returned exactly when something on the way cannot be opened. -/
theorem C119_found_exactly (n : Nat) (es : List (Str × Entry)) (base : Str) :
    (dirsAt es n base = none ↔ Breaks n es) ∧
    ∀ ps, dirsAt es n base = some ps → ∀ t, t ∈ ps ↔ ∃ p, At n es p ∧ text base p = t := by
  rw [dirsAt]
  exact loop_spec n es base

theorem text_cons (base e : Str) (p : List Str) : text base (e :: p) = base ++ '/' :: e ++ text [] p := by
  have key : ∀ (p : List Str) (base : Str), text base p = base ++ text [] p := by
    intro p
    induction p with
    | nil => intro base; simp [text]
    | cons e p ih =>
      intro base
      rw [text, text, ih, ih ([] ++ '/' :: e)]
      simp
  rw [text, key]

theorem text_head (p : List Str) : text [] p = [] ∨ ∃ r, text [] p = '/' :: r := by
  cases p with
  | nil => exact Or.inl rfl
  | cons e p => right; rw [text_cons]; exact ⟨e ++ text [] p, by simp⟩

/-- Two names before the end of the text or a slash are the same if the texts are. -/
theorem name_inj : ∀ (a b x y : Str), '/' ∉ a → '/' ∉ b → (x = [] ∨ ∃ r, x = '/' :: r) → (y = [] ∨ ∃ r, y = '/' :: r) →
    a ++ x = b ++ y → a = b
  | [], [], _, _, _, _, _, _, _ => rfl
  | [], c :: b, x, y, _, hb, hx, _, e => by
    rcases hx with rfl | ⟨r, rfl⟩
    · cases e
    · simp only [List.nil_append, List.cons_append, List.cons.injEq] at e
      exact absurd (e.1 ▸ List.mem_cons_self ..) hb
  | c :: a, [], x, y, ha, _, _, hy, e => by
    rcases hy with rfl | ⟨r, rfl⟩
    · cases e
    · simp only [List.nil_append, List.cons_append, List.cons.injEq] at e
      exact absurd (e.1 ▸ List.mem_cons_self ..) ha
  | c :: a, d :: b, x, y, ha, hb, hx, hy, e => by
    simp only [List.cons_append, List.cons.injEq] at e
    rw [e.1, name_inj a b x y (fun h => ha (List.mem_cons_of_mem _ h)) (fun h => hb (List.mem_cons_of_mem _ h)) hx hy e.2]

/-- What is found below different names is different. -/
theorem found_ne (n : Nat) (es : List (Str × Entry)) (base : Str) (ps : List Str) (h : loop es n base = some ps) (t : Str)
    (ht : t ∈ ps) : ∃ e x r, (e, x) ∈ es ∧ t = base ++ '/' :: (e ++ r) ∧ (r = [] ∨ ∃ q, r = '/' :: q) := by
  obtain ⟨p, hp, rfl⟩ := ((loop_spec n es base).2 ps h t).1 ht
  cases hp with
  | here h => exact ⟨_, _, text [] [], h, by rw [text_cons]; simp, text_head _⟩
  | @under _ _ e sub p h h' => exact ⟨e, .dir sub, text [] p, h, by rw [text_cons]; simp, text_head p⟩

/-- **C119.** No directory is listed twice. -/
theorem C119_once (n : Nat) (es : List (Str × Entry)) (base : Str) (hn : Named es) (ps : List Str)
    (h : dirsAt es n base = some ps) : ps.Nodup := by
  rw [dirsAt] at h
  have key : ∀ (n : Nat) (es : List (Str × Entry)) (base : Str) (ps : List Str), Named es → loop es n base = some ps → ps.Nodup := by
    intro n
    induction n with
    | zero =>
      intro es
      induction es with
      | nil => intro base ps _ h; rw [loop] at h; cases h; exact List.nodup_nil
      | cons x es ih =>
        intro base ps hn h
        have hn' : Named es := by
          obtain ⟨h1, h2, h3⟩ := hn
          exact ⟨(List.nodup_cons.1 h1).2, fun e he => h2 e (List.mem_cons_of_mem _ he),
            fun e sub he => h3 e sub (List.mem_cons_of_mem _ he)⟩
        obtain ⟨name, y⟩ := x
        cases y with
        | broken => rw [loop] at h; cases h
        | file => rw [loop] at h; exact ih base ps hn' h
        | dir sub =>
          rw [loop] at h
          obtain ⟨qs, hq, rfl⟩ := Option.map_eq_some_iff.1 h
          refine List.nodup_cons.2 ⟨fun hm => ?_, ih base qs hn' hq⟩
          obtain ⟨e, x, r, he, ht, hr⟩ := found_ne 0 es base qs hq _ hm
          obtain ⟨h1, h2, _⟩ := hn
          have e1 : name ++ [] = e ++ r := by simpa using ht
          have : name = e := name_inj name e [] r (h2 _ (List.mem_cons_self ..)) (h2 _ (List.mem_cons_of_mem _ he))
            (Or.inl rfl) hr e1
          subst this
          exact (List.nodup_cons.1 h1).1 (List.mem_map.2 ⟨_, he, rfl⟩)
    | succ n ihn =>
      intro es
      induction es with
      | nil => intro base ps _ h; rw [loop] at h; cases h; exact List.nodup_nil
      | cons x es ih =>
        intro base ps hn h
        have hn' : Named es := by
          obtain ⟨h1, h2, h3⟩ := hn
          exact ⟨(List.nodup_cons.1 h1).2, fun e he => h2 e (List.mem_cons_of_mem _ he),
            fun e sub he => h3 e sub (List.mem_cons_of_mem _ he)⟩
        obtain ⟨name, y⟩ := x
        cases y with
        | broken => rw [loop] at h; cases h
        | file => rw [loop] at h; exact ih base ps hn' h
        | dir sub =>
          rw [loop, dirsAt] at h
          cases h1 : loop sub n (base ++ '/' :: name) with
          | none => rw [h1] at h; cases h
          | some qs =>
            rw [h1] at h
            obtain ⟨rs, hr, rfl⟩ := Option.map_eq_some_iff.1 h
            have hsub : Named sub := by
              obtain ⟨_, _, h3⟩ := hn
              exact h3 name sub (List.mem_cons_self ..)
            refine List.nodup_append.2 ⟨ihn sub _ qs hsub h1, ih base rs hn' hr, ?_⟩
            intro t ht t' ht' ett
            subst ett
            obtain ⟨e, x, r, he, et, hr'⟩ := found_ne _ es base rs hr t ht'
            obtain ⟨e2, x2, r2, _, et2, _⟩ := found_ne _ sub _ qs h1 t ht
            obtain ⟨hnd, hsl, _⟩ := hn
            rw [et] at et2
            have e1 : name ++ '/' :: (e2 ++ r2) = e ++ r := by
              have : base ++ '/' :: (e ++ r) = base ++ '/' :: (name ++ '/' :: (e2 ++ r2)) := by rw [et2]; simp
              simpa using (List.append_cancel_left this).symm
            have : name = e := name_inj name e _ r (hsl _ (List.mem_cons_self ..)) (hsl _ (List.mem_cons_of_mem _ he))
              (Or.inr ⟨_, rfl⟩) hr' e1
            subst this
            exact (List.nodup_cons.1 hnd).1 (List.mem_map.2 ⟨_, he, rfl⟩)
  exact key n es base ps hn h

/-- **C119, for the examples.** The programs run are those of the directories at the third level, and of no others. -/
theorem C119_examples (es : List (Str × Entry)) :
    (examples es = none ↔ Breaks 2 es) ∧
    ∀ runs, examples es = some runs → ∀ a u, (a, u) ∈ runs ↔
      ∃ p, At 2 es p ∧ a = text "./examples".toList p ++ "/app".toList ∧ u = text "./examples".toList p ++ "/user".toList := by
  unfold examples
  obtain ⟨h1, h2⟩ := C119_found_exactly 2 es "./examples".toList
  refine ⟨by rw [Option.map_eq_none_iff, h1], ?_⟩
  intro runs e a u
  obtain ⟨ps, hp, rfl⟩ := Option.map_eq_some_iff.1 e
  rw [List.mem_map]
  constructor
  · rintro ⟨t, ht, et⟩
    obtain ⟨p, hpa, rfl⟩ := (h2 ps hp t).1 ht
    cases et
    exact ⟨p, hpa, rfl, rfl⟩
  · rintro ⟨p, hpa, rfl, rfl⟩
    exact ⟨_, (h2 ps hp _).2 ⟨p, hpa, rfl⟩, rfl⟩

/-! ## Examples -/

def v3Tree : List (Str × Entry) := [("README.md".toList, .file),
  ("helloworld".toList, .dir [("v2".toList, .dir [("nats".toList, .dir [])]), ("v3".toList, .dir [("kafka".toList, .dir []), ("nats".toList, .dir [("app".toList, .dir [])])])])]

example : Named v3Tree := by
  refine ⟨by decide, by decide, ?_⟩
  intro e sub h
  simp only [v3Tree, List.mem_cons, List.not_mem_nil, or_false, Prod.mk.injEq, reduceCtorEq, and_false, Entry.dir.injEq, false_or] at h
  obtain ⟨_, rfl⟩ := h
  refine ⟨by decide, by decide, ?_⟩
  intro e sub h
  simp only [List.mem_cons, List.not_mem_nil, or_false, Prod.mk.injEq, Entry.dir.injEq] at h
  rcases h with ⟨_, rfl⟩ | ⟨_, rfl⟩
  · refine ⟨by decide, by decide, ?_⟩
    intro e sub h
    simp only [List.mem_cons, List.not_mem_nil, or_false, Prod.mk.injEq, Entry.dir.injEq] at h
    obtain ⟨_, rfl⟩ := h
    exact ⟨by decide, by decide, nofun⟩
  · refine ⟨by decide, by decide, ?_⟩
    intro e sub h
    simp only [List.mem_cons, List.not_mem_nil, or_false, Prod.mk.injEq, Entry.dir.injEq] at h
    rcases h with ⟨_, rfl⟩ | ⟨_, rfl⟩
    · exact ⟨by decide, by decide, nofun⟩
    · refine ⟨by decide, by decide, ?_⟩
      intro e sub h
      simp only [List.mem_cons, List.not_mem_nil, or_false, Prod.mk.injEq, Entry.dir.injEq] at h
      obtain ⟨_, rfl⟩ := h
      exact ⟨by decide, by decide, nofun⟩

example : dirsAt v3Tree 2 ['.'] = some ["./helloworld/v2/nats".toList, "./helloworld/v3/kafka".toList, "./helloworld/v3/nats".toList] := by
  simp only [dirsAt, loop, v3Tree]
  decide

end Verif.CiDirs
