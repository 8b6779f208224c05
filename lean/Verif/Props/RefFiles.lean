import Verif.Model.RefFiles
import Verif.Spec.RefFiles
import Verif.Props.Refs

/-!
# C131: references between files lead to the file they name

True of references in the main document, when it lies in the folder the command runs in. In another folder they miss the file
they name or lead to another one, and references between dependencies are always errors.
-/

namespace Verif.RefFiles

open Refs (Doc Version Ty Out Elem At KindsOk NoTail Clean refText lookup trimDot docOf Typed)

/-! ## Locations -/

theorem walk_all (segs dir : List Str) (h : ∀ s ∈ segs, s ≠ [] ∧ s ≠ ['.'] ∧ s ≠ ['.', '.'] ∧ '/' ∉ s) :
    segs.foldl walk dir = dir ++ segs := by
  induction segs generalizing dir with
  | nil => simp
  | cons s ss ih =>
    have hs := h s (.head _)
    have hw : walk dir s = dir ++ [s] := by
      unfold walk
      rw [if_neg (by simp [hs.1, hs.2.1]), if_neg hs.2.2.1]
    rw [List.foldl_cons, hw, ih _ fun t ht => h t (.tail _ ht)]
    simp

theorem head_join {segs : List Str} (h : ∀ s ∈ segs, s ≠ [] ∧ s ≠ ['.'] ∧ s ≠ ['.', '.'] ∧ '/' ∉ s) (hne : segs ≠ []) :
    ∃ c r, Str.join '/' segs = c :: r ∧ c ≠ '/' ∧ trimDot (c :: r) = c :: r := by
  cases segs with
  | nil => exact absurd rfl hne
  | cons s ss =>
    have hs := h s (.head _)
    cases s with
    | nil => exact absurd rfl hs.1
    | cons c cs =>
      have hc : c ≠ '/' := fun e => hs.2.2.2 (by simp [e])
      have hj : ∃ r, Str.join '/' ((c :: cs) :: ss) = c :: cs ++ r ∧ (ss = [] → r = []) ∧ (ss ≠ [] → ∃ q, r = '/' :: q) := by
        cases ss with
        | nil => exact ⟨[], by simp [Str.join], fun _ => rfl, fun h => absurd rfl h⟩
        | cons t ts => exact ⟨'/' :: Str.join '/' (t :: ts), by simp [Str.join], (fun h => by cases h), fun _ => ⟨_, rfl⟩⟩
      obtain ⟨r, hr, h0, h1⟩ := hj
      refine ⟨c, cs ++ r, hr, hc, ?_⟩
      unfold trimDot
      split
      · rename_i s heq
        exfalso
        injection heq with e1 e2
        cases cs with
        | nil => exact hs.2.1 (by rw [e1])
        | cons d ds =>
          injection e2 with e2 _
          exact hs.2.2.2 (by simp [e2])
      · rfl

/-- What the proofs need of a tidy path: its elements, its location, and what is left of it by the model. -/
theorem tidy_spec {p : Str} (h : Tidy p) :
    p ≠ [] ∧ trimDot p ≠ [] ∧ ∀ dir, locate dir p = dir ++ Str.split '/' (trimDot p) := by
  obtain ⟨segs, hne, hs, hp⟩ := h
  obtain ⟨c, r, hj, hc, ht⟩ := head_join hs hne
  have hsplit : Str.split '/' (Str.join '/' segs) = segs := Str.split_join '/' segs hne fun t ht => (hs t ht).2.2.2
  rcases hp with rfl | rfl
  · refine ⟨by rw [hj]; simp, by rw [hj, ht]; simp, fun dir => ?_⟩
    unfold locate
    rw [hsplit, hj, ht, ← hj, hsplit, if_neg (by rw [hj]; simpa using hc), walk_all _ _ hs]
  · refine ⟨by simp, by show Str.join '/' segs ≠ []; rw [hj]; simp, fun dir => ?_⟩
    have e : Str.split '/' ('.' :: '/' :: Str.join '/' segs) = ['.'] :: segs := by
      have := Str.split_append '/' ['.'] (Str.join '/' segs) (by decide)
      rw [hsplit] at this
      exact this
    unfold locate
    rw [e, if_neg (by simp)]
    show List.foldl walk (walk dir ['.']) segs = dir ++ Str.split '/' (Str.join '/' segs)
    rw [hsplit, show walk dir ['.'] = dir from rfl, walk_all _ _ hs]

theorem local_tidy {p : Str} (h : Local p) : Tidy p ∧ ∀ dir, (locate dir p).dropLast = dir := by
  obtain ⟨s, h1, h2, h3, h4, hp⟩ := h
  have ht : Tidy p := ⟨[s], by simp, by simpa using ⟨h1, h2, h3, h4⟩, by simpa [Str.join] using hp⟩
  refine ⟨ht, fun dir => ?_⟩
  have htrim : trimDot p = s := by
    obtain ⟨c, r, hj, _, e⟩ := head_join (segs := [s]) (by simpa using ⟨h1, h2, h3, h4⟩) (by simp)
    have hs : s = c :: r := by simpa [Str.join] using hj
    rcases hp with rfl | rfl
    · rw [hs]; exact e
    · rfl
  rw [(tidy_spec ht).2.2 dir, htrim, Str.split_single '/' s h4]
  simp

theorem split_inj {a b : Str} (h : Str.split '/' a = Str.split '/' b) : a = b := by
  rw [← Str.join_split '/' a, h, Str.join_split]

/-- In a file of the folder the command runs in. -/
theorem names_iff {cwd : List Str} {here f there : Str} (hh : Local here) (hf : Tidy f) (ht : Tidy there) :
    Names cwd here f there ↔ trimDot f = trimDot there := by
  unfold Names
  rw [if_neg (tidy_spec hf).1, (local_tidy hh).2, (tidy_spec hf).2.2, (tidy_spec ht).2.2]
  constructor
  · intro h; exact split_inj (List.append_cancel_left h)
  · intro h; rw [h]

/-! ## The map of the dependencies -/

theorem get_dependencies (deps : List Input) (hn : (deps.map (fun f => trimDot f.path)).Nodup) (k : Str) (d : Doc) :
    (dependencies deps).get k = some d ↔ ∃ f ∈ deps, trimDot f.path = k ∧ f.doc = d := by
  have e : dependencies deps = GoMap.ofEntries (deps.map (fun f => (trimDot f.path, f.doc))) := by
    unfold dependencies GoMap.ofEntries
    rw [List.foldl_map]
    rfl
  have hw : GoMap.WF (deps.map (fun f => (trimDot f.path, f.doc))) := by
    unfold GoMap.WF GoMap.keys
    rw [List.map_map]
    exact hn
  rw [e, GoMap.get_ofEntries _ hw]
  constructor
  · intro h
    obtain ⟨f, hf, he⟩ := List.mem_map.mp (GoMap.mem_of_get h)
    injection he with h1 h2
    exact ⟨f, hf, h1, h2⟩
  · rintro ⟨f, hf, rfl, rfl⟩
    exact GoMap.get_of_mem hw (List.mem_map.mpr ⟨f, hf, rfl⟩)

theorem keys_nodup {cwd : List Str} {deps : List Input} (hd : ∀ f ∈ deps, Tidy f.path)
    (hn : (deps.map (fun f => locate cwd f.path)).Nodup) : (deps.map (fun f => trimDot f.path)).Nodup := by
  induction deps with
  | nil => simp
  | cons f fs ih =>
    rw [List.map_cons, List.nodup_cons] at hn ⊢
    refine ⟨fun hmem => hn.1 ?_, ih (fun g hg => hd g (.tail _ hg)) hn.2⟩
    obtain ⟨g, hg, hgf⟩ := List.mem_map.mp hmem
    refine List.mem_map.mpr ⟨g, hg, ?_⟩
    rw [(tidy_spec (hd f (.head _))).2.2, (tidy_spec (hd g (.tail _ hg))).2.2, hgf]

theorem lookup_none (v : Version) (self : Doc) (deps : GoMap Str Doc) (t : Ty) (file : Str) (path : List Str) (hs : '#' ∉ file)
    (hp : Clean path) (h : docOf self deps file = none) : lookup v self deps t (refText file path) = .error := by
  unfold lookup
  rw [Refs.reference_refText v self deps file path hs hp, h]
  rfl

/-! ## C131 -/

/-- Partial: the main document lies in the folder the command runs in, the paths are relative and without `.` and `..` (but
for `./` in front), no file is given twice, and the reference does not name the main document. Then a reference in the main
document finds exactly the elements of the file it names. -/
theorem C131_main_partial (v : Version) (hv : KindsOk v) (cwd : List Str) (main : Input) (deps : List Input)
    (hm : Local main.path) (hd : ∀ f ∈ deps, Tidy f.path)
    (hn : (deps.map (fun f => locate cwd f.path)).Nodup)
    (file : Str) (path : List Str) (hf : Tidy file) (hs : '#' ∉ file)
    (hself : ¬ Names cwd main.path file main.path) (hp : Clean path) (ht : NoTail v path) (t : Ty) (e : Elem) :
    lookupIn v main deps t (refText file path) .main = some (.found e) ↔
      ∃ f ∈ main :: deps, Names cwd main.path file f.path ∧ At v f.doc path e ∧ Typed e t := by
  have hkeys := keys_nodup hd hn
  show some (lookup v main.doc (dependencies deps) t (refText file path)) = some (.found e) ↔ _
  rw [Option.some.injEq, Refs.C46_resolves_partial v hv _ _ t file path hs hp ht e]
  unfold docOf
  rw [if_neg (tidy_spec hf).1]
  constructor
  · rintro ⟨d, hdoc, hat, hty⟩
    obtain ⟨f, hfm, hk, rfl⟩ := (get_dependencies deps hkeys _ _).mp hdoc
    exact ⟨f, .tail _ hfm, (names_iff hm hf (hd f hfm)).mpr hk.symm, hat, hty⟩
  · rintro ⟨f, hfm, hnames, hat, hty⟩
    rcases List.mem_cons.mp hfm with rfl | hfm
    · exact absurd hnames hself
    · exact ⟨f.doc, (get_dependencies deps hkeys _ _).mpr ⟨f, hfm, ((names_iff hm hf (hd f hfm)).mp hnames).symm, rfl⟩, hat, hty⟩

/-- A reference without a file finds exactly the elements of the document it stands in: the main one and each dependency. -/
theorem C131_within (v : Version) (hv : KindsOk v) (main : Input) (deps : List Input)
    (hn : (deps.map (fun f => trimDot f.path)).Nodup) (path : List Str) (hp : Clean path) (ht : NoTail v path) (t : Ty) (e : Elem) :
    (lookupIn v main deps t (refText [] path) .main = some (.found e) ↔ At v main.doc path e ∧ Typed e t) ∧
    ∀ f ∈ deps, lookupIn v main deps t (refText [] path) (.dep (trimDot f.path)) = some (.found e) ↔
      At v f.doc path e ∧ Typed e t := by
  constructor
  · show some (lookup v main.doc (dependencies deps) t (refText [] path)) = some (.found e) ↔ _
    rw [Option.some.injEq, Refs.C46_resolves_partial v hv _ _ t [] path (by simp) hp ht e]
    simp [docOf]
  · intro f hf
    unfold lookupIn
    simp only [(get_dependencies deps hn _ _).mpr ⟨f, hf, rfl, rfl⟩, Option.map_some, Option.some.injEq]
    rw [Refs.C46_resolves_partial v hv _ _ t [] path (by simp) hp ht e]
    simp [docOf]

/-- The order in which the dependencies are given makes no difference, when no two have the same path. -/
theorem C131_order (v : Version) (main : Input) (deps deps' : List Input) (hp : deps.Perm deps')
    (hn : (deps.map (fun f => trimDot f.path)).Nodup) (t : Ty) (ref : Str) (place : Place) :
    lookupIn v main deps t ref place = lookupIn v main deps' t ref place := by
  have hn' : (deps'.map (fun f => trimDot f.path)).Nodup := (hp.map _).nodup_iff.mp hn
  have key : ∀ k, (dependencies deps).get k = (dependencies deps').get k := by
    intro k
    cases h : (dependencies deps').get k with
    | some d =>
      rw [get_dependencies deps hn]
      obtain ⟨f, hf, h1⟩ := (get_dependencies deps' hn' k d).mp h
      exact ⟨f, hp.mem_iff.mpr hf, h1⟩
    | none =>
      cases h2 : (dependencies deps).get k with
      | none => rfl
      | some d =>
        obtain ⟨f, hf, h3⟩ := (get_dependencies deps hn k d).mp h2
        rw [(get_dependencies deps' hn' k d).mpr ⟨f, hp.mem_iff.mp hf, h3⟩] at h
        cases h
  cases place with
  | main =>
    show some (lookup v main.doc (dependencies deps) t ref) = some (lookup v main.doc (dependencies deps') t ref)
    unfold lookup Refs.reference
    simp only [key]
  | dep k => simp only [lookupIn, key]

/-! ## Where it is false -/

/-- A name that may stand in a path. -/
def Name (s : Str) : Prop := s ≠ [] ∧ s ≠ ['.'] ∧ s ≠ ['.', '.'] ∧ '/' ∉ s

/-- The path of a file in a folder. -/
def inFolder (dir name : Str) : Str := dir ++ '/' :: name

theorem inFolder_tidy {dir name : Str} (hd : Name dir) (hn : Name name) :
    Tidy (inFolder dir name) ∧ trimDot (inFolder dir name) = inFolder dir name ∧
      ∀ cwd, locate cwd (inFolder dir name) = cwd ++ [dir, name] := by
  have hs : ∀ s ∈ [dir, name], s ≠ [] ∧ s ≠ ['.'] ∧ s ≠ ['.', '.'] ∧ '/' ∉ s := by
    intro s h
    rcases List.mem_cons.mp h with rfl | h
    · exact hd
    · rw [List.mem_singleton.mp h]; exact hn
  have e : inFolder dir name = Str.join '/' [dir, name] := by simp [inFolder, Str.join]
  have ht : Tidy (inFolder dir name) := ⟨[dir, name], by simp, hs, .inl e⟩
  obtain ⟨c, r, hj, _, hc⟩ := head_join hs (by simp)
  have htrim : trimDot (inFolder dir name) = inFolder dir name := by rw [e, hj]; exact hc
  refine ⟨ht, htrim, fun cwd => ?_⟩
  rw [(tidy_spec ht).2.2, htrim, e, Str.split_join '/' _ (by simp) fun s h => (hs s h).2.2.2]

theorem name_tidy {s : Str} (h : Name s) : Local s ∧ Tidy s ∧ trimDot s = s ∧ ∀ dir, locate dir s = dir ++ [s] := by
  have hl : Local s := ⟨s, h.1, h.2.1, h.2.2.1, h.2.2.2, .inl rfl⟩
  have ht := (local_tidy hl).1
  have htrim : trimDot s = s := by
    obtain ⟨c, r, hj, _, e⟩ := head_join (segs := [s]) (by simpa [Name] using h) (by simp)
    have hs : s = c :: r := by simpa [Str.join] using hj
    rw [hs]; exact e
  refine ⟨hl, ht, htrim, fun dir => ?_⟩
  rw [(tidy_spec ht).2.2, htrim, Str.split_single '/' s h.2.2.2]

/-- The main document and a dependency lie in one folder, and the command runs outside of it: the name of the dependency is
not found, whatever the folder, the names and the documents. -/
theorem C131_violated_folder (v : Version) (cwd : List Str) (dir m b : Str) (hd : Name dir) (hm : Name m) (hb : Name b) (d1 d2 : Doc)
    (path : List Str) (hs : '#' ∉ b) (hp : Clean path) (t : Ty) :
    Names cwd (inFolder dir m) b (inFolder dir b) ∧
      lookupIn v ⟨inFolder dir m, d1⟩ [⟨inFolder dir b, d2⟩] t (refText b path) .main = some .error := by
  constructor
  · unfold Names
    rw [if_neg hb.1, (inFolder_tidy hd hm).2.2, (inFolder_tidy hd hb).2.2, (name_tidy hb).2.2.2]
    simp
  · show some (lookup v d1 _ t (refText b path)) = _
    rw [lookup_none v d1 _ t b path hs hp]
    unfold docOf
    rw [if_neg hb.1, (name_tidy hb).2.2.1]
    show GoMap.get [(trimDot (inFolder dir b), d2)] b = none
    rw [(inFolder_tidy hd hb).2.1, GoMap.get_cons, if_neg]
    · rfl
    · intro h
      have := congrArg List.length h
      simp [inFolder] at this
      omega

/-- With a file of the same name where the command runs, the elements of that one are found instead. -/
theorem C131_violated_wrong_file (v : Version) (hv : KindsOk v) (cwd : List Str) (dir m b : Str) (hd : Name dir) (hm : Name m)
    (hb : Name b) (d1 d2 d3 : Doc) (path : List Str) (hs : '#' ∉ b) (hp : Clean path) (hnt : NoTail v path) (t : Ty) (e : Elem) :
    Names cwd (inFolder dir m) b (inFolder dir b) ∧ ¬ Names cwd (inFolder dir m) b b ∧
      (lookupIn v ⟨inFolder dir m, d1⟩ [⟨inFolder dir b, d2⟩, ⟨b, d3⟩] t (refText b path) .main = some (.found e) ↔
        At v d3 path e ∧ Typed e t) := by
  refine ⟨(C131_violated_folder v cwd dir m b hd hm hb d1 d2 path hs hp t).1, ?_, ?_⟩
  · unfold Names
    rw [if_neg hb.1, (inFolder_tidy hd hm).2.2, (name_tidy hb).2.2.2, (name_tidy hb).2.2.2]
    intro h
    have := congrArg List.length h
    simp at this
  · show some (lookup v d1 _ t (refText b path)) = _ ↔ _
    rw [Option.some.injEq, Refs.C46_resolves_partial v hv _ _ t b path hs hp hnt e]
    have : docOf d1 (dependencies [⟨inFolder dir b, d2⟩, ⟨b, d3⟩]) b = some d3 := by
      unfold docOf
      rw [if_neg hb.1, (name_tidy hb).2.2.1]
      show (GoMap.put _ (trimDot b) d3).get b = _
      rw [(name_tidy hb).2.2.1, GoMap.get_put_self]
    rw [this]
    simp

/-- A reference from a dependency to any other file is an error, whatever files are given. -/
theorem C131_violated_between (v : Version) (main : Input) (deps : List Input) (k : Str) (d : Doc)
    (hk : (dependencies deps).get k = some d) (file : Str) (hne : file ≠ []) (hs : '#' ∉ file) (path : List Str) (hp : Clean path)
    (t : Ty) : lookupIn v main deps t (refText file path) (.dep k) = some .error := by
  unfold lookupIn
  simp only [hk, Option.map_some]
  rw [lookup_none v d [] t file path hs hp (by unfold docOf; rw [if_neg hne]; rfl)]

/-- The main document is not found under its own name. -/
theorem C131_violated_self (v : Version) (cwd : List Str) (main : Input) (hm : Name main.path) (hs : '#' ∉ main.path) (path : List Str)
    (hp : Clean path) (t : Ty) :
    Names cwd main.path main.path main.path ∧ lookupIn v main [] t (refText main.path path) .main = some .error := by
  constructor
  · unfold Names
    rw [if_neg hm.1, (local_tidy (name_tidy hm).1).2]
  · show some (lookup v main.doc _ t (refText main.path path)) = _
    rw [lookup_none v main.doc _ t main.path path hs hp (by unfold docOf; rw [if_neg hm.1]; rfl)]

/-- A way round through a folder and back names the same file, and is not found. -/
theorem C131_violated_dots (v : Version) (cwd : List Str) (dir m b : Str) (hd : Name dir) (hm : Name m) (hb : Name b) (d1 d2 : Doc)
    (path : List Str) (hs : '#' ∉ dir ∧ '#' ∉ b) (hp : Clean path) (t : Ty) :
    Names cwd m (dir ++ '/' :: '.' :: '.' :: '/' :: b) b ∧
      lookupIn v ⟨m, d1⟩ [⟨b, d2⟩] t (refText (dir ++ '/' :: '.' :: '.' :: '/' :: b) path) .main = some .error := by
  have hne : dir ++ '/' :: '.' :: '.' :: '/' :: b ≠ [] := by simp
  constructor
  · unfold Names
    rw [if_neg hne, (local_tidy (name_tidy hm).1).2, (name_tidy hb).2.2.2]
    have e : Str.split '/' (dir ++ '/' :: '.' :: '.' :: '/' :: b) = [dir, ['.', '.'], b] := by
      rw [Str.split_append '/' dir _ hd.2.2.2]
      have := Str.split_append '/' ['.', '.'] b (by decide)
      rw [Str.split_single '/' b hb.2.2.2] at this
      rw [← this]; rfl
    have hh : ¬ (dir ++ '/' :: '.' :: '.' :: '/' :: b).head? = some '/' := by
      cases dir with
      | nil => exact absurd rfl hd.1
      | cons c cs => intro h; injection h with h; exact hd.2.2.2 (by simp [h])
    unfold locate
    rw [e, if_neg hh]
    simp only [List.foldl_cons, List.foldl_nil]
    have w1 : ∀ l, walk l dir = l ++ [dir] := fun l => by
      unfold walk; rw [if_neg (by simp [hd.1, hd.2.1]), if_neg hd.2.2.1]
    have w2 : ∀ l, walk l b = l ++ [b] := fun l => by
      unfold walk; rw [if_neg (by simp [hb.1, hb.2.1]), if_neg hb.2.2.1]
    have w3 : ∀ l, walk l ['.', '.'] = l.dropLast := fun l => by
      unfold walk; rw [if_neg (by decide), if_pos rfl]
    rw [w1, w3, w2]
    simp
  · show some (lookup v d1 _ t _) = _
    rw [lookup_none v d1 _ t _ path (by simp [hs.1, hs.2]) hp]
    unfold docOf
    rw [if_neg hne]
    have htrim : trimDot (dir ++ '/' :: '.' :: '.' :: '/' :: b) = dir ++ '/' :: '.' :: '.' :: '/' :: b := by
      unfold trimDot
      split
      · rename_i q heq
        exfalso
        cases dir with
        | nil => exact hd.1 rfl
        | cons x xs =>
          injection heq with e1 e2
          cases xs with
          | nil => exact hd.2.1 (by rw [e1])
          | cons y ys => injection e2 with e2 _; exact hd.2.2.2 (by simp [e2])
      · rfl
    rw [htrim]
    show GoMap.get [(trimDot b, d2)] _ = none
    rw [(name_tidy hb).2.2.1, GoMap.get_cons, if_neg]
    · rfl
    · intro h
      have := congrArg List.length h
      simp at this
      omega

/-! ## Examples -/

/-- A document with one schema. -/
def docWith (id : Nat) : Doc := { schemas := [(['A'], ⟨id, []⟩)], messages := [], channels := [], others := [], roots := [] }

def pathA : List Str := [Refs.kwComponents, Refs.kwSchemas, ['A']]

theorem cleanA : Clean pathA := by unfold Clean; decide

theorem noTailA : NoTail Refs.v3 pathA := by
  intro k n x rest _ h
  injection h with _ h
  injection h with _ h
  injection h with _ h
  cases h

/-- A file of a folder, with and without `./` in front. -/
example : lookupIn Refs.v3 ⟨"m.yaml".toList, docWith 1⟩ [⟨"./lib/b.yaml".toList, docWith 2⟩, ⟨"c.yaml".toList, docWith 3⟩] .schema
    (refText "lib/b.yaml".toList pathA) .main = some (.found (.schema (.mk 2 []))) ∧
  lookupIn Refs.v3 ⟨"m.yaml".toList, docWith 1⟩ [⟨"./lib/b.yaml".toList, docWith 2⟩, ⟨"c.yaml".toList, docWith 3⟩] .schema
    (refText "./c.yaml".toList pathA) .main = some (.found (.schema (.mk 3 []))) := ⟨rfl, rfl⟩

/-- The hypotheses of `C131_main_partial` are met by such files. -/
example : Local "m.yaml".toList ∧ Tidy "./lib/b.yaml".toList ∧ Tidy "lib/b.yaml".toList ∧
    ¬ Names [] "m.yaml".toList "lib/b.yaml".toList "m.yaml".toList ∧
    ([⟨"./lib/b.yaml".toList, docWith 2⟩, ⟨"c.yaml".toList, docWith 3⟩].map (fun f : Input => locate [] f.path)).Nodup ∧
    Names ["home".toList] "m.yaml".toList "lib/b.yaml".toList "./lib/b.yaml".toList :=
  ⟨⟨"m.yaml".toList, by decide, by decide, by decide, by decide, .inl rfl⟩,
    ⟨["lib".toList, "b.yaml".toList], by decide, by decide, .inr rfl⟩,
    ⟨["lib".toList, "b.yaml".toList], by decide, by decide, .inl rfl⟩, by unfold Names; decide, by decide, by unfold Names; decide⟩

/-- The names of the negative theorems. -/
example : Name "spec".toList ∧ Name "b.yaml".toList := by unfold Name; decide

/-- A document in a folder, and the file next to it. -/
example : lookupIn Refs.v3 ⟨"spec/m.yaml".toList, docWith 1⟩ [⟨"spec/b.yaml".toList, docWith 2⟩] .schema
    (refText "b.yaml".toList pathA) .main = some .error := rfl

end Verif.RefFiles
