import Verif.Model.Parse

/-!
# C55: which documents are accepted, and which implementation processes them
-/

namespace Verif.Parse

/-- The versions the documentation names: 2.0.0 to 2.6.0, and 3.0.0. -/
inductive Supports : Impl → Str → Prop
  | v2 (m : Nat) (h : m ≤ 6) : Supports .v2 ('2' :: '.' :: (Nat.toDigits 10 m ++ ".0".toList))
  | v3 : Supports .v3 "3.0.0".toList

/-- Files that are read as documents. -/
def Readable (path : Str) : Prop :=
  ext path = ".yaml".toList ∨ ext path = ".yml".toList ∨ ext path = ".json".toList

/-- The document declares this version. -/
def Declares (j : Json) (v : Str) : Prop := ∃ ms, j = .obj ms ∧ member asyncapiKey ms = some (.str v)

theorem supported_go (v : Str) : ∀ l, isVersionSupported.go v l = true ↔ v ∈ l := by
  intro l
  induction l with
  | nil => simp [isVersionSupported.go]
  | cons a l ih =>
    rw [isVersionSupported.go]
    by_cases h : a = v
    · simp [h]
    · rw [if_neg h, ih, List.mem_cons]
      exact ⟨Or.inr, fun h' => h'.resolve_left (fun e => h e.symm)⟩

theorem supported_iff (v : Str) : isVersionSupported v = true ↔ ∃ i, Supports i v := by
  rw [isVersionSupported, supported_go]
  constructor
  · intro h
    simp only [supportedVersions, List.mem_cons, List.not_mem_nil, or_false] at h
    rcases h with h | h | h | h | h | h | h | h
    · exact ⟨.v2, h ▸ Supports.v2 0 (by decide)⟩
    · exact ⟨.v2, h ▸ Supports.v2 1 (by decide)⟩
    · exact ⟨.v2, h ▸ Supports.v2 2 (by decide)⟩
    · exact ⟨.v2, h ▸ Supports.v2 3 (by decide)⟩
    · exact ⟨.v2, h ▸ Supports.v2 4 (by decide)⟩
    · exact ⟨.v2, h ▸ Supports.v2 5 (by decide)⟩
    · exact ⟨.v2, h ▸ Supports.v2 6 (by decide)⟩
    · exact ⟨.v3, h ▸ Supports.v3⟩
  · rintro ⟨i, h⟩
    cases h with
    | v2 m h =>
      have h' : m = 0 ∨ m = 1 ∨ m = 2 ∨ m = 3 ∨ m = 4 ∨ m = 5 ∨ m = 6 := by omega
      rcases h' with rfl | rfl | rfl | rfl | rfl | rfl | rfl <;> decide
    | v3 => decide

/-- A version belongs to one implementation. -/
theorem supports_unique {i i' : Impl} {v : Str} (h : Supports i v) (h' : Supports i' v) : i = i' := by
  cases h with
  | v2 m hm =>
    generalize hv : ('2' :: '.' :: (Nat.toDigits 10 m ++ ".0".toList)) = w at h'
    cases h' with
    | v2 => rfl
    | v3 => exact absurd (List.cons.inj hv).1 (by decide)
  | v3 =>
    generalize hv : "3.0.0".toList = w at h'
    cases h' with
    | v2 => exact absurd (List.cons.inj hv).1 (by decide)
    | v3 => rfl

theorem major_of_supports {i : Impl} {v : Str} (h : Supports i v) :
    ∃ c r, v = c :: r ∧ atoi1 c = some i.major := by
  cases h with
  | v2 m hm => exact ⟨_, _, rfl, by decide⟩
  | v3 => exact ⟨_, _, rfl, by decide⟩

theorem version_ok_iff (j : Json) (v : Str) :
    versionFromJSON j = .ok v ↔ Declares j v ∧ ∃ i, Supports i v := by
  cases j with
  | obj ms =>
    simp only [versionFromJSON, Declares, Json.obj.injEq, exists_eq_left']
    cases hm : member asyncapiKey ms with
    | none => simp
    | some x =>
      cases x with
      | str s =>
        by_cases hs : isVersionSupported s = true
        · simp only [hs, if_true, Except.ok.injEq, Option.some.injEq, Json.str.injEq]
          constructor
          · rintro rfl; exact ⟨rfl, (supported_iff _).1 hs⟩
          · exact fun h => h.1
        · simp only [hs, Option.some.injEq, Json.str.injEq]
          constructor
          · intro h; simp at h
          · rintro ⟨rfl, h⟩; exact absurd ((supported_iff _).2 h) hs
      | _ => simp
  | _ => simp [versionFromJSON, Declares]

theorem majorVersion_ok_iff (j : Json) (n : Nat) :
    majorVersionFromJSON j = .ok n ↔ ∃ v i, Declares j v ∧ Supports i v ∧ i.major = n := by
  constructor
  · intro h
    cases hv : versionFromJSON j with
    | error e => simp [majorVersionFromJSON, hv, bind, Except.bind] at h
    | ok v =>
      obtain ⟨hd, i, hi⟩ := (version_ok_iff j v).1 hv
      obtain ⟨c, r, rfl, hc⟩ := major_of_supports hi
      simp [majorVersionFromJSON, hv, bind, Except.bind, hc] at h
      exact ⟨_, i, hd, hi, h⟩
  · rintro ⟨v, i, hd, hi, rfl⟩
    have hv := (version_ok_iff j v).2 ⟨hd, i, hi⟩
    obtain ⟨c, r, rfl, hc⟩ := major_of_supports hi
    simp [majorVersionFromJSON, hv, bind, Except.bind, hc]

theorem fromJSON_major (decodes : Impl → Json → Bool) (i : Impl) (j : Json) (s : Option Spec) :
    fromJSON decodes i.major j = .ok s ↔
      (j = .null ∧ s = none) ∨ (j ≠ .null ∧ decodes i j = true ∧ s = some ⟨i, j⟩) := by
  by_cases hk : decodes i j = true
  · cases i <;> cases j <;> simp [fromJSON, Impl.major, bind, Except.bind, pure, Except.pure, hk] <;>
      exact ⟨Eq.symm, Eq.symm⟩
  · cases i <;> cases j <;> simp [fromJSON, Impl.major, bind, Except.bind, pure, Except.pure, hk] <;>
      exact ⟨Eq.symm, Eq.symm⟩

theorem fromJSON_zero (decodes : Impl → Json → Bool) (j : Json) (s : Option Spec) :
    fromJSON decodes 0 j = .ok s ↔
      ∃ v i, Declares j v ∧ Supports i v ∧ decodes i j = true ∧ s = some ⟨i, j⟩ := by
  constructor
  · intro h
    cases hm : majorVersionFromJSON j with
    | error e => simp [fromJSON, hm, bind, Except.bind] at h
    | ok n =>
      obtain ⟨v, i, hd, hi, rfl⟩ := (majorVersion_ok_iff j n).1 hm
      have h' : fromJSON decodes i.major j = .ok s := by
        rw [← h]; cases i <;> simp [fromJSON, hm, Impl.major, bind, Except.bind, pure, Except.pure]
      have hn : j ≠ .null := by
        obtain ⟨ms, rfl, _⟩ := hd; simp
      rcases (fromJSON_major decodes i j s).1 h' with ⟨h, _⟩ | ⟨_, h1, h2⟩
      · exact absurd h hn
      · exact ⟨v, i, hd, hi, h1, h2⟩
  · rintro ⟨v, i, hd, hi, hk, rfl⟩
    have hm := (majorVersion_ok_iff j i.major).2 ⟨v, i, hd, hi, rfl⟩
    have hn : j ≠ .null := by
      obtain ⟨ms, rfl, _⟩ := hd; simp
    have h' := (fromJSON_major decodes i j (some ⟨i, j⟩)).2 (Or.inr ⟨hn, hk, rfl⟩)
    rw [← h']; cases i <;> simp [fromJSON, hm, Impl.major, bind, Except.bind, pure, Except.pure]

theorem fromFile_ok_iff (decodes : Impl → Json → Bool) (fs : Str → File) (path : Str) (n : Nat)
    (s : Option Spec) :
    fromFile decodes fs path n = .ok s ↔
      Readable path ∧ ∃ j, fs path = .doc j ∧ fromJSON decodes n j = .ok s := by
  have hR : Readable path ↔ (ext path = ['.', 'y', 'a', 'm', 'l'] ∨ ext path = ['.', 'y', 'm', 'l'] ∨
      ext path = ['.', 'j', 's', 'o', 'n']) := Iff.rfl
  rw [hR, fromFile]
  cases hf : fs path with
  | unreadable => simp
  | garbage => by_cases he : (ext path = ['.', 'y', 'a', 'm', 'l'] ∨ ext path = ['.', 'y', 'm', 'l'] ∨
      ext path = ['.', 'j', 's', 'o', 'n']) <;> simp [he]
  | doc j => by_cases he : (ext path = ['.', 'y', 'a', 'm', 'l'] ∨ ext path = ['.', 'y', 'm', 'l'] ∨
      ext path = ['.', 'j', 's', 'o', 'n']) <;> simp [he]

/-- A document given alone is accepted exactly when it is a readable YAML or JSON file whose `asyncapi` field
is the string of a supported version and which decodes into the structures of that version; it is then held by
the implementation of that version. -/
theorem C55_accepted (decodes : Impl → Json → Bool) (fs : Str → File) (path : Str) (s : Spec) :
    load decodes fs path [] = .ok (some (s, [])) ↔
      Readable path ∧ ∃ j v, fs path = .doc j ∧ Declares j v ∧ Supports s.impl v ∧ s.doc = j ∧
        decodes s.impl j = true := by
  have hl : load decodes fs path [] = .ok (some (s, [])) ↔ fromFile decodes fs path 0 = .ok (some s) := by
    rw [load]
    cases h : fromFile decodes fs path 0 with
    | error e => simp
    | ok r => cases r <;> simp [addAll]
  rw [hl, fromFile_ok_iff]
  apply and_congr_right
  intro _
  constructor
  · rintro ⟨j, hf, h⟩
    obtain ⟨v, i, hd, hi, hk, hs⟩ := (fromJSON_zero decodes j _).1 h
    cases hs
    exact ⟨j, v, hf, hd, hi, rfl, hk⟩
  · rintro ⟨j, v, hf, hd, hi, hj, hk⟩
    refine ⟨j, hf, (fromJSON_zero decodes j _).2 ⟨v, s.impl, hd, hi, hk, ?_⟩⟩
    cases s; cases hj; rfl

/-- A document that declares no supported version is refused, whatever else is given. -/
theorem C55_refused (decodes : Impl → Json → Bool) (fs : Str → File) (path : Str) (deps : List Str)
    (h : ∀ j, fs path = .doc j → ∀ v i, Declares j v → ¬ Supports i v) :
    ∃ e, load decodes fs path deps = .error e := by
  rw [load]
  cases hf : fromFile decodes fs path 0 with
  | error e => exact ⟨e, rfl⟩
  | ok r =>
    obtain ⟨_, j, hj, h'⟩ := (fromFile_ok_iff decodes fs path 0 r).1 hf
    obtain ⟨v, i, hd, hi, _⟩ := (fromJSON_zero decodes j r).1 h'
    exact absurd hi (h j hj v i hd)

/-- A document Go reads as a map. -/
def mapLike : Json → Bool
  | .null => true
  | .obj _ => true
  | _ => false

/-- The version is reported as the reason exactly for files that can be read as an object (or null) that declares no
supported version. -/
theorem C55_reason (decodes : Impl → Json → Bool) (fs : Str → File) (path : Str) (deps : List Str) (j : Json) (hj : fs path = .doc j)
    (he : ext path = ".yaml".toList ∨ ext path = ".yml".toList ∨ ext path = ".json".toList)
    (h : ∀ v i, Declares j v → ¬ Supports i v) :
    load decodes fs path deps = .error (if mapLike j then .version else .syntax) := by
  have he' : ext path = ['.', 'y', 'a', 'm', 'l'] ∨ ext path = ['.', 'y', 'm', 'l'] ∨ ext path = ['.', 'j', 's', 'o', 'n'] := he
  have hv : versionFromJSON j = .error (if mapLike j then .version else .syntax) := by
    cases j with
    | null => rfl
    | obj ms =>
      show _ = Except.error Err.version
      unfold versionFromJSON
      simp only
      cases hm : member asyncapiKey ms with
      | none => rfl
      | some x =>
        cases x with
        | str s =>
          have hs : isVersionSupported s ≠ true := by
            intro hs
            obtain ⟨i, hi⟩ := (supported_iff s).1 hs
            exact h s i ⟨ms, rfl, hm⟩ hi
          simp only
          rw [if_neg hs]
        | _ => rfl
    | _ => rfl
  have hm : majorVersionFromJSON j = .error (if mapLike j then .version else .syntax) := by
    unfold majorVersionFromJSON; rw [hv]; rfl
  have hf : fromFile decodes fs path 0 = .error (if mapLike j then .version else .syntax) := by
    unfold fromFile
    rw [hj]
    simp only
    rw [if_pos he']
    unfold fromJSON
    simp only [if_true]
    rw [hm]; rfl
  unfold load
  rw [hf]

/-- The accepted main document is never nil. -/
theorem C55_main_not_nil (decodes : Impl → Json → Bool) (fs : Str → File) (path : Str) (deps : List Str) :
    load decodes fs path deps ≠ .ok none := by
  rw [load]
  cases hf : fromFile decodes fs path 0 with
  | error e => simp
  | ok r =>
    obtain ⟨_, j, hj, h'⟩ := (fromFile_ok_iff decodes fs path 0 r).1 hf
    obtain ⟨v, i, hd, hi, _, hs⟩ := (fromJSON_zero decodes j r).1 h'
    subst hs
    simp only
    split <;> simp

/-- With any dependencies, code is generated by the generator of the version the main document declares. -/
theorem C55_generator (decodes : Impl → Json → Bool) (fs : Str → File) (path : Str) (deps : List Str)
    (s : Spec) (ds : List (Str × Spec)) (h : load decodes fs path deps = .ok (some (s, ds))) :
    ∃ j v i, fs path = .doc j ∧ Declares j v ∧ Supports i v ∧ generatorOf s = some i := by
  rw [load] at h
  cases hf : fromFile decodes fs path 0 with
  | error e => simp [hf] at h
  | ok r =>
    obtain ⟨_, j, hj, h'⟩ := (fromFile_ok_iff decodes fs path 0 r).1 hf
    obtain ⟨v, i, hd, hi, _, hs⟩ := (fromJSON_zero decodes j r).1 h'
    subst hs
    rw [hf] at h
    simp only at h
    cases ha : addAll decodes fs ⟨i, j⟩ deps with
    | error e => simp [ha] at h
    | ok ds' =>
      simp [ha] at h
      refine ⟨j, v, i, hj, hd, hi, ?_⟩
      rw [← h.1]
      cases i <;> rfl

/-- What is kept of a dependency. -/
def Kept (decodes : Impl → Json → Bool) (fs : Str → File) (impl : Impl) (p : Str) (e : Str × Spec) : Prop :=
  e.1 = p ∧ Readable p ∧ ∃ j, fs p = .doc j ∧ j ≠ .null ∧ decodes impl j = true ∧ e.2 = ⟨impl, j⟩

/-- Two lists related element by element. -/
inductive Each {α β : Type} (R : α → β → Prop) : List α → List β → Prop
  | nil : Each R [] []
  | cons {a b as bs} : R a b → Each R as bs → Each R (a :: as) (b :: bs)

/-- What the dependencies have to satisfy: the version they declare plays no role. They only have to decode
into the structures of the main document's version. They are all kept, under their paths. -/
theorem C55_dependencies (decodes : Impl → Json → Bool) (fs : Str → File) (s : Spec) (deps : List Str)
    (ds : List (Str × Spec)) :
    addAll decodes fs s deps = .ok ds ↔ Each (Kept decodes fs s.impl) deps ds := by
  induction deps generalizing ds with
  | nil =>
    simp only [addAll, Except.ok.injEq]
    constructor
    · rintro rfl; exact .nil
    · intro h; cases h; rfl
  | cons p ps ih =>
    rw [addAll]
    cases hf : fromFile decodes fs p s.impl.major with
    | error e =>
      constructor
      · intro h; cases h
      · rintro (_ | ⟨⟨_, hr, j, hj, hn, hk, _⟩, _⟩)
        have := (fromFile_ok_iff decodes fs p s.impl.major (some ⟨s.impl, j⟩)).2
          ⟨hr, j, hj, (fromJSON_major decodes s.impl j _).2 (Or.inr ⟨hn, hk, rfl⟩)⟩
        rw [hf] at this; cases this
    | ok r =>
      obtain ⟨hr, j, hj, h'⟩ := (fromFile_ok_iff decodes fs p s.impl.major r).1 hf
      rcases (fromJSON_major decodes s.impl j r).1 h' with ⟨hn, rfl⟩ | ⟨hn, hk, rfl⟩
      · simp only [addDependency]
        constructor
        · intro h; cases h
        · rintro (_ | ⟨⟨_, _, j', hj', hn', _⟩, _⟩)
          rw [hj] at hj'; cases hj'; exact absurd hn hn'
      · simp only [addDependency, if_true]
        constructor
        · intro h
          cases ha : addAll decodes fs s ps with
          | error e => rw [ha] at h; cases h
          | ok ds' =>
            rw [ha] at h
            cases h
            exact .cons ⟨rfl, hr, j, hj, hn, hk, rfl⟩ ((ih ds').1 ha)
        · intro h
          cases h with
          | @cons _ e _ ds' h h3 =>
          obtain ⟨h1, _, j', hj', _, _, h2⟩ := h
          rw [(ih ds').2 h3]
          rw [hj] at hj'
          cases hj'
          cases e
          cases h1
          cases h2
          rfl

/-- A document declaring a version, and nothing else. -/
def docOf (v : Str) : Json := .obj [(asyncapiKey, .str v)]

/-- Two files: a main document of version 3.0.0 and a dependency of the given content. -/
def twoFiles (dep : Json) : Str → File := fun p =>
  if p = "a.yaml".toList then .doc (docOf "3.0.0".toList)
  else if p = "b.yaml".toList then .doc dep
  else .unreadable

/-- A dependency of another major version is not refused: it is taken as a document of version 3. So is a
dependency whose version does not exist. -/
theorem C55_violated_dependency (v : Str) :
    load (fun _ _ => true) (twoFiles (docOf v)) "a.yaml".toList ["b.yaml".toList] =
      .ok (some (⟨.v3, docOf "3.0.0".toList⟩, [("b.yaml".toList, ⟨.v3, docOf v⟩)])) := by
  rfl

example : Supports .v2 "2.6.0".toList := Supports.v2 6 (by decide)

example : load (fun _ _ => true) (twoFiles .null) "a.yaml".toList [] =
    .ok (some (⟨.v3, docOf "3.0.0".toList⟩, [])) := rfl

example : load (fun _ _ => true) (fun _ => .doc (docOf "2.7.0".toList)) "a.yaml".toList [] = .error .version := rfl

example : load (fun _ _ => true) (fun _ => .doc (docOf "2.6.0".toList)) "d.x/a".toList [] = .error .format := rfl

end Verif.Parse
