import Verif.Model.Release
import Verif.Props.Values

/-! # C88: releases get increasing versions -/

namespace Verif.Release

open Verif.Values (readDigits digitOf digitChar readInt showNat showInt fits)

/-- Precedence of versions (semver.org, 11). -/
def Version.lt (v w : Version) : Prop :=
  v.major < w.major ∨ (v.major = w.major ∧ (v.minor < w.minor ∨ (v.minor = w.minor ∧ v.patch < w.patch)))

theorem Version.lt_trans {u v w : Version} (h : u.lt v) (h' : v.lt w) : u.lt w := by
  simp only [Version.lt] at *
  omega

/-- A version of semver.org: no negative number; here also no number that does not fit in `room` steps. -/
def Version.Proper (room : Nat) (v : Version) : Prop :=
  0 ≤ v.major ∧ 0 ≤ v.minor ∧ 0 ≤ v.patch ∧ v.major + room < 2 ^ 63 ∧ v.minor + room < 2 ^ 63 ∧ v.patch + room < 2 ^ 63

theorem showNat_digits (n : Nat) : ∀ c ∈ showNat n, (digitOf c).isSome = true := by
  induction n using showNat.induct with
  | case1 n h =>
    rw [showNat, if_pos h]
    simp [Values.digitChar_isDigit h]
  | case2 n h ih =>
    rw [showNat, if_neg h]
    intro c hc
    rcases List.mem_append.1 hc with hc | hc
    · exact ih c hc
    · have := Values.digitChar_isDigit (Nat.mod_lt n (by omega : 10 > 0))
      simp only [List.mem_singleton] at hc
      rw [hc, this]; rfl

theorem showInt_chars (n : Int) : '.' ∉ showInt n ∧ (showInt n).head? ≠ some '+' := by
  have h := showNat_digits n.natAbs
  have key : ∀ c, (digitOf c).isSome = false → c ∉ showNat n.natAbs := by
    intro c hc hm
    rw [h c hm] at hc
    cases hc
  have hd := key '.' (by decide)
  have hp := key '+' (by decide)
  unfold showInt
  split
  · exact ⟨by simp [hd], by simp⟩
  · refine ⟨hd, fun he => hp ?_⟩
    exact List.mem_of_mem_head? he

theorem signed_eq (s : Str) (h : s.head? ≠ some '+') : signed s = readInt s := by
  cases s with
  | nil => rfl
  | cons c s =>
    have hp : c ≠ '+' := fun e => h (by simp [e])
    simp only [signed, readInt, if_neg hp]

theorem atoi_showInt (n : Int) (h : fits 64 n = true) : atoi (showInt n) = .ok n := by
  rw [atoi, signed_eq _ (showInt_chars n).2, Values.readInt_showInt]
  simp [h]

theorem parse_show (v : Version) (h1 : fits 64 v.major = true) (h2 : fits 64 v.minor = true) (h3 : fits 64 v.patch = true) :
    parseTag (showVersion v) = .ok v := by
  unfold parseTag showVersion
  rw [trimV, Str.split_append _ _ _ (showInt_chars _).1, Str.split_append _ _ _ (showInt_chars _).1,
    Str.split_single _ _ (showInt_chars _).1]
  simp only [atoi_showInt _ h1, atoi_showInt _ h2, atoi_showInt _ h3]

theorem Version.Proper.fits {room : Nat} {v : Version} (h : v.Proper room) :
    Values.fits 64 v.major = true ∧ Values.fits 64 v.minor = true ∧ Values.fits 64 v.patch = true := by
  obtain ⟨h1, h2, h3, h4, h5, h6⟩ := h
  simp only [Values.fits, Bool.and_eq_true, decide_eq_true_eq]
  omega

theorem showVersion_ne (v : Version) : showVersion v ≠ [] := by simp [showVersion]

/-- What the title of a commit announces. -/
inductive Change
  | breaking
  | feature
  | fix
  | nothing
  deriving DecidableEq, Repr

/-- A title announces a change by its first word, or a part of it. -/
inductive Announces : Str → Change → Prop
  | breaking (t : Str) : Announces ("BREAKING CHANGE".toList ++ t) .breaking
  | feature (t : Str) : Announces ("feat".toList ++ t) .feature
  | fix (t : Str) : Announces ("fix".toList ++ t) .fix
  | nothing (t : Str) (h : ∀ p ∈ ["BREAKING CHANGE".toList, "feat".toList, "fix".toList], ¬ p <+: t) : Announces t .nothing

/-- The version due after a change. -/
def due (v : Version) : Change → Option Version
  | .breaking => some ⟨v.major + 1, 0, 0⟩
  | .feature => some ⟨v.major, v.minor + 1, 0⟩
  | .fix => some ⟨v.major, v.minor, v.patch + 1⟩
  | .nothing => none

theorem due_lt {v v' : Version} {c : Change} (h : due v c = some v') : v.lt v' := by
  cases c <;> simp only [due, Option.some.injEq, reduceCtorEq] at h <;> subst h <;> simp [Version.lt] <;> omega

theorem due_proper {v v' : Version} {c : Change} {n : Nat} (hv : v.Proper (n + 1)) (h : due v c = some v') : v'.Proper n := by
  obtain ⟨h1, h2, h3, h4, h5, h6⟩ := hv
  cases c <;> simp only [due, Option.some.injEq, reduceCtorEq] at h <;> subst h <;> simp only [Version.Proper] <;> omega

theorem bump_due {title : Str} {c : Change} (ha : Announces title c) {v : Version} {n : Nat} (hv : v.Proper (n + 1)) :
    bump title v = due v c := by
  obtain ⟨h1, h2, h3, h4, h5, h6⟩ := hv
  have hs : ∀ x : Int, x + ((n + 1 : Nat) : Int) < 2 ^ 63 → succ64 x = x + 1 := by
    intro x hx
    rw [succ64, if_neg (by omega)]
  cases ha with
  | breaking t => simp [bump, due, hs _ h4]
  | feature t => simp [bump, due, hs _ h5]
  | fix t => simp [bump, due, hs _ h6]
  | nothing t h =>
    simp only [List.mem_cons, List.not_mem_nil, or_false, forall_eq_or_imp, forall_eq] at h
    unfold bump
    rw [if_neg (by simpa [List.isPrefixOf_iff_prefix] using h.1), if_neg (by simpa [List.isPrefixOf_iff_prefix] using h.2.1),
      if_neg (by simpa [List.isPrefixOf_iff_prefix] using h.2.2)]
    rfl

theorem exists_announces (t : Str) : ∃ c, Announces t c := by
  by_cases h1 : "BREAKING CHANGE".toList <+: t
  · obtain ⟨u, rfl⟩ := h1; exact ⟨_, .breaking u⟩
  by_cases h2 : "feat".toList <+: t
  · obtain ⟨u, rfl⟩ := h2; exact ⟨_, .feature u⟩
  by_cases h3 : "fix".toList <+: t
  · obtain ⟨u, rfl⟩ := h3; exact ⟨_, .fix u⟩
  exact ⟨_, .nothing t (by
    intro p hp
    simp only [List.mem_cons, List.not_mem_nil, or_false] at hp
    rcases hp with rfl | rfl | rfl <;> assumption)⟩

/-- The effects of publishing a commit for which a version is due, or none. -/
def expected (sha : Str) : Option Version → List Eff
  | some v => [.pushTag (showVersion v), .image sha, .image (showVersion v), .image "latest".toList]
  | none => [.image sha]

/-- **C88, partial (main branch).** After a release `v`, a commit of the main branch that announces a change is published
as the version that is due: one git tag, and the image under the commit, that version and `latest`; a commit that announces
nothing is only published under its hash. -/
theorem C88_publish_partial (v : Version) (n : Nat) (hv : v.Proper (n + 1)) (title sha : Str) (c : Change)
    (ha : Announces title c) :
    publish ⟨title, sha, mainBranch, showVersion v⟩ = (expected sha (due v c), none) := by
  have hp := parse_show v hv.fits.1 hv.fits.2.1 hv.fits.2.2
  have hb := bump_due ha hv
  cases hd : due v c with
  | none =>
    have hn : newSemVer ⟨title, sha, mainBranch, showVersion v⟩ = .ok [] := by
      simp only [newSemVer, hp, hb, hd]
    simp [publish, pushNewSemVer, publishDocker, hn, expected]
  | some v' =>
    have hn : newSemVer ⟨title, sha, mainBranch, showVersion v⟩ = .ok (showVersion v') := by
      simp only [newSemVer, hp, hb, hd]
    cases hsv : showVersion v' with
    | nil => exact absurd hsv (showVersion_ne v')
    | cons x xs =>
      rw [hsv] at hn
      simp [publish, pushNewSemVer, publishDocker, hn, expected, hsv]

/-- The versions due along a history. -/
inductive Due : Version → List Str → List Version → Prop
  | nil (v : Version) : Due v [] []
  | skip (v : Version) (t : Str) (ts : List Str) (vs : List Version) : Announces t .nothing → Due v ts vs → Due v (t :: ts) vs
  | release (v v' : Version) (t : Str) (c : Change) (ts : List Str) (vs : List Version) :
      Announces t c → due v c = some v' → Due v' ts vs → Due v (t :: ts) (v' :: vs)

/-- **C88, partial (histories).** Along any sequence of published commits, the versions released are those due, and each is
greater than all before it. -/
theorem C88_history_partial (sha : Str) (titles : List Str) : ∀ (v : Version), v.Proper titles.length →
    ∃ vs : List Version, history sha (showVersion v) titles = vs.map showVersion ∧ Due v titles vs ∧
      (v :: vs).Pairwise Version.lt := by
  induction titles with
  | nil => intro v _; exact ⟨[], rfl, .nil v, by simp⟩
  | cons t ts ih =>
    intro v hv
    obtain ⟨c, hc⟩ := exists_announces t
    have hv' : v.Proper (ts.length + 1) := hv
    have hp := parse_show v hv'.fits.1 hv'.fits.2.1 hv'.fits.2.2
    cases hd : due v c with
    | none =>
      have hpush : pushNewSemVer ⟨t, sha, mainBranch, showVersion v⟩ = .ok [] := by
        simp [pushNewSemVer, newSemVer, hp, bump_due hc hv', hd]
      obtain ⟨vs, h1, h2, h3⟩ := ih v (by obtain ⟨a1, a2, a3, a4, a5, a6⟩ := hv'; simp only [Version.Proper]; omega)
      have hcn : c = .nothing := by cases c <;> simp [due] at hd ⊢
      subst hcn
      refine ⟨vs, ?_, .skip v t ts vs hc h2, h3⟩
      simp [history, lastTagAfter, hpush, h1]
    | some v' =>
      have hpush : pushNewSemVer ⟨t, sha, mainBranch, showVersion v⟩ = .ok [.pushTag (showVersion v')] := by
        cases hsv : showVersion v' with
        | nil => exact absurd hsv (showVersion_ne v')
        | cons x xs => simp [pushNewSemVer, newSemVer, hp, bump_due hc hv', hd, hsv]
      obtain ⟨vs, h1, h2, h3⟩ := ih v' (due_proper hv' hd)
      refine ⟨v' :: vs, ?_, .release v v' t c ts vs hc hd h2, ?_⟩
      · simp [history, lastTagAfter, hpush, h1]
      · have hlt := due_lt hd
        refine List.Pairwise.cons (fun w hw => ?_) h3
        rcases List.mem_cons.1 hw with rfl | hw
        · exact hlt
        · exact Version.lt_trans hlt ((List.pairwise_cons.1 h3).1 w hw)

theorem readDigits_some {s : Str} : ∀ {a n : Nat}, readDigits a s = some n → ∀ c ∈ s, (digitOf c).isSome = true := by
  induction s with
  | nil => intro a n _ c hc; cases hc
  | cons d s ih =>
    intro a n h c hc
    rw [readDigits] at h
    cases hd : digitOf d with
    | none => rw [hd] at h; cases h
    | some x =>
      rw [hd] at h
      rcases List.mem_cons.1 hc with rfl | hc
      · rw [hd]; rfl
      · exact ih h c hc

/-- The characters of a number. -/
def NumberChar (c : Char) : Prop := (digitOf c).isSome = true ∨ c = '+' ∨ c = '-'

theorem atoi_ok {s : Str} {n : Int} (h : atoi s = .ok n) : s ≠ [] ∧ ∀ c ∈ s, NumberChar c := by
  cases s with
  | nil => cases h
  | cons c s =>
    refine ⟨by simp, ?_⟩
    unfold atoi at h
    cases hs : signed (c :: s) with
    | none => rw [hs] at h; cases h
    | some m =>
      rw [signed] at hs
      split at hs
      · rename_i hc
        split at hs
        · cases hs
        · rw [Option.map_eq_some_iff] at hs
          obtain ⟨k, hk, _⟩ := hs
          intro d hd
          rcases List.mem_cons.1 hd with rfl | hd
          · exact .inr (.inr hc)
          · exact .inl (readDigits_some hk d hd)
      · split at hs
        · rename_i hc
          split at hs
          · cases hs
          · rw [Option.map_eq_some_iff] at hs
            obtain ⟨k, hk, _⟩ := hs
            intro d hd
            rcases List.mem_cons.1 hd with rfl | hd
            · exact .inr (.inl hc)
            · exact .inl (readDigits_some hk d hd)
        · rw [Option.map_eq_some_iff] at hs
          obtain ⟨k, hk, _⟩ := hs
          exact fun d hd => .inl (readDigits_some hk d hd)

theorem trimV_cases (s : Str) : s = trimV s ∨ s = 'v' :: trimV s := by
  unfold trimV
  split
  · exact .inr rfl
  · exact .inl rfl

/-- **C88, partial (malformed tags).** When anything at all is pushed, or no error is reported, the last tag is, after an
optional `v`, three non-empty numbers separated by dots; any other tag makes the publication fail before its first effect. -/
theorem C88_malformed_partial (r : Repo) (h : (publish r).1 ≠ [] ∨ (publish r).2 = none) :
    ∃ a b c : Str, (r.lastTag = a ++ '.' :: (b ++ '.' :: c) ∨ r.lastTag = 'v' :: (a ++ '.' :: (b ++ '.' :: c))) ∧
      ∀ s ∈ [a, b, c], s ≠ [] ∧ ∀ x ∈ s, NumberChar x := by
  cases hp : parseTag r.lastTag with
  | error e =>
    exfalso
    have : publish r = ([], some e) := by simp [publish, pushNewSemVer, newSemVer, hp]
    rw [this] at h
    simp at h
  | ok v =>
    unfold parseTag at hp
    split at hp
    · rename_i a b c hs
      have hj := Str.join_split '.' (trimV r.lastTag)
      rw [hs] at hj
      refine ⟨a, b, c, ?_, ?_⟩
      · have : a ++ '.' :: (b ++ '.' :: c) = trimV r.lastTag := by rw [← hj]; simp [Str.join]
        rw [this]
        exact trimV_cases _
      · cases ha : atoi a with
        | error e => rw [ha] at hp; cases hp
        | ok x =>
          cases hb : atoi b with
          | error e => rw [ha, hb] at hp; cases hp
          | ok y =>
            cases hc : atoi c with
            | error e => rw [ha, hb, hc] at hp; cases hp
            | ok z =>
              intro s hs
              simp only [List.mem_cons, List.not_mem_nil, or_false] at hs
              rcases hs with rfl | rfl | rfl
              · exact atoi_ok ha
              · exact atoi_ok hb
              · exact atoi_ok hc
    · cases hp

example : publish ⟨"fix".toList, "abc".toList, mainBranch, "v1.2.3-rc1".toList⟩ = ([], some .number) := by decide

example : (publish ⟨"fix".toList, "abc".toList, mainBranch, "v1.2.3".toList⟩).2 = none := by decide

/-- **C88 is violated on other branches**: a commit of any other branch that announces a change is tagged in git as a
release all the same (after which the main branch continues from that version), and no image of it is published. -/
theorem C88_violated_branch (v v' : Version) (n : Nat) (hv : v.Proper (n + 1)) (title sha branch : Str) (c : Change)
    (ha : Announces title c) (hd : due v c = some v') (hb : branch ≠ mainBranch) :
    publish ⟨title, sha, branch, showVersion v⟩ = ([.pushTag (showVersion v'), .image sha], none) := by
  have hp := parse_show v hv.fits.1 hv.fits.2.1 hv.fits.2.2
  have hn : newSemVer ⟨title, sha, branch, showVersion v⟩ = .ok (showVersion v') := by
    simp only [newSemVer, hp, bump_due ha hv, hd]
  cases hsv : showVersion v' with
  | nil => exact absurd hsv (showVersion_ne v')
  | cons x xs =>
    rw [hsv] at hn
    simp [publish, pushNewSemVer, publishDocker, hn, hb]

/-- **C88 is violated by publishing again**: publishing the same commit `k` times releases `k` versions of it. -/
theorem C88_violated_again (v : Version) (k : Nat) (hv : v.Proper k) (t sha : Str) (c : Change) (ha : Announces t c)
    (hc : c ≠ .nothing) : (history sha (showVersion v) (List.replicate k t)).length = k := by
  obtain ⟨vs, h1, h2, _⟩ := C88_history_partial sha (List.replicate k t) v (by simpa using hv)
  rw [h1, List.length_map]
  have key : ∀ (k : Nat) (v : Version) (vs : List Version), Due v (List.replicate k t) vs → vs.length = k := by
    intro k
    induction k with
    | zero => intro v vs h; cases h; rfl
    | succ k ih =>
      intro v vs h
      cases h with
      | skip _ _ _ _ hn h =>
        exfalso
        generalize hx : Change.nothing = d at hn
        cases hn with
        | nothing t hn =>
          cases ha with
          | breaking u => exact hn _ (by simp) ⟨u, rfl⟩
          | feature u => exact hn _ (by simp) ⟨u, rfl⟩
          | fix u => exact hn _ (by simp) ⟨u, rfl⟩
          | nothing => exact hc rfl
        | _ => cases hx
      | release _ v' _ c' _ vs _ _ h => rw [List.length_cons, ih v' vs h]
  exact key k v vs h2

/-- **C88 is violated by breaking changes announced as such**: the conventional `feat!:` releases a minor version, and a word
that merely begins with `feat` or `fix` releases one. -/
theorem C88_violated_titles (v : Version) (n : Nat) (hv : v.Proper (n + 1)) (t : Str) :
    bump ("feat!: ".toList ++ t) v = some ⟨v.major, v.minor + 1, 0⟩ ∧
    bump ("fix!: ".toList ++ t) v = some ⟨v.major, v.minor, v.patch + 1⟩ ∧
    bump ("fixture ".toList ++ t) v = some ⟨v.major, v.minor, v.patch + 1⟩ := by
  refine ⟨?_, ?_, ?_⟩
  · exact bump_due (c := .feature) (.feature ("!: ".toList ++ t)) hv
  · exact bump_due (c := .fix) (.fix ("!: ".toList ++ t)) hv
  · exact bump_due (c := .fix) (.fix ("ture ".toList ++ t)) hv

/-- Why the numbers must fit: the largest is followed by the smallest. -/
theorem C88_violated_overflow : bump "fix".toList ⟨1, 0, 2 ^ 63 - 1⟩ = some ⟨1, 0, - 2 ^ 63⟩ := by decide

/-- Non-vacuity: `v0.46.3`, then a fix, a chore, a feature and a breaking change. -/
example : Version.Proper 4 ⟨0, 46, 3⟩ := by simp [Version.Proper]

example : Due ⟨0, 46, 3⟩ ["fix: a".toList, "chore: b".toList, "feat: c".toList, "BREAKING CHANGE: d".toList]
    [⟨0, 46, 4⟩, ⟨0, 47, 0⟩, ⟨1, 0, 0⟩] :=
  .release _ _ _ .fix _ _ (.fix ": a".toList) rfl
    (.skip _ _ _ _ (.nothing _ (by decide))
      (.release _ _ _ .feature _ _ (.feature ": c".toList) rfl
        (.release _ _ _ .breaking _ _ (.breaking ": d".toList) rfl (.nil _))))

end Verif.Release
