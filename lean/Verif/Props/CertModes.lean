import Verif.Spec.CertModes

/-! # C133: the private keys of the tool are for their owner only -/

namespace Verif.CertModes

theorem oneMissing_of {t : Tree} {p : Str} {ps : List Str} (hp : p ∈ ps) (h : t.files p = none) : oneMissing t ps = true := by
  induction ps with
  | nil => cases hp
  | cons q ps ih =>
    unfold oneMissing
    cases e : t.files q with
    | none => rfl
    | some c =>
      rcases List.mem_cons.mp hp with rfl | hp
      · rw [h] at e; cases e
      · exact ih hp

theorem mkdirAll_files (u m : Bits) (ds : List Str) (t : Tree) : (mkdirAll u m ds t).files = t.files := by
  induction ds generalizing t with
  | nil => rfl
  | cons d ds ih =>
    rw [mkdirAll, ih]
    cases t.dirs d <;> rfl

/-- A directory that is there stays, one of the list that is missing is created. -/
theorem mkdirAll_dirs (u m : Bits) (ds : List Str) (t : Tree) (d : Str) :
    (mkdirAll u m ds t).dirs d = match t.dirs d with
      | some b => some b
      | none => if d ∈ ds then some (created u m) else none := by
  induction ds generalizing t with
  | nil => cases h : t.dirs d <;> simp [mkdirAll, h]
  | cons e ds ih =>
    rw [mkdirAll, ih]
    cases he : t.dirs e with
    | some b =>
      by_cases hde : d = e
      · subst hde; simp [he]
      · simp [hde]
    | none =>
      by_cases hde : d = e
      · subst hde; simp [he]
      · simp [hde]

theorem writeAll_dirs (u : Bits) (g : Nat) (ps : List Str) (t : Tree) : (writeAll u g ps t).dirs = t.dirs := by
  induction ps generalizing t with
  | nil => rfl
  | cons p ps ih => rw [writeAll, ih]; rfl

/-- After writing, each file has the generation, and its permissions are its own or those of a new file. -/
theorem writeAll_files (u : Bits) (g : Nat) (ps : List Str) (t : Tree) (p : Str) :
    (writeAll u g ps t).files p = if p ∈ ps then some (g, permsAfter u modePerm (t.files p)) else t.files p := by
  induction ps generalizing t with
  | nil => simp [writeAll]
  | cons q ps ih =>
    rw [writeAll, ih]
    by_cases hpq : p = q
    · subst hpq
      cases h : t.files p with
      | none => simp [writeFile, permsAfter, h]
      | some c => obtain ⟨n, b⟩ := c; simp [writeFile, permsAfter, h]
    · simp [writeFile, hpq]

/-- **C133 (partial: nothing is there yet).** After the first run a class of users can read every file, the private
keys among them, exactly when the umask takes neither the right to read nor the right to pass directories from it. -/
theorem C133_first_run_partial (dirs paths : List Str) (umask : Bits) (gen : Nat) (t : Tree) (h : Empty dirs paths t)
    (hd : dirs ≠ []) (w : Who) (p : Str) (hp : p ∈ paths) :
    Readable dirs (run dirs paths umask gen t) w p ↔ umask w .read = false ∧ umask w .exec = false := by
  have hm := oneMissing_of hp (h.2 p hp)
  simp only [run, hm, if_true, Readable]
  rw [writeAll_dirs, writeAll_files, mkdirAll_files, if_pos hp, h.2 p hp]
  constructor
  · rintro ⟨ha, g, b, e, hb⟩
    cases dirs with
    | nil => exact absurd rfl hd
    | cons d ds =>
      obtain ⟨b', e', hb'⟩ := ha d (by simp)
      rw [mkdirAll_dirs, h.1 d (by simp)] at e'
      simp only [List.mem_cons, true_or, if_true, Option.some.injEq] at e'
      simp only [Option.some.injEq, Prod.mk.injEq] at e
      obtain ⟨_, rfl⟩ := e
      subst e'
      simp [permsAfter, created, modePerm] at hb hb'
      exact ⟨hb, hb'⟩
  · rintro ⟨h1, h2⟩
    refine ⟨fun d hdm => ⟨created umask modePerm, ?_, by simp [created, modePerm, h2]⟩, gen, _, rfl, by simp [permsAfter, created, modePerm, h1]⟩
    rw [mkdirAll_dirs, h.1 d hdm]
    simp [hdm]

theorem run_unreadable (dirs paths : List Str) (umask : Bits) (gen : Nat) (t : Tree) (w : Who) (p : Str)
    (h : ∀ g b, t.files p = some (g, b) → b w .read = false) (hu : umask w .read = true) (g : Nat) (b : Bits)
    (e : (run dirs paths umask gen t).files p = some (g, b)) : b w .read = false := by
  unfold run at e
  cases hm : oneMissing t paths with
  | false => rw [hm] at e; exact h g b e
  | true =>
    rw [hm, if_pos rfl, writeAll_files, mkdirAll_files] at e
    by_cases hp : p ∈ paths
    · rw [if_pos hp] at e
      simp only [Option.some.injEq, Prod.mk.injEq] at e
      cases hf : t.files p with
      | none => rw [hf] at e; rw [← e.2]; simp [permsAfter, created, hu]
      | some c => obtain ⟨n, b'⟩ := c; rw [hf] at e; rw [← e.2]; exact h n b' hf
    · rw [if_neg hp] at e; exact h g b e

/-- **C133 (partial: every run has a umask that takes the right to read).** Then the files are never readable, through
every history of runs and deletions, whatever the directories are and whatever is in the files that are there. -/
theorem C133_masked_partial (dirs paths : List Str) (t : Tree) (w : Who) (evs : List Ev) (hu : ∀ ev ∈ evs, Masks w ev)
    (p : Str) (h : ∀ g b, t.files p = some (g, b) → b w .read = false) :
    ¬ Readable dirs (exec dirs paths t evs) w p := by
  suffices hs : ∀ g b, (exec dirs paths t evs).files p = some (g, b) → b w .read = false by
    rintro ⟨_, g, b, e, hb⟩
    rw [hs g b e] at hb
    cases hb
  induction evs generalizing t with
  | nil => exact h
  | cons ev evs ih =>
    refine ih _ (fun ev' h' => hu ev' (by simp [h'])) ?_
    have hev := hu ev (by simp)
    cases ev with
    | run umask gen => exact fun g b e => run_unreadable dirs paths umask gen t w p h hev g b e
    | delete q =>
      intro g b e
      simp only [step] at e
      by_cases hq : p = q
      · simp [hq] at e
      · rw [if_neg hq] at e; exact h g b e

/-- The usual umask 022. -/
def umask022 : Bits := fun w r => match w, r with
  | .group, .write => true
  | .other, .write => true
  | _, _ => false

/-- The umask 077. -/
def umask077 : Bits := fun w _ => match w with
  | .owner => false
  | _ => true

def nothing : Tree := ⟨fun _ => none, fun _ => none⟩

/-- **C133 is violated** (1): with the usual umask, everybody can read the private keys of NATS and of Kafka. -/
theorem C133_violated_usual (w : Who) (gen : Nat) :
    Readable natsDirs (run natsDirs Certs.natsPaths umask022 gen nothing) w "tmp/certs/nats/server-key.pem".toList ∧
    Readable kafkaDirs (run kafkaDirs Certs.kafkaPaths umask022 gen nothing) w "tmp/certs/kafka/kafka.keystore.key".toList := by
  constructor
  · exact (C133_first_run_partial _ _ _ _ _ ⟨fun _ _ => rfl, fun _ _ => rfl⟩ (by simp [natsDirs]) _ _ (by simp [Certs.natsPaths])).mpr
      (by cases w <;> exact ⟨rfl, rfl⟩)
  · exact (C133_first_run_partial _ _ _ _ _ ⟨fun _ _ => rfl, fun _ _ => rfl⟩ (by simp [kafkaDirs]) _ _ (by simp [Certs.kafkaPaths])).mpr
      (by cases w <;> exact ⟨rfl, rfl⟩)

/-- **C133 is violated** (2): a key that can be read once can be read after every later run, also after the runs that
replace it by a new one, whatever their umask is. -/
theorem C133_violated_kept (dirs paths : List Str) (umask : Bits) (gen : Nat) (t : Tree) (w : Who) (p q : Str)
    (h : Readable dirs t w p) (hp : p ∈ paths) (hq : q ∈ paths) (hm : t.files q = none) :
    Readable dirs (run dirs paths umask gen t) w p ∧ ∃ b, (run dirs paths umask gen t).files p = some (gen, b) := by
  have hm := oneMissing_of hq hm
  obtain ⟨hd, g, b, e, hb⟩ := h
  simp only [run, hm, if_true, Readable]
  rw [writeAll_dirs, writeAll_files, mkdirAll_files, if_pos hp, e]
  refine ⟨⟨fun d hdm => ?_, gen, b, rfl, hb⟩, b, rfl⟩
  obtain ⟨b', e', hb'⟩ := hd d hdm
  exact ⟨b', by rw [mkdirAll_dirs, e'], hb'⟩

/-- Non-vacuity of `C133_violated_kept`: the certificate is deleted after a run with the usual umask. -/
example (gen : Nat) : let t := exec natsDirs Certs.natsPaths nothing [.run umask022 gen, .delete "tmp/certs/nats/server-cert.pem".toList]
    t.files "tmp/certs/nats/server-cert.pem".toList = none ∧ (t.files "tmp/certs/nats/server-key.pem".toList).isSome = true ∧
    Readable natsDirs t .other "tmp/certs/nats/server-key.pem".toList := by
  refine ⟨by simp [exec, step], ?_, ?_⟩
  · have := (C133_violated_usual .other gen).1
    obtain ⟨_, g, b, e, _⟩ := this
    have hne : ¬ "tmp/certs/nats/server-key.pem".toList = "tmp/certs/nats/server-cert.pem".toList := by decide
    simp only [exec, List.foldl, step, if_neg hne]
    rw [e]; rfl
  · have := (C133_violated_usual .other gen).1
    have hne : ¬ "tmp/certs/nats/server-key.pem".toList = "tmp/certs/nats/server-cert.pem".toList := by decide
    obtain ⟨a, g, b, e, hb⟩ := this
    exact ⟨a, g, b, by simp only [exec, List.foldl, step, if_neg hne]; exact e, hb⟩

/-- Non-vacuity of `C133_masked_partial`: the umask 077. -/
example (g1 g2 : Nat) : ∀ ev ∈ [Ev.run umask077 g1, .delete "tmp/certs/nats/server-cert.pem".toList, .run umask077 g2], Masks .other ev := by
  intro ev h
  simp only [List.mem_cons, List.not_mem_nil, or_false] at h
  rcases h with rfl | rfl | rfl
  · rfl
  · trivial
  · rfl

/-- Non-vacuity of `C133_first_run_partial`. -/
example : Empty natsDirs Certs.natsPaths nothing ∧ natsDirs ≠ [] := ⟨⟨fun _ _ => rfl, fun _ _ => rfl⟩, by simp [natsDirs]⟩

end Verif.CertModes
