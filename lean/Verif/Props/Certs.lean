import Verif.Spec.Certs

/-! # C114: the certificates of the tool belong together -/

namespace Verif.Certs

theorem oneMissing_false (d : Disk) (ps : List Str) : oneMissing d ps = false ↔ ∀ p ∈ ps, d p ≠ none := by
  induction ps with
  | nil => simp [oneMissing]
  | cons p ps ih =>
    unfold oneMissing
    cases h : d p with
    | none => simp [h]
    | some c => simp [h, ih]

theorem apply_other (d : Disk) (ws : List (Str × Content)) (q : Str) (h : ∀ w ∈ ws, w.1 ≠ q) : apply d ws q = d q := by
  induction ws generalizing d with
  | nil => rfl
  | cons w ws ih =>
    obtain ⟨p, c⟩ := w
    have hp : q ≠ p := fun e => h (p, c) (by simp) e.symm
    rw [apply, ih _ (fun w hw => h w (by simp [hw]))]
    simp [Disk.set, hp]

theorem writes_paths (gen : Nat) (ps : List Str) (w : Str × Content) (h : w ∈ writes gen ps) : w.1 ∈ ps := by
  induction ps with
  | nil => simp [writes] at h
  | cons p ps ih =>
    simp only [writes, List.mem_cons] at h
    rcases h with rfl | rfl | h
    · simp
    · simp
    · simp [ih h]

theorem apply_writes (gen : Nat) (ps : List Str) (d : Disk) (p : Str) (h : p ∈ ps) :
    apply d (writes gen ps) p = some ⟨gen, true⟩ := by
  induction ps generalizing d with
  | nil => cases h
  | cons q ps ih =>
    simp only [writes, apply]
    by_cases hm : p ∈ ps
    · exact ih _ hm
    · have : p = q := by rcases List.mem_cons.mp h with h | h; exact h; exact absurd h hm
      subst this
      rw [apply_other _ _ _ (fun w hw e => hm (by rw [← e]; exact writes_paths gen ps w hw))]
      simp [Disk.set]

/-- A complete run that finds a file missing makes all files usable, whatever the others are. -/
theorem C114_repairs_missing_files (paths : List Str) (gen : Nat) (d : Disk) (h : ∃ p ∈ paths, d p = none) :
    Usable paths (run paths gen none d) := by
  have : oneMissing d paths = true := by
    cases hm : oneMissing d paths with
    | true => rfl
    | false =>
      obtain ⟨p, hp, hn⟩ := h
      exact absurd hn ((oneMissing_false d paths).mp hm p hp)
  refine ⟨gen, fun p hp => ?_⟩
  simp only [run, this, if_true]
  exact apply_writes gen paths d p hp

/-- A run changes nothing when all files are there: certificates in use are kept. -/
theorem C114_keeps_existing (paths : List Str) (gen : Nat) (k : Option Nat) (d : Disk) (h : ∀ p ∈ paths, d p ≠ none) :
    run paths gen k d = d := by
  have := (oneMissing_false d paths).mpr h
  simp [run, this]

theorem sound_run (paths : List Str) (gen : Nat) (d : Disk) (h : Sound paths d) : Usable paths (run paths gen none d) := by
  by_cases hm : ∃ p ∈ paths, d p = none
  · exact C114_repairs_missing_files paths gen d hm
  · have hm' : ∀ p ∈ paths, d p ≠ none := fun p hp he => hm ⟨p, hp, he⟩
    rw [C114_keeps_existing paths gen none d hm']
    obtain ⟨g, hg⟩ := h
    exact ⟨g, fun p hp => (hg p hp).resolve_left (hm' p hp)⟩

/-- The invariant of harmless histories: the last file is missing, or all is sound. -/
def Inv (paths : List Str) (d : Disk) : Prop := (∃ l, paths.getLast? = some l ∧ d l = none) ∨ Sound paths d

theorem usable_sound (paths : List Str) (d : Disk) (h : Usable paths d) : Sound paths d := by
  obtain ⟨g, hg⟩ := h
  exact ⟨g, fun p hp => Or.inr (hg p hp)⟩

theorem inv_run (paths : List Str) (gen : Nat) (d : Disk) (h : Inv paths d) : Usable paths (run paths gen none d) := by
  rcases h with ⟨l, hl, hn⟩ | h
  · exact C114_repairs_missing_files paths gen d ⟨l, List.mem_of_getLast? hl, hn⟩
  · exact sound_run paths gen d h

theorem take_writes (gen : Nat) (ps : List Str) (l : Str) (hl : l ∉ ps) (k : Nat) (hk : k < 2 * (ps ++ [l]).length - 1) :
    ∀ w ∈ (writes gen (ps ++ [l])).take k, w.1 ≠ l := by
  have happ : ∀ qs : List Str, writes gen (qs ++ [l]) = writes gen qs ++ writes gen [l] := by
    intro qs
    induction qs with
    | nil => rfl
    | cons q qs ih => simp [writes, ih]
  have hlen : ∀ qs : List Str, (writes gen qs).length = 2 * qs.length := by
    intro qs
    induction qs with
    | nil => rfl
    | cons q qs ih => simp [writes, ih]; omega
  have hk' : k ≤ (writes gen ps).length := by
    rw [hlen]; simp at hk; omega
  rw [happ, List.take_append_of_le_length hk']
  intro w hw e
  exact hl (by rw [← e]; exact writes_paths gen ps w (List.mem_of_mem_take hw))

theorem inv_crash (paths : List Str) (hnd : paths.Nodup) (gen k : Nat) (d : Disk) (l : Str) (hl : paths.getLast? = some l)
    (hn : d l = none) (hk : k < 2 * paths.length - 1) : Inv paths (run paths gen (some k) d) := by
  left
  refine ⟨l, hl, ?_⟩
  unfold run
  split
  · obtain ⟨ps, rfl⟩ := List.getLast?_eq_some_iff.mp hl
    have hlp : l ∉ ps := by
      have := List.nodup_append.mp hnd
      intro hm
      exact this.2.2 l hm l (by simp) rfl
    dsimp only
    rw [apply_other _ _ _ (take_writes gen ps l hlp k hk)]
    exact hn
  · exact hn

theorem inv_delete (paths : List Str) (d : Disk) (p : Str) (h : Inv paths d) : Inv paths (d.set p none) := by
  rcases h with ⟨l, hl, hn⟩ | ⟨g, hg⟩
  · left
    refine ⟨l, hl, ?_⟩
    unfold Disk.set
    split
    · rfl
    · exact hn
  · right
    refine ⟨g, fun q hq => ?_⟩
    unfold Disk.set
    split
    · exact Or.inl rfl
    · exact hg q hq

theorem inv_exec (paths : List Str) (hnd : paths.Nodup) (evs : List Ev) :
    ∀ d, Inv paths d → Harmless paths d evs → Inv paths (exec paths d evs) := by
  induction evs with
  | nil => intro d h _; exact h
  | cons ev evs ih =>
    intro d h hh
    cases ev with
    | run gen => exact ih _ (Or.inr (usable_sound _ _ (inv_run paths gen d h))) hh
    | delete p => exact ih _ (inv_delete paths d p h) hh
    | crash gen k =>
      obtain ⟨⟨l, hl, hn⟩, hk, hh⟩ := hh
      exact ih _ (inv_crash paths hnd gen k d l hl hn hk) hh

/-- **C114 (partial).** After a complete run the files are usable, whatever complete runs and deletions came before, and
whatever runs were stopped that found the last file missing and did not get to it. -/
theorem C114_usable_partial (paths : List Str) (hnd : paths.Nodup) (d : Disk) (h0 : Sound paths d) (evs : List Ev)
    (hh : Harmless paths d evs) (gen : Nat) : Usable paths (exec paths d (evs ++ [.run gen])) := by
  have := inv_exec paths hnd evs d (Or.inr h0) hh
  rw [exec, List.foldl_append]
  exact inv_run paths gen _ this

/-- No files. -/
def empty : Disk := fun _ => none

/-- C114 is violated when a run is stopped while it writes the last file: it is there, so no later run completes it. -/
theorem C114_violated_last_file (paths : List Str) (hne : paths ≠ []) (hnd : paths.Nodup) (gen : Nat) (gens : List Nat) :
    ¬ Usable paths (exec paths empty (.crash gen (2 * paths.length - 1) :: gens.map .run)) := by
  obtain ⟨ps, l, rfl⟩ : ∃ ps l, paths = ps ++ [l] := ⟨_, _, (List.dropLast_concat_getLast hne).symm⟩
  have hlp : l ∉ ps := by
    intro hm
    exact (List.nodup_append.mp hnd).2.2 l hm l (by simp) rfl
  have happ : ∀ qs : List Str, writes gen (qs ++ [l]) = writes gen qs ++ writes gen [l] := by
    intro qs
    induction qs with
    | nil => rfl
    | cons q qs ih => simp [writes, ih]
  have hlen : ∀ qs : List Str, (writes gen qs).length = 2 * qs.length := by
    intro qs
    induction qs with
    | nil => rfl
    | cons q qs ih => simp [writes, ih]; omega
  have happly : ∀ (ws vs : List (Str × Content)) (d : Disk), apply d (ws ++ vs) = apply (apply d ws) vs := by
    intro ws vs
    induction ws with
    | nil => intro d; rfl
    | cons w ws ih => intro d; exact ih _
  have hmiss : oneMissing empty (ps ++ [l]) = true := by
    cases hm : oneMissing empty (ps ++ [l]) with
    | true => rfl
    | false => exact absurd rfl ((oneMissing_false _ _).mp hm l (by simp))
  have htake : (writes gen (ps ++ [l])).take (2 * (ps ++ [l]).length - 1) = writes gen ps ++ [(l, ⟨gen, false⟩)] := by
    have : 2 * (ps ++ [l]).length - 1 = (writes gen ps).length + 1 := by rw [hlen]; simp; omega
    rw [happ, this, List.take_length_add_append]
    rfl
  have hd : step (ps ++ [l]) empty (.crash gen (2 * (ps ++ [l]).length - 1)) =
      (apply empty (writes gen ps)).set l (some ⟨gen, false⟩) := by
    simp only [step, run, hmiss, if_true]
    rw [htake, happly]
    rfl
  have hall : ∀ p ∈ ps ++ [l], (apply empty (writes gen ps)).set l (some ⟨gen, false⟩) p ≠ none := by
    intro p hp
    unfold Disk.set
    split
    · simp
    · next hpl =>
      have : p ∈ ps := by simpa [hpl] using hp
      rw [apply_writes gen ps empty p this]; simp
  have hkeep : ∀ (gs : List Nat) (d : Disk), (∀ p ∈ ps ++ [l], d p ≠ none) → exec (ps ++ [l]) d (gs.map .run) = d := by
    intro gs
    induction gs with
    | nil => intro d _; rfl
    | cons g gs ih =>
      intro d h
      show exec _ (run _ g none d) _ = d
      rw [C114_keeps_existing _ g none d h]
      exact ih d h
  rintro ⟨g, hg⟩
  have hl := hg l (by simp)
  rw [show exec (ps ++ [l]) empty (.crash gen (2 * (ps ++ [l]).length - 1) :: gens.map .run) =
    exec (ps ++ [l]) (step (ps ++ [l]) empty (.crash gen (2 * (ps ++ [l]).length - 1))) (gens.map .run) from rfl, hd,
    hkeep gens _ hall] at hl
  simp [Disk.set] at hl

/-- C114 is violated when the key was deleted and the run that replaces it is stopped after the key: the new key and the
old certificate are kept by all later runs. -/
theorem C114_violated_mixed (key cert : Str) (hne : key ≠ cert) (old new : Nat) (hg : old ≠ new) (gens : List Nat) :
    let d := exec [key, cert] empty (.run old :: .delete key :: .crash new 2 :: gens.map .run)
    d key = some ⟨new, true⟩ ∧ d cert = some ⟨old, true⟩ ∧ ¬ Usable [key, cert] d := by
  have hkeep : ∀ (gs : List Nat) (d : Disk), (∀ p ∈ [key, cert], d p ≠ none) → exec [key, cert] d (gs.map .run) = d := by
    intro gs
    induction gs with
    | nil => intro d _; rfl
    | cons g gs ih =>
      intro d h
      show exec _ (run _ g none d) _ = d
      rw [C114_keeps_existing _ g none d h]
      exact ih d h
  intro d
  have h1 : exec [key, cert] empty [.run old, .delete key, .crash new 2] key = some ⟨new, true⟩ := by
    simp [exec, step, run, oneMissing, empty, writes, apply, Disk.set]
  have h2 : exec [key, cert] empty [.run old, .delete key, .crash new 2] cert = some ⟨old, true⟩ := by
    simp [exec, step, run, oneMissing, empty, writes, apply, Disk.set, Ne.symm hne]
  have hd : d = exec [key, cert] empty [.run old, .delete key, .crash new 2] := by
    apply hkeep gens (exec [key, cert] empty [.run old, .delete key, .crash new 2])
    intro p hp
    rcases List.mem_cons.mp hp with rfl | hp
    · rw [h1]; simp
    · have := List.mem_singleton.mp hp
      subst this
      rw [h2]; simp
  rw [hd]
  refine ⟨h1, h2, ?_⟩
  rintro ⟨g, hg'⟩
  have e1 := hg' key (by simp)
  have e2 := hg' cert (by simp)
  rw [h1] at e1
  rw [h2] at e2
  simp at e1 e2
  exact hg (e2.trans e1.symm)

/-! ## Examples -/

theorem empty_sound (paths : List Str) : Sound paths empty := ⟨0, fun _ _ => Or.inl rfl⟩

/-- A run that is stopped after the key, then a complete one, a deletion, and another run. -/
example : Usable kafkaPaths (exec kafkaPaths empty ([.crash 1 3, .run 2, .delete (kafkaPaths[1]'(by decide))] ++ [.run 3])) :=
  C114_usable_partial kafkaPaths (by decide) empty (empty_sound _)
    [.crash 1 3, .run 2, .delete (kafkaPaths[1]'(by decide))]
    (by unfold Harmless; exact ⟨⟨_, rfl, rfl⟩, by decide, trivial⟩) 3

example : ¬ Usable ["key".toList, "cert".toList]
    (exec ["key".toList, "cert".toList] empty [.run 1, .delete "key".toList, .crash 2 2, .run 3]) :=
  (C114_violated_mixed "key".toList "cert".toList (by decide) 1 2 (by decide) [3]).2.2

example : ¬ Usable natsPaths (exec natsPaths empty [.crash 1 3, .run 2, .run 3]) :=
  C114_violated_last_file natsPaths (by decide) (by decide) 1 [2, 3]

/-- A certificate that is half written is replaced when the key is missing. -/
example : Usable natsPaths (run natsPaths 7 none (empty.set (natsPaths[1]'(by decide)) (some ⟨3, false⟩))) :=
  C114_repairs_missing_files _ _ _ ⟨natsPaths[0]'(by decide), by decide, by decide⟩

end Verif.Certs
