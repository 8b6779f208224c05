import Verif.Model.LogSlices
import Verif.Props.Logs

/-!
# C117: logging leaves the fields of callers alone
-/

namespace Verif.LogSlices
open Logs (Info Ctx)

/-- The fields a call should log: those it was given, and its own. -/
def Call.wanted (s : Store) (c : Call) : List Info := s.read c.slice ++ c.todo

/-- A slice lies in its array. -/
def Within (s : Store) (x : Slice) : Prop := x.arr < s.next ∧ x.len ≤ (s.arr x.arr).length

/-- No room behind the slice: `append` has to copy. A call with its fields written out, `logger.Info(ctx, msg, a, b)`, has
such a slice. -/
def Full (s : Store) (x : Slice) : Prop := x.len = (s.arr x.arr).length

/-- Calls share an array only if their slices are full. -/
def Apart (s : Store) (cs : List Call) : Prop :=
  ∀ (i j : Nat) (c d : Call), i ≠ j → cs[i]? = some c → cs[j]? = some d → c.slice.arr = d.slice.arr → Full s c.slice

/-! ## Arrays -/

theorem read_put_ne (s : Store) (a : Nat) (l : List Info) (x : Slice) (h : x.arr ≠ a) : (s.put a l).read x = s.read x := by
  simp [Store.read, Store.put, h]

theorem arr_put_ne (s : Store) (a : Nat) (l : List Info) (q : Nat) (h : q ≠ a) : (s.put a l).arr q = s.arr q := by
  simp [Store.put, h]

theorem arr_put_self (s : Store) (a : Nat) (l : List Info) : (s.put a l).arr a = l := by
  simp [Store.put]

theorem take_set_snoc (l : List Info) (n : Nat) (f : Info) (h : n < l.length) : (l.set n f).take (n + 1) = l.take n ++ [f] := by
  rw [List.take_succ_eq_append_getElem (by simpa using h), List.take_set_of_le (Nat.le_refl n), List.getElem_set_self]

/-- Appending gives a slice with one more field. -/
theorem append_read (room : Nat → Nat) (s : Store) (x : Slice) (f : Info) (h : Within s x) :
    (append room s x f).1.read (append room s x f).2 = s.read x ++ [f] ∧ Within (append room s x f).1 (append room s x f).2 := by
  unfold append
  split
  · rename_i hl
    refine ⟨?_, h.1, ?_⟩
    · simp only [Store.read, arr_put_self]
      exact take_set_snoc _ _ _ hl
    · simp only [arr_put_self, List.length_set]
      exact hl
  · have hlen : (s.read x).length = x.len := by
      simp only [Store.read, List.length_take]
      exact Nat.min_eq_left h.2
    have e : ((s.put s.next (s.read x ++ f :: List.replicate (room x.len) ⟨[], []⟩)).arr s.next) =
        s.read x ++ f :: List.replicate (room x.len) ⟨[], []⟩ := arr_put_self _ _ _
    refine ⟨?_, Nat.lt_succ_self _, ?_⟩
    · simp only [Store.read] at e ⊢
      rw [e]
      simp only [Store.read] at hlen
      rw [List.take_append, List.take_of_length_le (by omega), hlen]
      simp
    · simp only [Store.read] at e hlen ⊢
      rw [e]
      simp only [List.length_append, List.length_cons]
      omega

/-- Appending does not change what is read through a slice that ends before, or on another array. -/
theorem append_other (room : Nat → Nat) (s : Store) (x y : Slice) (f : Info) (hy : y.arr < s.next)
    (h : x.arr = y.arr → y.len ≤ x.len) : (append room s x f).1.read y = s.read y := by
  unfold append
  split
  · by_cases e : y.arr = x.arr
    · simp only [Store.read]
      rw [e, arr_put_self]
      exact List.take_set_of_le (h e.symm)
    · exact read_put_ne _ _ _ _ e
  · exact read_put_ne s s.next _ y (Nat.ne_of_lt hy)

theorem append_length (room : Nat → Nat) (s : Store) (x : Slice) (f : Info) (a : Nat) (ha : a < s.next) :
    ((append room s x f).1.arr a).length = (s.arr a).length := by
  unfold append
  split
  · by_cases e : a = x.arr
    · simp only
      rw [e, arr_put_self, List.length_set]
    · simp only [arr_put_ne _ _ _ _ e]
  · simp only [Store.put]
    rw [if_neg (Nat.ne_of_lt ha)]

theorem append_next (room : Nat → Nat) (s : Store) (x : Slice) (f : Info) : s.next ≤ (append room s x f).1.next := by
  unfold append
  split
  · exact Nat.le_refl _
  · exact Nat.le_succ _

/-! ## Calls -/

/-- What is known of calls on their way: a call with its slice on an array of its own, or full, still has the right fields
before it. -/
structure Inv (s : Store) (cs want : List Call) (s0 : Store) : Prop where
  len : cs.length = want.length
  within : ∀ (i : Nat) (c : Call), cs[i]? = some c → Within s c.slice
  right : ∀ (i : Nat) (c c0 : Call), cs[i]? = some c → want[i]? = some c0 → c.wanted s = c0.wanted s0 ∧
    ∀ o, c.out = some o → o = c0.wanted s0
  apart : Apart s cs

theorem inv_step (room : Nat → Nat) (s s0 : Store) (cs want : List Call) (i : Nat) (c : Call) (h : Inv s cs want s0)
    (hc : cs[i]? = some c) : Inv (c.step room s).1 (cs.set i (c.step room s).2) want s0 := by
  have hi : i < cs.length := by
    rcases List.getElem?_eq_some_iff.1 hc with ⟨hi, _⟩
    exact hi
  have hw := h.within i c hc
  unfold Call.step
  split
  · rename_i f fs ht
    obtain ⟨r1, r2⟩ := append_read room s c.slice f hw
    -- what is read through the other slices stays
    have other : ∀ j d, i ≠ j → cs[j]? = some d → (append room s c.slice f).1.read d.slice = s.read d.slice := by
      intro j d hij hd
      refine append_other room s c.slice d.slice f (h.within j d hd).1 (fun e => ?_)
      have hf : Full s c.slice := h.apart i j c d hij hc hd e
      have := (h.within j d hd).2
      unfold Full at hf
      rw [← e, ← hf] at this
      exact this
    -- nobody else has the array of the new slice
    have own : ∀ j d, i ≠ j → cs[j]? = some d → (append room s c.slice f).2.arr ≠ d.slice.arr := by
      intro j d hij hd
      unfold append
      split
      · rename_i hl
        intro e
        have hf : Full s c.slice := h.apart i j c d hij hc hd e
        exact absurd hl (by unfold Full at hf; omega)
      · exact fun e => absurd (h.within j d hd).1 (by simp only at e; omega)
    refine ⟨by simpa using h.len, ?_, ?_, ?_⟩
    · intro j d hd
      rw [List.getElem?_set] at hd
      split at hd
      · rename_i hij
        simp only at hd
        subst hij
        cases hd
        exact r2
      · have := h.within j d hd
        refine ⟨Nat.lt_of_lt_of_le this.1 (append_next ..), ?_⟩
        rw [append_length room s c.slice f _ this.1]
        exact this.2
    · intro j d c0 hd h0
      rw [List.getElem?_set] at hd
      split at hd
      · rename_i hij
        simp only at hd
        subst hij
        cases hd
        have := h.right i c c0 hc h0
        refine ⟨?_, this.2⟩
        rw [← this.1]
        simp only [Call.wanted, r1, ht, List.append_assoc, List.singleton_append]
      · rename_i hij
        have := h.right j d c0 hd h0
        refine ⟨?_, this.2⟩
        rw [← this.1]
        simp only [Call.wanted, other j d hij hd]
    · intro j k d e hjk hd he hde
      rw [List.getElem?_set] at hd he
      split at hd
      · rename_i hij
        subst hij
        simp only at hd
        rw [if_neg hjk] at he
        cases hd
        exact absurd hde (own k e hjk he)
      · rename_i hij
        split at he
        · rename_i hik
          subst hik
          simp only at he
          cases he
          exact absurd hde.symm (own j d hij hd)
        · have hf := h.apart j k d e hjk hd he hde
          unfold Full
          rw [append_length room s c.slice f _ (h.within j d hd).1]
          exact hf
  · rename_i ht
    refine ⟨by simpa using h.len, ?_, ?_, ?_⟩
    · intro j d hd
      rw [List.getElem?_set] at hd
      split at hd
      · simp only at hd
        cases hd
        exact hw
      · exact h.within j d hd
    · intro j d c0 hd h0
      rw [List.getElem?_set] at hd
      split at hd
      · rename_i hij
        simp only at hd
        subst hij
        cases hd
        have := (h.right i c c0 hc h0).1
        refine ⟨this, ?_⟩
        intro o ho
        cases ho
        rw [← this, Call.wanted, ht, List.append_nil]
      · exact h.right j d c0 hd h0
    · intro j k d e hjk hd he hde
      have back : ∀ (j : Nat) (d : Call), (cs.set i { c with out := some (s.read c.slice) })[j]? = some d →
          ∃ d', cs[j]? = some d' ∧ d'.slice = d.slice := by
        intro j d hd
        rw [List.getElem?_set] at hd
        split at hd
        · rename_i hij
          subst hij
          cases hd
          exact ⟨c, hc, rfl⟩
        · exact ⟨d, hd, rfl⟩
      obtain ⟨d', hd', ed⟩ := back j d hd
      obtain ⟨e', he', ee⟩ := back k e he
      rw [← ed]
      exact h.apart j k d' e' hjk hd' he' (by rw [ed, ee, hde])

theorem inv_run (room : Nat → Nat) (s0 : Store) (want : List Call) : ∀ (is : List Nat) (s : Store) (cs : List Call),
    Inv s cs want s0 → Inv (run room is s cs).1 (run room is s cs).2 want s0
  | [], _, _, h => h
  | i :: is, s, cs, h => by
    unfold run
    split
    · exact inv_run room s0 want is s cs h
    · rename_i c hc
      exact inv_run room s0 want is _ _ (inv_step room s s0 cs want i c h hc)

/-- **C117 (partial).** Whatever the schedule and however arrays grow: a call logs the fields it was given and its own, and no
others, if no array with room behind a slice is used by two calls. Missing for the full claim: slices with room on one array,
for which it is false. -/
theorem C117_logged_partial (room : Nat → Nat) (s : Store) (cs : List Call) (is : List Nat)
    (hw : ∀ c ∈ cs, Within s c.slice ∧ c.out = none) (ha : Apart s cs) (i : Nat) (c c0 : Call)
    (h0 : cs[i]? = some c0) (hc : (run room is s cs).2[i]? = some c) (o : List Info) (ho : c.out = some o) :
    o = s.read c0.slice ++ c0.todo := by
  have h : Inv s cs cs s := by
    refine ⟨rfl, fun i c hc => (hw c (List.mem_of_getElem? hc)).1, ?_, ha⟩
    intro i c c0 hc h0
    rw [hc] at h0
    cases h0
    refine ⟨rfl, fun o ho => ?_⟩
    rw [(hw c (List.mem_of_getElem? hc)).2] at ho
    cases ho
  exact ((inv_run room s cs is s cs h).right i c c0 hc h0).2 o ho

/-- A call whose fields are written out shares its array with nobody. So does every call with a full slice. -/
theorem apart_of_full (s : Store) (cs : List Call) (h : ∀ c ∈ cs, Full s c.slice) : Apart s cs :=
  fun _ _ c _ _ hc _ _ => h c (List.mem_of_getElem? hc)

/-- **C117.** What the caller reads through a slice stays, whatever the schedule, if no shorter slice on the same array is
logged. -/
theorem C117_kept_partial (room : Nat → Nat) (y : Slice) : ∀ (is : List Nat) (s : Store) (cs : List Call), y.arr < s.next →
    (∀ c ∈ cs, c.slice.arr = y.arr → y.len ≤ c.slice.len) → (run room is s cs).1.read y = s.read y
  | [], _, _, _, _ => rfl
  | i :: is, s, cs, hy, h => by
    unfold run
    split
    · exact C117_kept_partial room y is s cs hy h
    · rename_i c hc
      have hm := List.mem_of_getElem? hc
      have hs : (c.step room s).1.read y = s.read y ∧ y.arr < (c.step room s).1.next ∧
          ((c.step room s).2.slice.arr = y.arr → y.len ≤ (c.step room s).2.slice.len) := by
        unfold Call.step
        split
        · rename_i f fs _
          refine ⟨append_other room s c.slice y f hy (h c hm), Nat.lt_of_lt_of_le hy (append_next ..), ?_⟩
          unfold append
          split
          · exact fun e => Nat.le_succ_of_le (h c hm e)
          · exact fun e => absurd hy (by simp only at e; omega)
        · exact ⟨rfl, hy, h c hm⟩
      simp only
      rw [C117_kept_partial room y is _ _ hs.2.1 ?_, hs.1]
      intro d hd e
      rcases List.mem_or_eq_of_mem_set hd with hd | rfl
      · exact h d hd e
      · exact hs.2.2 e

/-- **C117 (partial), for the ECS logger.** What a call has handed on is what C58 says is printed for its fields, whoever else
logs meanwhile. -/
theorem C117_ecs_partial (room : Nat → Nat) (s : Store) (cs : List Call) (is : List Nat)
    (hw : ∀ c ∈ cs, Within s c.slice ∧ c.out = none) (ha : Apart s cs) (i : Nat) (c : Call) (ctx : Ctx) (level msg now : Str)
    (x : Slice) (h0 : cs[i]? = some (ecsCall ctx level msg now x)) (hc : (run room is s cs).2[i]? = some c) (o : List Info)
    (ho : c.out = some o) :
    o = Logs.ecsInfo ctx level msg now (s.read x) ∧
    Logs.leafAt (Logs.path "message".toList) (Logs.structureLogs o) = some msg ∧
    Logs.leafAt (Logs.path "log.level".toList) (Logs.structureLogs o) = some level := by
  have e : o = Logs.ecsInfo ctx level msg now (s.read x) := C117_logged_partial room s cs is hw ha i c _ h0 hc o ho
  rw [e]
  exact ⟨rfl, Logs.C58_ecs_message .., Logs.C58_ecs_level ..⟩

/-- **C117 (partial), for the text logger.** -/
theorem C117_text_partial (room : Nat → Nat) (s : Store) (cs : List Call) (is : List Nat)
    (hw : ∀ c ∈ cs, Within s c.slice ∧ c.out = none) (ha : Apart s cs) (i : Nat) (c : Call) (ctx : Ctx) (msg now : Str)
    (x : Slice) (h0 : cs[i]? = some (textCall ctx msg now x)) (hc : (run room is s cs).2[i]? = some c) (o : List Info)
    (ho : c.out = some o) :
    Logs.structureLogs o = TextLog.record ctx msg now (s.read x) := by
  rw [C117_logged_partial room s cs is hw ha i c _ h0 hc o ho]
  rfl

/-! ## Violations -/

/-- **C117 is violated** for slices with room: logging with a slice changes a longer slice of the caller, `append(fields, f)`,
as soon as the logger has added its first field. -/
theorem C117_violated_overwritten (room : Nat → Nat) (s : Store) (x : Slice) (f g : Info) (gs : List Info) (y : Slice)
    (hy : y.arr = x.arr) (hl : x.len < y.len) (hin : y.len ≤ (s.arr x.arr).length) (hf : (s.read y)[x.len]? = some f) (hg : g ≠ f) :
    ((run room [0] s [⟨x, g :: gs, none⟩]).1.read y)[x.len]? = some g ∧
    (run room [0] s [⟨x, g :: gs, none⟩]).1.read y ≠ s.read y := by
  have hroom : x.len < (s.arr x.arr).length := by omega
  have key : ((run room [0] s [⟨x, g :: gs, none⟩]).1.read y)[x.len]? = some g := by
    simp only [run, List.getElem?_cons_zero, Call.step, append, if_pos hroom, Store.read]
    rw [hy, arr_put_self, List.getElem?_take, if_pos hl, List.getElem?_set_self hroom]
  refine ⟨key, fun e => ?_⟩
  rw [e, hf] at key
  exact hg (Option.some.inj key).symm

/-- Two calls in turn. -/
def turns : Nat → List Nat
  | 0 => [0]
  | n + 1 => 0 :: 1 :: turns n

/-- **C117 is violated** for slices with room: of two calls that are given the same fields, one after the other in turn, the
first one logs the fields that the second one added, instead of its own. -/
theorem C117_violated_mixed (room : Nat → Nat) (b : List Info) : ∀ (e0 e1 : List Info) (s : Store) (a : Nat),
    e0.length = e1.length → a < s.next → b.length + e0.length ≤ (s.arr a).length → (s.arr a).take b.length = b →
    ∃ c, (run room (turns e0.length) s [⟨⟨a, b.length⟩, e0, none⟩, ⟨⟨a, b.length⟩, e1, none⟩]).2[0]? = some c ∧
      c.out = some (b ++ e1) := by
  suffices H : ∀ (e0 e1 p : List Info) (s : Store) (a : Nat), e0.length = e1.length →
      p.length + e0.length ≤ (s.arr a).length → (s.arr a).take p.length = p →
      ∃ c, (run room (turns e0.length) s [⟨⟨a, p.length⟩, e0, none⟩, ⟨⟨a, p.length⟩, e1, none⟩]).2[0]? = some c ∧
        c.out = some (p ++ e1) from fun e0 e1 s a h1 _ h2 h3 => H e0 e1 b s a h1 h2 h3
  intro e0
  induction e0 with
  | nil =>
    intro e1 p s a h1 _ h3
    have : e1 = [] := List.length_eq_zero_iff.1 h1.symm
    subst this
    exact ⟨_, rfl, by simp only [Call.step, Store.read, h3, List.append_nil]⟩
  | cons f fs ih =>
    intro e1 p s a h1 h2 h3
    cases e1 with
    | nil => cases h1
    | cons g gs =>
      simp only [List.length_cons] at h2
      have hr : p.length < (s.arr a).length := by omega
      have ha1 : ((s.put a ((s.arr a).set p.length f)).arr a) = (s.arr a).set p.length f := arr_put_self _ _ _
      have hr1 : p.length < ((s.arr a).set p.length f).length := by
        rw [List.length_set]
        exact hr
      have e : run room (turns (f :: fs).length) s [⟨⟨a, p.length⟩, f :: fs, none⟩, ⟨⟨a, p.length⟩, g :: gs, none⟩] =
          run room (turns fs.length)
            ((s.put a ((s.arr a).set p.length f)).put a (((s.arr a).set p.length f).set p.length g))
            [⟨⟨a, (p ++ [g]).length⟩, fs, none⟩, ⟨⟨a, (p ++ [g]).length⟩, gs, none⟩] := by
        simp only [List.length_cons, turns, run, List.getElem?_cons_zero, Call.step, append, if_pos hr, List.set_cons_zero,
          List.getElem?_cons_succ, List.set_cons_succ, ha1, if_pos hr1, List.length_append, List.length_nil, Nat.zero_add]
      rw [e]
      obtain ⟨c, hc, ho⟩ := ih gs (p ++ [g])
        ((s.put a ((s.arr a).set p.length f)).put a (((s.arr a).set p.length f).set p.length g)) a (by simpa using h1)
        (by rw [arr_put_self]; simp only [List.length_append, List.length_cons, List.length_nil, List.length_set]; omega)
        (by
          rw [arr_put_self, List.length_append, List.length_singleton, List.set_set, take_set_snoc _ _ _ hr, h3])
      exact ⟨c, hc, by rw [ho, List.append_assoc, List.singleton_append]⟩

/-! ## Two goroutines with the fields of a request -/

def noCtx : Ctx := ⟨none, none, none, none, none⟩

/-- The caller's fields, in an array with room. -/
def fields : Info := ⟨"request".toList, "7".toList⟩
def roomy : Store := ⟨fun _ => fields :: List.replicate 7 ⟨[], []⟩, 1⟩
def tight : Store := ⟨fun _ => [fields], 1⟩

def hello : Call := ecsCall noCtx "info".toList "hello".toList "t".toList ⟨0, 1⟩
def failed : Call := ecsCall noCtx "error".toList "failed".toList "t".toList ⟨0, 1⟩

/-- With room, the log of `hello` says `failed`, at level `error`. -/
example : ((run (fun _ => 0) (turns 4) roomy [hello, failed]).2[0]?.bind (fun c => c.out)) =
    some (fields :: Logs.ecsExtra noCtx "error".toList "failed".toList "t".toList) := by decide

/-- Without room, each has its own. -/
example : ((run (fun n => n) (turns 4) tight [hello, failed]).2[0]?.bind (fun c => c.out)) =
    some (fields :: Logs.ecsExtra noCtx "info".toList "hello".toList "t".toList) := by decide

example : (∀ c ∈ [hello, failed], Within tight c.slice ∧ c.out = none) ∧ Apart tight [hello, failed] := by
  have hm : ∀ c ∈ [hello, failed], c.slice = ⟨0, 1⟩ ∧ c.out = none := by decide
  refine ⟨fun c hc => ⟨?_, (hm c hc).2⟩, apart_of_full _ _ (fun c hc => ?_)⟩
  · rw [(hm c hc).1]; exact ⟨by decide, by decide⟩
  · rw [(hm c hc).1]; rfl

end Verif.LogSlices
