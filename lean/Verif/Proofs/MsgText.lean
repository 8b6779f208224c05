import Verif.Proofs.AddProps
import Verif.Proofs.ChannelAddr
import Verif.Model.MsgText

/-! # Reading the text of a broker message -/

namespace Verif.MsgText

open AddProps Json

/-- The text of a header. -/
def entry (isPrint : Char → Bool) (e : Str × Str) : Str := goQuote isPrint e.1 ++ ':' :: goQuote isPrint e.2

theorem loop_eq (isPrint : Char → Bool) (hs : List (Str × Str)) : ∀ str,
    loop isPrint str hs = str ++ hs.flatMap (fun e => ',' :: entry isPrint e) := by
  induction hs with
  | nil => simp [loop]
  | cons e hs ih => intro str; obtain ⟨k, v⟩ := e; simp [loop, ih, entry]

theorem text_nil (isPrint : Char → Bool) (p : Str) : text isPrint [] p = onlyPayload ++ p ++ ['}'] := rfl

theorem text_cons (isPrint : Char → Bool) (e : Str × Str) (hs : List (Str × Str)) (p : Str) :
    text isPrint (e :: hs) p = beforeHeaders ++ (entry isPrint e ++ hs.flatMap (fun e => ',' :: entry isPrint e)) ++
      afterHeaders ++ p ++ ['}'] := by
  simp [text, loop_eq]

/-- What `%q` wrote, followed by anything, tells both apart. -/
theorem quote_inj {isPrint : Char → Bool} {a b r r' : Str} (h : goQuote isPrint a ++ r = goQuote isPrint b ++ r') :
    a = b ∧ r = r' := by
  simp only [goQuote, List.cons_append, List.append_assoc, List.nil_append, List.cons.injEq, true_and] at h
  have h2 := congrArg GoLit.readStr h
  rw [GoLit.readStr_goQuote, GoLit.readStr_goQuote] at h2
  simpa using h2

theorem entry_inj {isPrint : Char → Bool} {a b : Str × Str} {r r' : Str} (h : entry isPrint a ++ r = entry isPrint b ++ r') :
    a = b ∧ r = r' := by
  simp only [entry, List.append_assoc, List.cons_append] at h
  obtain ⟨h1, h2⟩ := quote_inj h
  simp only [List.cons.injEq, true_and] at h2
  obtain ⟨h3, h4⟩ := quote_inj h2
  exact ⟨Prod.ext h1 h3, h4⟩

theorem entries_inj {isPrint : Char → Bool} : ∀ {as bs : List (Str × Str)} {r r' : Str},
    as.flatMap (fun e => ',' :: entry isPrint e) ++ '}' :: r = bs.flatMap (fun e => ',' :: entry isPrint e) ++ '}' :: r' →
    as = bs ∧ r = r' := by
  intro as
  induction as with
  | nil =>
    intro bs r r' h
    cases bs with
    | nil => simpa using h
    | cons b bs => simp at h
  | cons a as ih =>
    intro bs r r' h
    cases bs with
    | nil => simp at h
    | cons b bs =>
      simp only [List.flatMap_cons, List.cons_append, List.append_assoc, List.cons.injEq, true_and] at h
      obtain ⟨h1, h2⟩ := entry_inj h
      obtain ⟨h3, h4⟩ := ih h2
      exact ⟨by rw [h1, h3], h4⟩

theorem text_inj {isPrint : Char → Bool} {as bs : List (Str × Str)} {p q : Str}
    (h : text isPrint as p = text isPrint bs q) : as = bs ∧ p = q := by
  cases as with
  | nil =>
    cases bs with
    | nil => simpa [text_nil] using h
    | cons b bs => simp [text_nil, text_cons, onlyPayload, beforeHeaders] at h
  | cons a as =>
    cases bs with
    | nil => simp [text_nil, text_cons, onlyPayload, beforeHeaders] at h
    | cons b bs =>
      simp only [text_cons, List.append_assoc] at h
      have h := List.append_cancel_left h
      obtain ⟨h1, h2⟩ := entry_inj h
      simp only [afterHeaders, List.cons_append, List.nil_append] at h2
      obtain ⟨h3, h4⟩ := entries_inj h2
      exact ⟨by rw [h1, h3], by simpa using h4⟩

/-- Reading an object in the middle of a text. -/
theorem parseVal_objText (m : Mem) (ms : List Mem) (h : ∀ x ∈ m :: ms, x.Reads) (n : Nat) (rest : Str)
    (hn : fuelOf (m :: ms) < n) :
    parseVal n (objText (m :: ms) ++ rest) = some (.obj ((m :: ms).map (fun m => (m.k, m.v))), rest) := by
  cases n with
  | zero => omega
  | succ n =>
    have hp := parseMembers_mems ms m n (h m (by simp)) (fun x hx => h x (List.mem_cons_of_mem _ hx)) (by omega) rest
    have e : objText (m :: ms) ++ rest = '{' :: (m.text ++ tailText ms ++ '}' :: rest) := by simp [objText]
    rw [parseVal]
    conv => lhs; rw [e, skipWs_cons (by decide)]
    simp only [show ('{' = '"') = False by simp, show ('{' = '[') = False by simp, if_false, if_true]
    have e2 : m.text ++ tailText ms ++ '}' :: rest = '"' :: (m.kt ++ '"' :: ':' :: m.vt ++ tailText ms ++ '}' :: rest) := by
      simp [Mem.text]
    rw [e2, skipWs_cons (by decide)]
    simp only [show ('"' = '}') = False by simp, if_false]
    rw [← e2, hp]
    rfl

/-- The payload as a member. -/
def payloadMem (j : Json) : Mem := declMem ("payload".toList, j)

/-- The headers as a member. -/
def headersMem (isPrint : Char → Bool) (hs : List (Str × Str)) : Mem :=
  ⟨"headers".toList, "headers".toList, objText (hs.map (addMem2 isPrint)), .obj (hs.map (fun e => (e.1, .str e.2))),
    fuelOf (hs.map (addMem2 isPrint)) + 1⟩

theorem headersMem_reads (isPrint : Char → Bool) (e : Str × Str) (hs : List (Str × Str))
    (h : ∀ x ∈ e :: hs, (∀ c ∈ x.1, SafeChar isPrint c) ∧ ∀ c ∈ x.2, SafeChar isPrint c) :
    (headersMem isPrint (e :: hs)).Reads := by
  have hr : ∀ x ∈ (e :: hs).map (addMem2 isPrint), x.Reads := by
    intro x hx
    rw [List.mem_map] at hx
    obtain ⟨y, hy, rfl⟩ := hx
    exact addMem2_reads isPrint y (h y hy).1 (h y hy).2
  refine ⟨?_, ?_, ?_⟩
  · intro rest
    exact parseStr_quote "headers".toList rest
  · intro n rest hn _
    have := parseVal_objText (addMem2 isPrint e) (hs.map (addMem2 isPrint)) hr n rest (by simp only [headersMem, List.map_cons] at hn; omega)
    simp only [headersMem, List.map_cons]
    rw [this]
    simp [addMem2, Function.comp_def]
  · have := fuelOf_le _ hr
    have hlen : (objText ((e :: hs).map (addMem2 isPrint))).length = (tailText ((e :: hs).map (addMem2 isPrint))).length + 1 := by
      simp [objText, tailText]; omega
    simp only [headersMem]
    omega

theorem text_objText (isPrint : Char → Bool) (hs : List (Str × Str)) (j : Json) :
    text isPrint hs (print j) = objText (if hs = [] then [payloadMem j] else [headersMem isPrint hs, payloadMem j]) := by
  cases hs with
  | nil => simp [text_nil, onlyPayload, objText, payloadMem, declMem, Mem.text, tailText, escChar]
  | cons e hs =>
    simp only [text_cons, if_neg (List.cons_ne_nil e hs)]
    simp [beforeHeaders, afterHeaders, objText, payloadMem, headersMem, declMem, Mem.text, tailText, escChar]
    simp [addMem2, entry, goQuote, List.flatMap_map]

end Verif.MsgText
