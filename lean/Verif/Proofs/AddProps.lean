import Verif.Proofs.Json
import Verif.Model.AddProps

/-! # Reading back what `MarshalJSON` wrote -/

namespace Verif.AddProps

open Json

/-- A member as written: text of the key between its quotes, the key, text of the value, the value, and
the fuel its parsing takes. -/
structure Mem where
  kt : Str
  k : Str
  vt : Str
  v : Json
  fuel : Nat

/-- The texts are read back as the key and the value. -/
structure Mem.Reads (m : Mem) : Prop where
  key : ∀ rest, parseStr (m.kt ++ '"' :: rest) = some (m.k, rest)
  val : ∀ n rest, m.fuel ≤ n → Stops rest → parseVal n (m.vt ++ rest) = some (m.v, rest)
  short : m.fuel ≤ 2 * m.vt.length

def Mem.text (m : Mem) : Str := '"' :: (m.kt ++ '"' :: ':' :: m.vt)

def tailText (ms : List Mem) : Str := ms.flatMap (fun m => ',' :: m.text)

def fuelOf : List Mem → Nat
  | [] => 0
  | m :: ms => 1 + max m.fuel (fuelOf ms)

theorem parseMembers_mems : ∀ (ms : List Mem) (m : Mem) (n : Nat), m.Reads → (∀ x ∈ ms, x.Reads) →
    fuelOf (m :: ms) ≤ n → ∀ rest,
    parseMembers n (m.text ++ tailText ms ++ '}' :: rest) = some ((m.k, m.v) :: ms.map (fun x => (x.k, x.v)), rest) := by
  intro ms
  induction ms with
  | nil =>
    intro m n hm _ hn rest
    cases n with
    | zero => simp [fuelOf] at hn
    | succ n =>
      have h1 : m.fuel ≤ n := by simp only [fuelOf] at hn; omega
      have e : m.text ++ tailText [] ++ '}' :: rest = '"' :: (m.kt ++ '"' :: ':' :: (m.vt ++ '}' :: rest)) := by
        simp [Mem.text, tailText]
      have hst : Stops ('}' :: rest) := by
        intro c r h; simp only [List.cons.injEq] at h; rw [← h.1]; decide
      rw [e, parseMembers, skipWs_cons (by decide)]
      simp only [if_true, hm.key, skipWs_cons (show isWs ':' = false by decide), hm.val n _ h1 hst]
      simp [skipWs, isWs]
  | cons m' ms ih =>
    intro m n hm hms hn rest
    cases n with
    | zero => simp [fuelOf] at hn
    | succ n =>
      have h1 : m.fuel ≤ n := by simp only [fuelOf] at hn; omega
      have h2 : fuelOf (m' :: ms) ≤ n := by simp only [fuelOf] at hn ⊢; omega
      have e : m.text ++ tailText (m' :: ms) ++ '}' :: rest =
          '"' :: (m.kt ++ '"' :: ':' :: (m.vt ++ ',' :: (m'.text ++ tailText ms ++ '}' :: rest))) := by
        simp [Mem.text, tailText]
      have hst : Stops (',' :: (m'.text ++ tailText ms ++ '}' :: rest)) := by
        intro c r h; simp only [List.cons.injEq] at h; rw [← h.1]; decide
      have hi := ih m' n (hms m' (by simp)) (fun x hx => hms x (List.mem_cons_of_mem _ hx)) h2 rest
      rw [e, parseMembers, skipWs_cons (by decide)]
      simp only [if_true, hm.key, skipWs_cons (show isWs ':' = false by decide), hm.val n _ h1 hst,
        skipWs_cons (show isWs ',' = false by decide)]
      rw [hi]
      rfl

theorem fuelOf_le (ms : List Mem) (h : ∀ m ∈ ms, m.Reads) : fuelOf ms ≤ 2 * (tailText ms).length := by
  induction ms with
  | nil => simp [fuelOf]
  | cons m ms ih =>
    have h1 := (h m (by simp)).short
    have h2 := ih (fun x hx => h x (List.mem_cons_of_mem _ hx))
    simp only [fuelOf, tailText, List.flatMap_cons, List.length_append, List.length_cons, Mem.text] at *
    omega

/-- The text of an object whose members are written that way. -/
def objText : List Mem → Str
  | [] => ['{', '}']
  | m :: ms => '{' :: (m.text ++ tailText ms ++ ['}'])

theorem parse_objText (ms : List Mem) (h : ∀ m ∈ ms, m.Reads) :
    parse (objText ms) = some (.obj (ms.map (fun m => (m.k, m.v)))) := by
  cases ms with
  | nil => simp [objText, parse, parseVal, skipWs, isWs]
  | cons m ms =>
    have hf := fuelOf_le (m :: ms) h
    have hlen : (objText (m :: ms)).length = (tailText (m :: ms)).length + 1 := by
      simp [objText, tailText]; omega
    have hp := parseMembers_mems ms m (2 * (objText (m :: ms)).length) (h m (by simp))
      (fun x hx => h x (List.mem_cons_of_mem _ hx)) (by omega) []
    unfold parse
    have e : objText (m :: ms) = '{' :: (m.text ++ tailText ms ++ ['}']) := rfl
    have hv : parseVal (2 * (objText (m :: ms)).length + 1) (objText (m :: ms)) =
        some (.obj ((m :: ms).map (fun m => (m.k, m.v))), []) := by
      rw [parseVal]
      conv => lhs; rw [e, skipWs_cons (by decide)]
      simp only [show ('{' = '"') = False by simp, show ('{' = '[') = False by simp, if_false, if_true]
      have e2 : m.text ++ tailText ms ++ ['}'] = '"' :: (m.kt ++ '"' :: ':' :: m.vt ++ tailText ms ++ ['}']) := by
        simp [Mem.text]
      rw [e2, skipWs_cons (by decide)]
      simp only [show ('"' = '}') = False by simp, if_false]
      rw [← e2, ← e, hp]
      rfl
    rw [hv]
    simp [skipWs]

/-- Characters `%q` writes in a way JSON reads back. -/
def SafeChar (isPrint : Char → Bool) (c : Char) : Prop :=
  (c.toNat < 0x20 → c.toNat ∈ [8, 9, 10, 12, 13]) ∧ c.toNat ≠ 0x7f ∧ (0x10000 ≤ c.toNat → isPrint c = true)

theorem char_eq_of_toNat {c : Char} {n : Nat} (h : c.toNat = n) : c = Char.ofNat n := by
  rw [← h, Char.ofNat_toNat]

theorem parseStr_goEsc (isPrint : Char → Bool) (c : Char) (h : SafeChar isPrint c) (t : Str) :
    parseStr (goEsc isPrint c ++ t) = prepend c (parseStr t) := by
  obtain ⟨h1, h2, h3⟩ := h
  unfold goEsc
  by_cases hq : c = '"'
  · rw [if_pos hq]; subst hq; exact parseStr_esc _ _ t (by decide) (by decide)
  rw [if_neg hq]
  by_cases hb : c = '\\'
  · rw [if_pos hb]; subst hb; exact parseStr_esc _ _ t (by decide) (by decide)
  rw [if_neg hb]
  by_cases hnp : (0x20 ≤ c.toNat ∧ c.toNat < 0x7f) ∨ (0x80 ≤ c.toNat ∧ isPrint c = true)
  · rw [if_pos hnp]; exact parseStr_plain c t hq hb (by omega)
  rw [if_neg hnp]
  by_cases n7 : c.toNat = 7
  · have := h1 (by omega)
    rw [n7] at this; exact absurd this (by decide)
  rw [if_neg n7]
  by_cases n8 : c.toNat = 8
  · rw [if_pos n8]; have hc := char_eq_of_toNat n8; subst hc; exact parseStr_esc _ _ t (by decide) (by decide)
  rw [if_neg n8]
  by_cases n12 : c.toNat = 12
  · rw [if_pos n12]; have hc := char_eq_of_toNat n12; subst hc; exact parseStr_esc _ _ t (by decide) (by decide)
  rw [if_neg n12]
  by_cases n10 : c.toNat = 10
  · rw [if_pos n10]; have hc := char_eq_of_toNat n10; subst hc; exact parseStr_esc _ _ t (by decide) (by decide)
  rw [if_neg n10]
  by_cases n13 : c.toNat = 13
  · rw [if_pos n13]; have hc := char_eq_of_toNat n13; subst hc; exact parseStr_esc _ _ t (by decide) (by decide)
  rw [if_neg n13]
  by_cases n9 : c.toNat = 9
  · rw [if_pos n9]; have hc := char_eq_of_toNat n9; subst hc; exact parseStr_esc _ _ t (by decide) (by decide)
  rw [if_neg n9]
  by_cases n11 : c.toNat = 11
  · have := h1 (by omega)
    rw [n11] at this; exact absurd this (by decide)
  rw [if_neg n11]
  by_cases hx : c.toNat < 0x20 ∨ c.toNat = 0x7f
  · rcases hx with h | h
    · have := h1 h
      simp only [List.mem_cons, List.not_mem_nil, or_false] at this
      omega
    · exact absurd h h2
  rw [if_neg hx]
  by_cases hu : c.toNat < 0x10000
  · rw [if_pos hu]; exact parseStr_uEscape c hu t
  · exact absurd (.inr ⟨by omega, h3 (by omega)⟩) hnp

theorem reads_goQuote (isPrint : Char → Bool) (k : Str) (h : ∀ c ∈ k, SafeChar isPrint c) (rest : Str) :
    parseStr (k.flatMap (goEsc isPrint) ++ '"' :: rest) = some (k, rest) :=
  parseStr_flatMap k rest (fun c hc t => parseStr_goEsc isPrint c (h c hc) t)

/-- A declared member, as `encoding/json` writes it. -/
def declMem (e : Str × Json) : Mem := ⟨e.1.flatMap escChar, e.1, print e.2, e.2, Json.fuel e.2⟩

/-- An additional member, as the v3 template writes it. -/
def addMem (isPrint : Char → Bool) (e : Str × Json) : Mem :=
  ⟨e.1.flatMap (goEsc isPrint), e.1, print e.2, e.2, Json.fuel e.2⟩

/-- An additional member, as the v2 template writes it. -/
def addMem2 (isPrint : Char → Bool) (e : Str × Str) : Mem :=
  ⟨e.1.flatMap (goEsc isPrint), e.1, goQuote isPrint e.2, .str e.2, 1⟩

theorem declMem_reads (e : Str × Json) (h : Valid e.2) : (declMem e).Reads :=
  ⟨fun rest => parseStr_quote e.1 rest, fun n rest hn hr => parseVal_print e.2 h n hn rest hr, fuel_le e.2 h⟩

theorem addMem_reads (isPrint : Char → Bool) (e : Str × Json) (h : Valid e.2)
    (hk : ∀ c ∈ e.1, SafeChar isPrint c) : (addMem isPrint e).Reads :=
  ⟨fun rest => reads_goQuote isPrint e.1 hk rest, fun n rest hn hr => parseVal_print e.2 h n hn rest hr,
    fuel_le e.2 h⟩

theorem addMem2_reads (isPrint : Char → Bool) (e : Str × Str) (hk : ∀ c ∈ e.1, SafeChar isPrint c)
    (hv : ∀ c ∈ e.2, SafeChar isPrint c) : (addMem2 isPrint e).Reads := by
  refine ⟨fun rest => reads_goQuote isPrint e.1 hk rest, ?_, ?_⟩
  · intro n rest hn _
    cases n with
    | zero => simp [addMem2] at hn
    | succ n =>
      have : (addMem2 isPrint e).vt ++ rest = '"' :: (e.2.flatMap (goEsc isPrint) ++ '"' :: rest) := by
        simp [addMem2, goQuote]
      rw [this, parseVal, skipWs_cons (by decide)]
      simp [reads_goQuote isPrint e.2 hv, addMem2]
  · simp only [addMem2, goQuote, List.length_cons]; omega

theorem printMembersTail_eq (ms : List (Str × Json)) : printMembersTail ms = tailText (ms.map declMem) := by
  induction ms with
  | nil => simp [printMembersTail, tailText]
  | cons e ms ih =>
    obtain ⟨k, v⟩ := e
    simp [printMembersTail, ih, tailText, Mem.text, declMem, quote]

theorem print_obj (ms : List (Str × Json)) : print (.obj ms) = objText (ms.map declMem) := by
  cases ms with
  | nil => simp [print, printMembers, objText]
  | cons e ms =>
    obtain ⟨k, v⟩ := e
    simp [print, printMembers, printMembersTail_eq, objText, Mem.text, declMem, quote]

theorem addLoop_true (isPrint : Char → Bool) (adds : List (Str × Json)) :
    addLoop isPrint true adds = tailText (adds.map (addMem isPrint)) := by
  induction adds with
  | nil => simp [addLoop, tailText]
  | cons e adds ih =>
    obtain ⟨k, v⟩ := e
    simp [addLoop, ih, tailText, Mem.text, addMem, goQuote]

theorem dropLast_obj (ms : List Mem) : (objText ms).dropLast = match ms with
    | [] => ['{']
    | m :: ms => '{' :: (m.text ++ tailText ms) := by
  cases ms with
  | nil => rfl
  | cons m ms =>
    have : objText (m :: ms) = ('{' :: (m.text ++ tailText ms)) ++ ['}'] := by simp [objText]
    rw [this, List.dropLast_concat]

theorem tailText_append (a b : List Mem) : tailText (a ++ b) = tailText a ++ tailText b := by
  simp [tailText]

theorem marshalV3_eq (isPrint : Char → Bool) (decl adds : List (Str × Json)) :
    marshalV3 isPrint decl adds = objText (decl.map declMem ++ adds.map (addMem isPrint)) := by
  unfold marshalV3
  rw [print_obj, dropLast_obj]
  cases decl with
  | nil =>
    cases adds with
    | nil => simp [addLoop, objText]
    | cons e adds =>
      obtain ⟨k, v⟩ := e
      simp [addLoop, addLoop_true, objText, Mem.text, addMem, goQuote]
  | cons d decl =>
    simp only [List.map_cons]
    have : (decide (('{' :: ((declMem d).text ++ tailText (decl.map declMem))).length > 1)) = true := by
      simp [Mem.text]
    rw [this, addLoop_true]
    simp [objText, tailText_append]

theorem marshalV2_eq (isPrint : Char → Bool) (d : Str × Json) (decl : List (Str × Json)) (adds : List (Str × Str)) :
    marshalV2 isPrint (d :: decl) adds = objText ((d :: decl).map declMem ++ adds.map (addMem2 isPrint)) := by
  unfold marshalV2
  rw [print_obj, dropLast_obj]
  simp only [List.map_cons]
  have : adds.flatMap (fun e => ',' :: (goQuote isPrint e.1 ++ ':' :: goQuote isPrint e.2)) =
      tailText (adds.map (addMem2 isPrint)) := by
    induction adds with
    | nil => simp [tailText]
    | cons e adds ih => simp only [List.flatMap_cons, ih]; simp [tailText, Mem.text, addMem2, goQuote]
  rw [this]
  simp [objText, tailText_append]

end Verif.AddProps
