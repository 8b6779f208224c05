import Verif.Proofs.MsgText

/-! # C89: the text of broker messages -/

namespace Verif.MsgText

open Json
open AddProps (SafeChar)

/-- The JSON object that shows a message: the headers if there are any, and the payload. -/
def shown (hs : List (Str × Str)) (payload : Json) : Json :=
  match hs with
  | [] => .obj [("payload".toList, payload)]
  | hs => .obj [("headers".toList, .obj (hs.map (fun e => (e.1, .str e.2)))), ("payload".toList, payload)]

/-- **C89 (telling messages apart).** Whatever the headers and payloads contain, messages with the same text have the same
headers and the same payload. -/
theorem C89_tells_apart (isPrint : Char → Bool) (as bs : List (Str × Str)) (p q : Str)
    (h : text isPrint as p = text isPrint bs q) : as = bs ∧ p = q := text_inj h

/-- **C89, partial (JSON payloads, and headers `%q` writes like JSON does).** The text is a JSON object with exactly the
headers and the payload. Missing: other payloads and headers, for which it is false (below). -/
theorem C89_json_partial (isPrint : Char → Bool) (hs : List (Str × Str)) (payload : Json) (hv : Valid payload)
    (hh : ∀ e ∈ hs, (∀ c ∈ e.1, SafeChar isPrint c) ∧ ∀ c ∈ e.2, SafeChar isPrint c) :
    parse (text isPrint hs (print payload)) = some (shown hs payload) := by
  have hp : (payloadMem payload).Reads := AddProps.declMem_reads _ hv
  rw [text_objText]
  cases hs with
  | nil =>
    rw [if_pos rfl, AddProps.parse_objText _ (by simpa using hp)]
    simp [payloadMem, AddProps.declMem, shown]
  | cons e hs =>
    rw [if_neg (by simp), AddProps.parse_objText]
    · simp [payloadMem, AddProps.declMem, shown, headersMem]
    · intro m hm
      simp only [List.mem_cons, List.not_mem_nil, or_false] at hm
      rcases hm with rfl | rfl
      · exact headersMem_reads isPrint e hs hh
      · exact hp

/-- **C89 is violated** (one message, several texts): exchanging two different headers in the order of iteration changes
the text, and Go does not fix this order. -/
theorem C89_violated_order (isPrint : Char → Bool) (a b : Str × Str) (hab : a ≠ b) (p : Str) :
    text isPrint [a, b] p ≠ text isPrint [b, a] p := by
  intro h
  have := (text_inj h).1
  simp only [List.cons.injEq, and_true] at this
  exact hab this.1

def printable : Char → Bool := fun _ => true

/-- **C89 is violated** (headers): the text of a message with a zero byte in a header is not JSON. -/
theorem C89_violated_header :
    (parse (text printable [("id".toList, [Char.ofNat 0])] "1".toList)).isNone = true := by decide

/-- **C89 is violated** (payloads): the text of a message whose payload is empty, or is plain text, is not JSON. -/
theorem C89_violated_payload :
    (parse (text printable [] [])).isNone = true ∧ (parse (text printable [] "hello".toList)).isNone = true := by decide

/-- **C89 is violated** (payloads that pass for headers): the text of this message without headers reads as JSON with a
header. -/
theorem C89_violated_forged :
    parse (text printable [] "1,\"headers\":{\"a\":\"b\"}".toList) =
      some (.obj [("payload".toList, .num ['1']), ("headers".toList, .obj [("a".toList, .str "b".toList)])]) := by
  have e : text printable [] "1,\"headers\":{\"a\":\"b\"}".toList =
      print (.obj [("payload".toList, .num ['1']), ("headers".toList, .obj [("a".toList, .str "b".toList)])]) := by rfl
  rw [e, parse_print]
  simp [Valid, ValidMembers]
  decide

example : text printable [("id".toList, "7".toList), ("a\"b".toList, "é\n".toList)] (print (.obj [("x".toList, .num "1".toList)])) =
    "{\"headers\":{\"id\":\"7\",\"a\\\"b\":\"é\\n\"},\"payload\":{\"x\":1}}".toList := by decide

example : ∀ e ∈ [("id".toList, "7".toList), ("a\"b".toList, "é\n".toList)],
    (∀ c ∈ e.1, SafeChar printable c) ∧ ∀ c ∈ e.2, SafeChar printable c := by
  intro e he
  simp only [List.mem_cons, List.not_mem_nil, or_false] at he
  rcases he with rfl | rfl <;> refine ⟨?_, ?_⟩ <;> intro c hc <;> refine ⟨?_, ?_, fun _ => rfl⟩ <;> revert c <;> decide

end Verif.MsgText
