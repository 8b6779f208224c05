import Verif.Props.CorrFns

/-! # C108: the address of a reply in a message that the operation lists -/

namespace Verif.ReplyLoc

open CorrTree CorrFns

/-- **C108 (partial: a listed message whose location exists and is optional).** For every document, every operation that lists
its messages by reference and every location that leads through required structs, behind references or not, to an optional
string of the first of them: the code that reads the address compiles, and for every request it gives the text that is there,
or `ErrChannelAddressEmpty` if there is none. It never panics. -/
theorem C108_listed_partial (d : Doc) (nm : Str → Str) (hn : NamesParts nm) (op : Op) (k : Nat) (rest : List Nat)
    (inHeaders : Bool) (ts : List Str) (hne : ts ≠ []) (hp : ∀ t ∈ ts, Plain t) (h1 : op.messages = k :: rest) (t : Tree)
    (ht : part inHeaders (d.msgs k).parts = some t) (h : Through d.schemas nm false t ts) :
    generated d nm false op (location inHeaders ts) = some (true, d.schemas, (d.msgs k).parts, false) ∧
      ∀ v, FitsMsg d.schemas nm inHeaders (d.msgs k).parts (ts.map nm) v →
        address false v (attributes nm (location inHeaders ts)) = .ok (textAt v (partField inHeaders :: ts.map nm)) := by
  constructor
  · rw [generated_listed d nm false op k rest inHeaders ts hne (fun t ht => (hp t ht).1) h1, compiles_part d.schemas nm hn false _
      inHeaders ts hne hp t ht]
    obtain ⟨c, hc, hty⟩ := through_typeOf d.schemas nm _ ts _ h
    rw [hc]
    simp [hty]
  · rintro v ⟨t', fs, w, ht', rfl, hw, hf⟩
    rw [ht] at ht'
    cases ht'
    have hs := through_reads d.schemas nm false ts t w h hf
    rw [attributes_location nm hn inHeaders ts hne hp]
    have e1 : sels (.struct fs) (partField inHeaders :: ts.map nm) = sels w (ts.map nm) := by simp only [sels, sel, hw]
    have e2 : textAt (.struct fs) (partField inHeaders :: ts.map nm) = textAt w (ts.map nm) := by rw [textAt_struct, hw]
    unfold address
    rw [e1, e2]
    rcases hs with ⟨h1, h2⟩ | ⟨s, h1, h2⟩
    · rw [h1, h2]; rfl
    · rw [h1, h2]; rfl

/-- A message with an optional header `replyTo`. -/
def optionalReply : Doc := ⟨fun _ => ⟨none, ⟨some (obj [] [(kReplyTo, str)]), none⟩⟩, fun _ => str⟩

example : generated optionalReply capital false ⟨[0], []⟩ (location true [kReplyTo]) =
    some (true, optionalReply.schemas, (optionalReply.msgs 0).parts, false) :=
  (C108_listed_partial optionalReply capital capital_names ⟨[0], []⟩ 0 [] true [kReplyTo] (by simp) plain_replyTo rfl _ rfl
    ⟨_, str, rfl, rfl, by rw [if_pos rfl]; exact ⟨rfl, rfl⟩⟩).1

example : FitsMsg optionalReply.schemas capital true (optionalReply.msgs 0).parts [capital kReplyTo]
    (.struct [("Headers".toList, .struct [(capital kReplyTo, .ptr (.text "a"))])]) :=
  ⟨_, _, _, rfl, rfl, rfl, _, kReplyTo, str, _, _, rfl, rfl, rfl, rfl, Or.inr ⟨_, rfl, "a", rfl⟩⟩

end Verif.ReplyLoc
