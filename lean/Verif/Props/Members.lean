import Verif.Model.Members
import Verif.Props.Naming
import Verif.Props.Keys

/-!
# C132: the properties of an object become different fields of its struct

For keys of small words, exactly when the words differ and none of the keys has the words of a name the templates write
themselves.
-/

namespace Verif.Members

open Naming (Uni Bytes namify Word Words text capWord)
open Names (lit)
open Strcase (Conversion convertKey)

/-- What the Go compiler asks for: fields have different names, no field has the name of a method, the constants of a switch
differ; and no field is left without a name, which would embed its type. -/
def Fine (fields methods cases : List Bytes) : Prop :=
  fields.Nodup ∧ (∀ f ∈ fields, f ∉ methods) ∧ cases.Nodup ∧ [] ∉ fields

/-- The struct of an object is fine. -/
def ObjFine (u : Uni) (c : Conversion) (o : Obj) : Prop := ∃ l, fields u o = some l ∧ Fine l (methods o) (cases c o)

/-- Each key is a text of small words, at least one of them. -/
def Keys (kws : List (List (Bytes × Bytes))) : Prop := ∀ ws ∈ kws, Words ws ∧ ws ≠ []

/-- The words of each key. -/
def words (kws : List (List (Bytes × Bytes))) : List (List Bytes) := kws.map (fun ws => ws.map (·.2))

/-- The words that give a name of the templates. -/
def taken : List (List Bytes) :=
  [[lit "additional", lit "properties"], [lit "marshal", lit "j", lit "s", lit "o", lit "n"],
   [lit "unmarshal", lit "j", lit "s", lit "o", lit "n"]]

/-- The Go name of some words. -/
def goName (ws : List Bytes) : Bytes := ws.flatMap capWord

theorem names_words (u : Uni) (kws : List (List (Bytes × Bytes))) (h : Keys kws) :
    names u (kws.map text) = some ((words kws).map goName) := by
  induction kws with
  | nil => rfl
  | cons ws kws ih =>
    have e : ws.flatMap (fun e => capWord e.2) = goName (ws.map (·.2)) := by unfold goName; rw [List.flatMap_map]
    rw [List.map_cons, names, Naming.namify_text u ws (h ws (.head _)).1, e, ih fun x hx => h x (.tail _ hx)]
    rfl

theorem words_ok {kws : List (List (Bytes × Bytes))} (h : Keys kws) : ∀ ws ∈ words kws, (∀ w ∈ ws, Word w) ∧ ws ≠ [] := by
  intro ws hws
  obtain ⟨x, hx, rfl⟩ := List.mem_map.mp hws
  refine ⟨fun w hw => ?_, by simpa using (h x hx).2⟩
  obtain ⟨e, he, rfl⟩ := List.mem_map.mp hw
  exact ((h x hx).1.1 e he).1

theorem word_of {w : Bytes} (h : (match w with | [] => false | b :: t => Naming.isLower b && t.all (fun c => Naming.isLower c || Naming.isDigit c)) = true) :
    Word w := by
  cases w with
  | nil => cases h
  | cons b t =>
    simp only [Bool.and_eq_true, List.all_eq_true, Bool.or_eq_true] at h
    exact ⟨b, t, rfl, h.1, h.2⟩

theorem taken_words : ∀ ws ∈ taken, ∀ w ∈ ws, Word w := by
  intro ws hws w hw
  apply word_of
  revert w
  revert ws
  decide

theorem nodup_goName {l : List (List Bytes)} (h : ∀ ws ∈ l, ∀ w ∈ ws, Word w) : (l.map goName).Nodup ↔ l.Nodup := by
  induction l with
  | nil => simp
  | cons a l ih =>
    rw [List.map_cons, List.nodup_cons, List.nodup_cons, ih fun ws hws => h ws (.tail _ hws)]
    refine and_congr_left fun _ => not_congr ?_
    constructor
    · intro hm
      obtain ⟨b, hb, e⟩ := List.mem_map.mp hm
      have : b = a := Naming.flatMap_capWord_inj b a (h b (.tail _ hb)) (h a (.head _)) e
      exact this ▸ hb
    · exact fun hm => List.mem_map_of_mem hm

theorem mem_goName {l : List (List Bytes)} (h : ∀ ws ∈ l, ∀ w ∈ ws, Word w) {a : List Bytes} (ha : ∀ w ∈ a, Word w) :
    goName a ∈ l.map goName ↔ a ∈ l := by
  constructor
  · intro hm
    obtain ⟨b, hb, e⟩ := List.mem_map.mp hm
    have : b = a := Naming.flatMap_capWord_inj b a (h b hb) ha e
    exact this ▸ hb
  · exact fun hm => List.mem_map_of_mem hm

theorem goName_ne_nil {ws : List Bytes} (h : ∀ w ∈ ws, Word w) (hne : ws ≠ []) : goName ws ≠ [] := by
  cases ws with
  | nil => exact absurd rfl hne
  | cons w ws =>
    obtain ⟨b, t, rfl, _⟩ := h w (.head _)
    simp [goName, capWord]

/-- Partial: keys of small words. The struct of an object without additional properties, and that of the parameters of a
channel, is fine exactly when no two keys have the same words. -/
theorem C132_plain_partial (u : Uni) (c : Conversion) (kws : List (List (Bytes × Bytes))) (h : Keys kws) :
    ObjFine u c ⟨kws.map text, false⟩ ↔ (words kws).Nodup := by
  have hw := words_ok h
  have hf : fields u ⟨kws.map text, false⟩ = some ((words kws).map goName) := by
    unfold fields
    simp [names_words u kws h]
  unfold ObjFine
  rw [hf]
  simp only [Option.some.injEq, exists_eq_left', Fine, methods, cases, Bool.false_eq_true, if_false, List.not_mem_nil,
    not_false_eq_true, implies_true, List.nodup_nil, true_and, nodup_goName fun ws hws => (hw ws hws).1]
  refine ⟨fun h => h.1, fun h => ⟨h, fun hm => ?_⟩⟩
  obtain ⟨ws, hws, e⟩ := List.mem_map.mp hm
  exact goName_ne_nil (hw ws hws).1 (hw ws hws).2 e

/-- Partial: keys of small words. The struct of an object with additional properties is fine exactly when no two keys have the
same words, no key has the words of `AdditionalProperties`, `MarshalJSON` or `UnmarshalJSON`, and the converted keys
differ. -/
theorem C132_additional_partial (u : Uni) (c : Conversion) (kws : List (List (Bytes × Bytes))) (h : Keys kws) :
    ObjFine u c ⟨kws.map text, true⟩ ↔
      (words kws).Nodup ∧ (∀ ws ∈ words kws, ws ∉ taken) ∧ ((kws.map text).map (convertKey c)).Nodup := by
  have hw := words_ok h
  have hw1 : ∀ ws ∈ words kws, ∀ w ∈ ws, Word w := fun ws hws => (hw ws hws).1
  have hf : fields u ⟨kws.map text, true⟩ = some ((words kws).map goName ++ [lit "AdditionalProperties"]) := by
    unfold fields
    simp [names_words u kws h]
  have e1 : lit "AdditionalProperties" = goName [lit "additional", lit "properties"] := by decide
  have e2 : lit "MarshalJSON" = goName [lit "marshal", lit "j", lit "s", lit "o", lit "n"] := by decide
  have e3 : lit "UnmarshalJSON" = goName [lit "unmarshal", lit "j", lit "s", lit "o", lit "n"] := by decide
  have m1 := mem_goName hw1 (taken_words [lit "additional", lit "properties"] (by simp [taken]))
  have m2 := mem_goName hw1 (taken_words [lit "marshal", lit "j", lit "s", lit "o", lit "n"] (by simp [taken]))
  have m3 := mem_goName hw1 (taken_words [lit "unmarshal", lit "j", lit "s", lit "o", lit "n"] (by simp [taken]))
  rw [← e1] at m1
  rw [← e2] at m2
  rw [← e3] at m3
  unfold ObjFine
  rw [hf]
  simp only [Option.some.injEq, exists_eq_left', Fine, methods, cases, if_true]
  have hnd : ((words kws).map goName ++ [lit "AdditionalProperties"]).Nodup ↔
      (words kws).Nodup ∧ [lit "additional", lit "properties"] ∉ words kws := by
    rw [← m1, ← nodup_goName hw1, List.nodup_append]
    constructor
    · rintro ⟨a, _, d⟩
      exact ⟨a, fun hm => d _ hm _ (.head _) rfl⟩
    · rintro ⟨a, b⟩
      refine ⟨a, by simp, fun x hx y hy e => b ?_⟩
      rw [List.mem_singleton.mp hy] at e
      exact e ▸ hx
  have hmeth : (∀ f ∈ (words kws).map goName ++ [lit "AdditionalProperties"], f ∉ [lit "MarshalJSON", lit "UnmarshalJSON"]) ↔
      [lit "marshal", lit "j", lit "s", lit "o", lit "n"] ∉ words kws ∧
        [lit "unmarshal", lit "j", lit "s", lit "o", lit "n"] ∉ words kws := by
    rw [← m2, ← m3]
    constructor
    · intro hh
      exact ⟨fun hm => hh _ (List.mem_append_left _ hm) (.head _), fun hm => hh _ (List.mem_append_left _ hm) (.tail _ (.head _))⟩
    · rintro ⟨a, b⟩ f hf hm
      rcases List.mem_append.mp hf with hf | hf
      · rcases List.mem_cons.mp hm with rfl | hm
        · exact a hf
        · rw [List.mem_singleton.mp hm] at hf; exact b hf
      · rw [List.mem_singleton.mp hf] at hm
        revert hm
        decide
  have hne : [] ∉ (words kws).map goName ++ [lit "AdditionalProperties"] := by
    intro hm
    rcases List.mem_append.mp hm with hm | hm
    · obtain ⟨ws, hws, e⟩ := List.mem_map.mp hm
      exact goName_ne_nil (hw ws hws).1 (hw ws hws).2 e
    · revert hm; decide
  have htaken : (∀ ws ∈ words kws, ws ∉ taken) ↔ [lit "additional", lit "properties"] ∉ words kws ∧
      [lit "marshal", lit "j", lit "s", lit "o", lit "n"] ∉ words kws ∧
        [lit "unmarshal", lit "j", lit "s", lit "o", lit "n"] ∉ words kws := by
    constructor
    · intro hh
      exact ⟨fun hm => hh _ hm (by simp [taken]), fun hm => hh _ hm (by simp [taken]), fun hm => hh _ hm (by simp [taken])⟩
    · rintro ⟨a, b, d⟩ ws hws hm
      simp only [taken, List.mem_cons, List.not_mem_nil, or_false] at hm
      rcases hm with rfl | rfl | rfl
      · exact a hws
      · exact b hws
      · exact d hws
  rw [hnd, hmeth, htaken]
  constructor
  · rintro ⟨⟨a, b⟩, ⟨d, e⟩, f, _⟩; exact ⟨a, ⟨b, d, e⟩, f⟩
  · rintro ⟨a, ⟨b, d, e⟩, f⟩; exact ⟨⟨a, b⟩, ⟨d, e⟩, f, hne⟩

/-- The same text would give the same name, hence the same words. -/
theorem nodup_text (u : Uni) (kws : List (List (Bytes × Bytes))) (h : Keys kws) (a : (words kws).Nodup) :
    (kws.map text).Nodup := by
  induction kws with
  | nil => simp
  | cons ws kws ih =>
    unfold words at a
    rw [List.map_cons, List.nodup_cons] at a ⊢
    refine ⟨fun hm => a.1 ?_, ih (fun x hx => h x (.tail _ hx)) a.2⟩
    obtain ⟨x, hx, e⟩ := List.mem_map.mp hm
    refine List.mem_map.mpr ⟨x, hx, ?_⟩
    refine (Naming.C43_same_name_iff_same_words_partial u x ws (h x (.tail _ hx)).1 (h ws (.head _)).1).mp ?_
    rw [e]

/-- Keys of small words are written and read as they are without a conversion, so that only the words count. -/
theorem C132_unconverted_partial (u : Uni) (kws : List (List (Bytes × Bytes))) (h : Keys kws) :
    ObjFine u .none ⟨kws.map text, true⟩ ↔ (words kws).Nodup ∧ ∀ ws ∈ words kws, ws ∉ taken := by
  rw [C132_additional_partial u .none kws h]
  have e : (kws.map text).map (convertKey .none) = kws.map text := by
    show (kws.map text).map id = _
    rw [List.map_id]
  rw [e]
  refine ⟨fun ⟨a, b, _⟩ => ⟨a, b⟩, fun ⟨a, b⟩ => ⟨a, b, ?_⟩⟩
  exact nodup_text u kws h a

/-! ## Where it is false -/

theorem names_mem {u : Uni} {ks l : List Bytes} (h : names u ks = some l) {k : Bytes} (hk : k ∈ ks) {n : Bytes}
    (hn : namify u k = some n) : n ∈ l := by
  induction ks generalizing l with
  | nil => cases hk
  | cons a ks ih =>
    rw [names] at h
    cases ha : namify u a with
    | none => rw [ha] at h; cases h
    | some m =>
      cases hr : names u ks with
      | none => rw [ha, hr] at h; cases h
      | some r =>
        rw [ha, hr] at h
        cases h
        rcases List.mem_cons.mp hk with rfl | hk
        · rw [hn] at ha; cases ha; exact .head _
        · exact .tail _ (ih hr hk)

theorem namify_lit (u : Uni) (s : Bytes) (h : (s.all (fun b => decide (b < 128))) = true) :
    namify u s = some (Naming.finish (Naming.cap 95 s)) := by
  apply Naming.namify_ascii
  intro b hb
  exact of_decide_eq_true (List.all_eq_true.mp h b hb)

/-- An object with additional properties and a property called so does not compile, whatever its other properties. -/
theorem C132_violated_additional (u : Uni) (c : Conversion) (keys : List Bytes)
    (h : lit "additionalProperties" ∈ keys ∨ lit "additional_properties" ∈ keys) : ¬ ObjFine u c ⟨keys, true⟩ := by
  rintro ⟨l, hl, hnd, _⟩
  unfold fields at hl
  cases hn : names u keys with
  | none => simp [hn] at hl
  | some r =>
    have hm : lit "AdditionalProperties" ∈ r := by
      rcases h with h | h
      · exact names_mem hn h (by rw [namify_lit u _ (by decide)]; decide)
      · exact names_mem hn h (by rw [namify_lit u _ (by decide)]; decide)
    simp only [hn, Option.map_some, if_true, Option.some.injEq] at hl
    subst hl
    exact (List.nodup_append.mp hnd).2.2 _ hm _ (.head _) rfl

/-- Nor with a property whose field has the name of a method. -/
theorem C132_violated_method (u : Uni) (c : Conversion) (keys : List Bytes)
    (h : lit "marshalJSON" ∈ keys ∨ lit "UnmarshalJSON" ∈ keys) : ¬ ObjFine u c ⟨keys, true⟩ := by
  rintro ⟨l, hl, _, hm, _⟩
  unfold fields at hl
  cases hn : names u keys with
  | none => simp [hn] at hl
  | some r =>
    simp only [hn, Option.map_some, if_true, Option.some.injEq] at hl
    subst hl
    rcases h with h | h
    · exact hm (lit "MarshalJSON")
        (List.mem_append_left _ (names_mem hn h (by rw [namify_lit u _ (by decide)]; decide))) (.head _)
    · exact hm (lit "UnmarshalJSON")
        (List.mem_append_left _ (names_mem hn h (by rw [namify_lit u _ (by decide)]; decide))) (.tail _ (.head _))

/-- With any conversion of keys, two properties with different fields have the same case in the switch of an object with
additional properties, which does not compile; without additional properties the struct is fine. -/
theorem C132_violated_case (u : Uni) (c : Conversion) (hc : c ≠ .none) :
    ¬ ObjFine u c ⟨[lit "userID", lit "user_id"], true⟩ ∧ ObjFine u c ⟨[lit "userID", lit "user_id"], false⟩ ∧
      ObjFine u .none ⟨[lit "userID", lit "user_id"], true⟩ := by
  have hn : names u [lit "userID", lit "user_id"] = some [lit "UserID", lit "UserId"] := by
    have h1 : namify u (lit "userID") = some (lit "UserID") := by rw [namify_lit u _ (by decide)]; decide
    have h2 : namify u (lit "user_id") = some (lit "UserId") := by rw [namify_lit u _ (by decide)]; decide
    simp [names, h1, h2]
  refine ⟨?_, ⟨[lit "UserID", lit "UserId"], by simp [fields, hn], by unfold Fine; cases c <;> decide⟩,
    ⟨[lit "UserID", lit "UserId", lit "AdditionalProperties"], by simp [fields, hn], by unfold Fine; decide⟩⟩
  rintro ⟨l, _, _, _, hcs, _⟩
  revert hcs
  cases c with
  | none => exact absurd rfl hc
  | _ => decide

/-- A property whose key has no letters gets a field without a name. -/
theorem C132_violated_unnamed (u : Uni) (c : Conversion) (keys : List Bytes) (b : Bool) (h : lit "42" ∈ keys) :
    ¬ ObjFine u c ⟨keys, b⟩ := by
  rintro ⟨l, hl, _, _, _, hne⟩
  unfold fields at hl
  cases hn : names u keys with
  | none => simp [hn] at hl
  | some r =>
    simp only [hn, Option.map_some, Option.some.injEq] at hl
    subst hl
    exact hne (List.mem_append_left _ (names_mem hn h (by rw [namify_lit u _ (by decide)]; decide)))

/-! ## Examples -/

def exKeys : List (List (Bytes × Bytes)) :=
  [[([], lit "user"), (lit "_", lit "id")], [([], lit "properties")], [([], lit "additional"), (lit "-", lit "data")]]

theorem exKeys_ok : Keys exKeys := by
  have hb : ∀ ws ∈ exKeys, (∀ e ∈ ws, (match e.2 with | [] => false | b :: t => Naming.isLower b && t.all (fun c => Naming.isLower c || Naming.isDigit c)) = true ∧
      ∀ c ∈ e.1, c < 128 ∧ Naming.isAlnum c = false) ∧ (∀ e ∈ ws.tail, e.1 ≠ []) ∧ ws ≠ [] := by decide
  intro ws hws
  obtain ⟨h1, h2, h3⟩ := hb ws hws
  exact ⟨⟨fun e he => ⟨word_of (h1 e he).1, (h1 e he).2⟩, h2⟩, h3⟩

/-- `user_id`, `properties` and `additional-data` next to additional properties. -/
example (u : Uni) : ObjFine u .none ⟨exKeys.map text, true⟩ := (C132_unconverted_partial u exKeys exKeys_ok).mpr (by decide)

example (u : Uni) : ObjFine u .snake ⟨exKeys.map text, true⟩ := (C132_additional_partial u .snake exKeys exKeys_ok).mpr (by decide)

example (u : Uni) (c : Conversion) : ObjFine u c ⟨exKeys.map text, false⟩ := (C132_plain_partial u c exKeys exKeys_ok).mpr (by decide)

end Verif.Members
