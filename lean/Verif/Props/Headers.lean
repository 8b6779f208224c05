import Verif.Model.Headers
import Verif.Model.Send
import Verif.Props.Payload

/-! # C38, C39: headers and correlation ID accessors -/

namespace Verif.Headers

open Verif.Payload (Lib)

/-- A header struct a Go program can hold: each declared field has a value of its type, behind a pointer
exactly if it is generated as one. -/
def Typed {J T : Type} (force : Bool) (fs : List Field) (h : Struct J T) : Prop :=
  ∀ f ∈ fs, (∃ v, h f.key = .plain v ∧ isPointer force f = false ∧ v.kind = f.kind) ∨
    (∃ o, h f.key = .ptr o ∧ isPointer force f = true ∧ ∀ v, o = some v → v.kind = f.kind)

/-- The times in the headers have nothing finer than the wire format expresses. -/
def TimesExact {J T : Type} (lib : Lib J T) (fs : List Field) (h : Struct J T) : Prop :=
  ∀ f ∈ fs, ∀ t, (h f.key).val = some (.time t) → lib.trunc t = t

/-- No object is sent in a header generated as a pointer. -/
def NoPointerObject {J T : Type} (force : Bool) (fs : List Field) (h : Struct J T) : Prop :=
  ∀ f ∈ fs, f.kind = .object → isPointer force f = true → (h f.key).val = none

theorem find_of_mem {fs : List Field} (hnd : (fs.map (·.key)).Nodup) {f : Field} (hf : f ∈ fs) :
    fs.find? (fun g => g.key == f.key) = some f := by
  induction fs with
  | nil => cases hf
  | cons g fs ih =>
    simp only [List.map_cons, List.nodup_cons] at hnd
    simp only [List.mem_cons] at hf
    rcases hf with rfl | hf
    · simp
    · have : g.key ≠ f.key := by
        intro he
        exact hnd.1 (he ▸ List.mem_map_of_mem (f := (·.key)) hf)
      rw [List.find?_cons]
      simp only [beq_eq_false_iff_ne.mpr this]
      exact ih hnd.2 hf

theorem encodeFields_get {J T : Type} (lib : Lib J T) (h : Struct J T) :
    ∀ (fs : List Field) (acc out : GoMap String Bytes), (fs.map (·.key)).Nodup →
    encodeFields lib h fs acc = some out →
    (∀ f ∈ fs, (out.get f.key = match (h f.key).val with
      | none => acc.get f.key
      | some v => encodeVal lib v) ∧ (∀ v, (h f.key).val = some v → (encodeVal lib v).isSome) ∧
      ((h f.key).val = none → f.required = false)) ∧
    (∀ k, k ∉ fs.map (·.key) → out.get k = acc.get k) := by
  intro fs
  induction fs with
  | nil => intro acc out _ he; cases he; simp
  | cons g fs ih =>
    intro acc out hnd he
    simp only [List.map_cons, List.nodup_cons] at hnd
    simp only [encodeFields] at he
    cases hg : encodeField lib h g acc with
    | none => rw [hg] at he; cases he
    | some acc' =>
      rw [hg] at he
      obtain ⟨h1, h2⟩ := ih acc' out hnd.2 he
      -- what the first field did
      have hacc : (acc'.get g.key = match (h g.key).val with
          | none => acc.get g.key
          | some v => encodeVal lib v) ∧ (∀ v, (h g.key).val = some v → (encodeVal lib v).isSome) ∧
          ((h g.key).val = none → g.required = false) ∧ (∀ k, k ≠ g.key → acc'.get k = acc.get k) := by
        unfold encodeField at hg
        cases hv : (h g.key).val with
        | none =>
          simp only [hv] at hg ⊢
          split at hg
          · cases hg
          · rename_i hr
            cases hg
            refine ⟨rfl, ?_, ?_, fun _ _ => rfl⟩
            · intro v hv; cases hv
            · intro _; simpa using hr
        | some v =>
          simp only [hv] at hg ⊢
          cases hb : encodeVal lib v with
          | none => rw [hb] at hg; cases hg
          | some b =>
            rw [hb] at hg
            simp only [Option.map_some, Option.some.injEq] at hg
            subst hg
            refine ⟨by simp, ?_, ?_, ?_⟩
            · intro v' hv'; cases hv'; simp [hb]
            · intro hv'; cases hv'
            · intro k hk; simp [Ne.symm hk]
      refine ⟨?_, ?_⟩
      · intro f hf
        simp only [List.mem_cons] at hf
        rcases hf with rfl | hf
        · refine ⟨?_, hacc.2.1, hacc.2.2.1⟩
          rw [h2 _ hnd.1]; exact hacc.1
        · obtain ⟨a, b, c⟩ := h1 f hf
          refine ⟨?_, b, c⟩
          rw [a]
          have hne : f.key ≠ g.key := by
            intro he'
            exact hnd.1 (he' ▸ List.mem_map_of_mem (f := (·.key)) hf)
          rw [hacc.2.2.2 _ hne]
      · intro k hk
        simp only [List.map_cons, List.mem_cons, not_or] at hk
        rw [h2 k hk.2, hacc.2.2.2 k hk.1]

/-- The decoding loop: if every received declared header decodes, each field holds what its header
decodes to, or what it held before. -/
theorem decodeLoop_spec {J T : Type} (lib : Lib J T) (force : Bool) (fs : List Field)
    (hnd : (fs.map (·.key)).Nodup) (D : Field → Slot J T) :
    ∀ (order : List (String × Bytes)) (h0 : Struct J T), GoMap.WF order →
    (∀ f ∈ fs, ∀ v, (f.key, v) ∈ order → decodeVal lib force f v = some (D f)) →
    ∃ h', decodeLoop lib force fs order h0 = some h' ∧
      ∀ f ∈ fs, h' f.key = match GoMap.get order f.key with
        | none => h0 f.key
        | some _ => D f := by
  intro order
  induction order with
  | nil => intro h0 _ _; exact ⟨h0, rfl, by simp⟩
  | cons e rest ih =>
    intro h0 hwf hdec
    obtain ⟨k, v⟩ := e
    rw [GoMap.wf_cons] at hwf
    have hdec' : ∀ f ∈ fs, ∀ v, (f.key, v) ∈ rest → decodeVal lib force f v = some (D f) :=
      fun f hf v hv => hdec f hf v (List.mem_cons_of_mem _ hv)
    simp only [decodeLoop]
    cases hfind : fs.find? (fun f => f.key == k) with
    | none =>
      obtain ⟨h', h1, h2⟩ := ih h0 hwf.2 hdec'
      refine ⟨h', h1, ?_⟩
      intro f hf
      have hne : k ≠ f.key := by
        rintro rfl
        rw [find_of_mem hnd hf] at hfind; cases hfind
      rw [h2 f hf]
      simp [hne]
    | some g =>
      have hgk : g.key = k := by simpa using List.find?_some hfind
      have hg := List.mem_of_find?_eq_some hfind
      have hd := hdec g hg v (by rw [hgk]; simp)
      simp only [hd]
      obtain ⟨h', h1, h2⟩ := ih (fun k' => if k' = k then D g else h0 k') hwf.2 hdec'
      refine ⟨h', h1, ?_⟩
      intro f hf
      rw [h2 f hf]
      by_cases hk : k = f.key
      · subst hk
        have : f = g := by
          have := find_of_mem hnd hf
          rw [hfind] at this; cases this; rfl
        subst this
        rw [(GoMap.get_eq_none_iff rest f.key).mpr hwf.1]
        simp
      · simp only [GoMap.get_cons, hk, if_false]
        cases GoMap.get rest f.key with
        | none => simp [Ne.symm hk]
        | some _ => rfl

/-- **C38 (partial: no object sent in a header generated as a pointer).** For every header schema, header
values, headers added on the way (`received` has at least the encoded ones, unchanged, and none of the
declared ones that were not sent) and iteration order: decoding succeeds and gives every field back,
required or optional, set or nil. Missing: objects in optional headers, for which it is false (below). -/
theorem C38_headers_survive_partial {J T : Type} (lib : Lib J T) (hlib : lib.Lawful) (z : Zero J T)
    (force : Bool) (fs : List Field) (hnd : (fs.map (·.key)).Nodup) (h : Struct J T) (ht : Typed force fs h)
    (hx : TimesExact lib fs h) (hobj : NoPointerObject force fs h)
    (sent : GoMap String Bytes) (hsent : encode lib fs h = some sent)
    (received : GoMap String Bytes) (hwf : received.WF)
    (hrec : ∀ f ∈ fs, received.get f.key = sent.get f.key)
    (order : List (String × Bytes)) (hord : order.Perm received) :
    ∃ h', decode lib z force fs order = some h' ∧ ∀ f ∈ fs, h' f.key = h f.key := by
  obtain ⟨henc, _⟩ := encodeFields_get lib h fs [] sent hnd hsent
  have hwfo : GoMap.WF order := GoMap.wf_perm hord.symm hwf
  have hget : ∀ f ∈ fs, GoMap.get order f.key = match (h f.key).val with
      | none => none
      | some v => encodeVal lib v := by
    intro f hf
    rw [GoMap.get_perm hord hwfo, hrec f hf, (henc f hf).1]
    rfl
  obtain ⟨h', h1, h2⟩ := decodeLoop_spec lib force fs hnd (fun f => h f.key) order (zeroStruct z force fs) hwfo (by
    intro f hf v hv
    have hg := GoMap.get_of_mem hwfo hv
    rw [hget f hf] at hg
    rcases ht f hf with ⟨w, hw, hp, hk⟩ | ⟨o, ho, hp, hk⟩
    · simp only [hw, Slot.val] at hg
      cases w with
      | str b => simp only [encodeVal, Option.some.injEq] at hg; subst hg; simp only [Val.kind] at hk; simp [decodeVal, hp, ← hk, hw]
      | time t =>
        simp only [encodeVal, Option.some.injEq] at hg; subst hg
        have htr := hx f hf t (by rw [hw]; rfl)
        simp only [Val.kind] at hk
        simp [decodeVal, hp, ← hk, hw, hlib.time, htr]
      | obj j =>
        simp only [encodeVal] at hg
        simp only [Val.kind] at hk
        simp [decodeVal, hp, ← hk, hw, hlib.json j v hg]
    · simp only [ho, Slot.val] at hg
      cases o with
      | none => cases hg
      | some w =>
        have hk := hk w rfl
        cases w with
        | str b => simp only [encodeVal, Option.some.injEq] at hg; subst hg; simp only [Val.kind] at hk; simp [decodeVal, hp, ← hk, ho]
        | time t =>
          simp only [encodeVal, Option.some.injEq] at hg; subst hg
          have htr := hx f hf t (by rw [ho]; rfl)
          simp only [Val.kind] at hk
          simp [decodeVal, hp, ← hk, ho, hlib.time, htr]
        | obj j =>
          have := hobj f hf (by simpa [Val.kind] using hk.symm) hp
          rw [ho] at this; cases this)
  refine ⟨h', h1, ?_⟩
  intro f hf
  rw [h2 f hf, hget f hf]
  cases hv : (h f.key).val with
  | none =>
    simp only
    rcases ht f hf with ⟨w, hw, _, _⟩ | ⟨o, ho, hp, _⟩
    · rw [hw] at hv; cases hv
    · rw [ho] at hv
      simp only [Slot.val] at hv
      subst hv
      rw [ho]
      simp [zeroStruct, find_of_mem hnd hf, zeroSlot, hp]
  | some v =>
    have := (henc f hf).2.1 v hv
    cases hb : encodeVal lib v with
    | none => rw [hb] at this; cases this
    | some b => simp only [hb]

/-- **C38.** A declared header that was not received is absent: the field has the zero value of its type, so that nothing of
another message or another header shows up in it. -/
theorem C38_absent_is_zero {J T : Type} (lib : Lib J T) (z : Zero J T) (force : Bool) (fs : List Field)
    (hnd : (fs.map (·.key)).Nodup) (order : List (String × Bytes)) (h' : Struct J T)
    (hd : decode lib z force fs order = some h') (f : Field) (hf : f ∈ fs) (hn : ∀ e ∈ order, e.1 ≠ f.key) :
    (force = true ∨ f.required = false → h' f.key = .ptr none) ∧
    (force = false → f.required = true →
      (f.kind = .string → h' f.key = .plain (.str [])) ∧ (f.kind = .dateTime → h' f.key = .plain (.time z.time)) ∧
      (f.kind = .object → h' f.key = .plain (.obj z.obj))) := by
  have key : ∀ (order : List (String × Bytes)) (h0 : Struct J T), (∀ e ∈ order, e.1 ≠ f.key) →
      decodeLoop lib force fs order h0 = some h' → h' f.key = h0 f.key := by
    intro order
    induction order with
    | nil => intro h0 _ h; rw [decodeLoop, Option.some.injEq] at h; rw [h]
    | cons e rest ih =>
      intro h0 hn h
      obtain ⟨k, v⟩ := e
      have hk : k ≠ f.key := hn (k, v) (List.mem_cons_self ..)
      have hr : ∀ e ∈ rest, e.1 ≠ f.key := fun e he => hn e (List.mem_cons_of_mem _ he)
      simp only [decodeLoop] at h
      split at h
      · exact ih h0 hr h
      · split at h
        · cases h
        · rw [ih _ hr h, if_neg (Ne.symm hk)]
  have hz := key order _ hn hd
  rw [hz]
  simp only [zeroStruct, find_of_mem hnd hf, zeroSlot, isPointer]
  constructor
  · rintro (h | h) <;> simp [h]
  · intro h1 h2
    refine ⟨fun h => ?_, fun h => ?_, fun h => ?_⟩ <;> simp [h1, h2, h]

/-- **C38.** Encoding fails only when a required field (forced to be a pointer) is nil or JSON cannot
express an object. -/
theorem C38_encoding_fails_only_if {J T : Type} (lib : Lib J T) (fs : List Field) (h : Struct J T)
    (hf : encode lib fs h = none) :
    ∃ f ∈ fs, (f.required = true ∧ (h f.key).val = none) ∨
      (∃ j, (h f.key).val = some (.obj j) ∧ lib.marshal j = none) := by
  unfold encode at hf
  generalize ([] : GoMap String Bytes) = acc at hf
  induction fs generalizing acc with
  | nil => cases hf
  | cons f fs ih =>
    simp only [encodeFields] at hf
    cases he : encodeField lib h f acc with
    | some acc' =>
      rw [he] at hf
      obtain ⟨g, hg, hp⟩ := ih acc' hf
      exact ⟨g, List.mem_cons_of_mem _ hg, hp⟩
    | none =>
      refine ⟨f, by simp, ?_⟩
      unfold encodeField at he
      cases hv : (h f.key).val with
      | none =>
        simp only [hv] at he
        left
        refine ⟨?_, rfl⟩
        cases hr : f.required with
        | true => rfl
        | false => simp [hr] at he
      | some v =>
        simp only [hv, Option.map_eq_none_iff] at he
        right
        cases v with
        | str b => simp [encodeVal] at he
        | time t => simp [encodeVal] at he
        | obj j => exact ⟨j, rfl, he⟩

/-- **C38 is violated:** whenever a declared header is an object generated as a pointer and it was sent,
decoding fails, whatever its contents. -/
theorem C38_violated {J T : Type} (lib : Lib J T) (z : Zero J T) (force : Bool) (fs : List Field)
    (hnd : (fs.map (·.key)).Nodup) (f : Field) (hf : f ∈ fs) (hk : f.kind = .object)
    (hp : isPointer force f = true) (order : List (String × Bytes)) (v : Bytes) (hv : (f.key, v) ∈ order) :
    decode lib z force fs order = none := by
  unfold decode
  generalize zeroStruct z force fs = h0
  induction order generalizing h0 with
  | nil => cases hv
  | cons e rest ih =>
    obtain ⟨k, w⟩ := e
    simp only [decodeLoop]
    simp only [List.mem_cons, Prod.mk.injEq] at hv
    rcases hv with ⟨rfl, rfl⟩ | hv
    · rw [find_of_mem hnd hf]
      simp [decodeVal, hp, hk]
    · cases fs.find? (fun f => f.key == k) with
      | none => exact ih hv h0
      | some g =>
        simp only
        cases decodeVal lib force g w with
        | none => rfl
        | some s => exact ih hv _

/-- An optional string, a required time, an optional object. -/
def fs0 : List Field := [⟨"a", .string, false⟩, ⟨"t", .dateTime, true⟩, ⟨"o", .object, false⟩]

def h0 : Struct Bytes (Nat × Nat) := fun k =>
  if k = "a" then .ptr (some (.str [1])) else if k = "t" then .plain (.time (2, 0)) else .ptr none

/-- Non-vacuity: with an unknown header added and the order changed. -/
example : ∃ h', decode Payload.lib0 ⟨(0, 0), []⟩ false fs0 [("x", [9]), ("a", [1]), ("t", [0, 0])] = some h' ∧
    ∀ f ∈ fs0, h' f.key = h0 f.key := by
  refine C38_headers_survive_partial Payload.lib0 Payload.lib0_lawful ⟨(0, 0), []⟩ false fs0 (by decide) h0 ?_ ?_ ?_
    [("t", [0, 0]), ("a", [1])] (by decide) [("x", [9]), ("t", [0, 0]), ("a", [1])]
    (by simp [GoMap.WF, GoMap.keys]) ?_ _ ?_
  · intro f hf
    simp only [fs0, List.mem_cons, List.not_mem_nil, or_false] at hf
    rcases hf with rfl | rfl | rfl
    · right; exact ⟨some (.str [1]), rfl, rfl, by intro v hv; cases hv; rfl⟩
    · left; exact ⟨.time (2, 0), rfl, rfl, rfl⟩
    · right; exact ⟨none, rfl, rfl, by intro v hv; cases hv⟩
  · intro f hf t
    simp only [fs0, List.mem_cons, List.not_mem_nil, or_false] at hf
    rcases hf with rfl | rfl | rfl
    · intro h; cases h
    · intro h; cases h; rfl
    · intro h; cases h
  · intro f hf
    simp only [fs0, List.mem_cons, List.not_mem_nil, or_false] at hf
    rcases hf with rfl | rfl | rfl <;> (intro hk _; first | rfl | cases hk)
  · intro f hf
    simp only [fs0, List.mem_cons, List.not_mem_nil, or_false] at hf
    rcases hf with rfl | rfl | rfl <;> decide
  · exact List.Perm.cons _ (List.Perm.swap _ _ _)

example : decode Payload.lib0 ⟨(0, 0), []⟩ false fs0 [("o", [1])] = none :=
  C38_violated _ _ _ _ (by decide) ⟨"o", .object, false⟩ (by simp [fs0]) rfl rfl _ [1] (by simp)

/-- No nil pointer on the way to the correlation ID. -/
def Reachable {R : Type} : Tree R → Prop
  | .plain _ => True
  | .opt _ => True
  | .obj _ c => Reachable c
  | .nilPtr => False
  | .ptr _ c => Reachable c

/-- The other fields, level by level. -/
def others {R : Type} : Tree R → List R
  | .plain _ => []
  | .opt _ => []
  | .obj r c => r :: others c
  | .nilPtr => []
  | .ptr r c => r :: others c

/-- **C39 (partial: no nil pointer on the way).** After `SetCorrelationID(id)`, `CorrelationID()` returns
`id` and no other field changed. Missing: optional structs on the way that are nil, for which it is false
(below). -/
theorem C39_set_then_get_partial {R : Type} (id : String) (m : Tree R) (h : Reachable m) :
    ∃ m', setCorr id m = some m' ∧ corr m' = some id ∧ others m' = others m ∧ Reachable m' := by
  induction m with
  | plain _ => exact ⟨.plain id, rfl, rfl, rfl, trivial⟩
  | opt _ => exact ⟨.opt (some id), rfl, rfl, rfl, trivial⟩
  | obj r c ih =>
    obtain ⟨m', h1, h2, h3, h4⟩ := ih h
    exact ⟨.obj r m', by simp [setCorr, h1], h2, by simp [others, h3], h4⟩
  | nilPtr => cases h
  | ptr r c ih =>
    obtain ⟨m', h1, h2, h3, h4⟩ := ih h
    exact ⟨.ptr r m', by simp [setCorr, h1], h2, by simp [others, h3], h4⟩

/-- **C39 (partial: same).** After `SetAsResponseFrom(req)`, `CorrelationID()` is that of `req`. -/
theorem C39_response_correlated_partial {R S : Type} (req : Tree S) (m : Tree R) (hr : Reachable req)
    (hm : Reachable m) :
    ∃ m' id, setAsResponseFrom req m = some m' ∧ corr req = some id ∧ corr m' = some id ∧
      others m' = others m := by
  have hc : ∃ id, corr req = some id := by
    induction req with
    | plain id => exact ⟨id, rfl⟩
    | opt o => cases o <;> exact ⟨_, rfl⟩
    | obj _ c ih => exact ih hr
    | nilPtr => cases hr
    | ptr _ c ih => exact ih hr
  obtain ⟨id, hid⟩ := hc
  obtain ⟨m', h1, h2, h3, _⟩ := C39_set_then_get_partial id m hm
  exact ⟨m', id, by simp [setAsResponseFrom, hid, h1], hid, h2, h3⟩

/-- **C39 is violated:** when an optional struct on the way is nil, as it is in every new message (of `NewX`,
message.tmpl:41-51), reading and setting both dereference nil. -/
theorem C39_violated {R : Type} (r : R) : corr (.obj r (.nilPtr : Tree R)) = none ∧
    setCorr "id" (.obj r (.nilPtr : Tree R)) = none := ⟨rfl, rfl⟩

/-- The accessors of messages without optional struct on the way satisfy the law assumed of message types
in C19–C24. -/
theorem C39_lawful_message_type {R : Type} (new : { m : Tree R // Reachable m })
    (encode : { m : Tree R // Reachable m } → Except Send.GoErr BrokerMessage)
    (decode : BrokerMessage → { m : Tree R // Reachable m } × Option Send.GoErr) :
    ∃ ty : Send.MsgType { m : Tree R // Reachable m }, ty.Lawful ∧ ty.new = new ∧ ty.encode = encode ∧
      ty.decode = decode ∧ (∀ m, corr m.1 = some (ty.corr m)) ∧ (∀ m id, setCorr id m.1 = some (ty.setCorr m id).1) := by
  have hc : ∀ m : { m : Tree R // Reachable m }, (corr m.1).isSome := by
    rintro ⟨m, hm⟩
    induction m with
    | plain id => rfl
    | opt o => cases o <;> rfl
    | obj _ c ih => exact ih hm
    | nilPtr => cases hm
    | ptr _ c ih => exact ih hm
  have hs : ∀ (m : { m : Tree R // Reachable m }) (id : String), (setCorr id m.1).isSome := by
    rintro ⟨m, hm⟩ id
    obtain ⟨m', h1, _⟩ := C39_set_then_get_partial id m hm
    simp [h1]
  have hsr : ∀ (m : { m : Tree R // Reachable m }) (id : String), Reachable ((setCorr id m.1).get (hs m id)) := by
    rintro ⟨m, hm⟩ id
    obtain ⟨m', h1, _, _, h4⟩ := C39_set_then_get_partial id m hm
    simpa [h1] using h4
  refine ⟨⟨new, fun m => (corr m.1).get (hc m), fun m id => ⟨(setCorr id m.1).get (hs m id), hsr m id⟩, encode, decode⟩,
    ?_, rfl, rfl, rfl, ?_, ?_⟩
  · rintro ⟨m, hm⟩ id
    obtain ⟨m', h1, h2, _, _⟩ := C39_set_then_get_partial id m hm
    simp [h1, h2]
  · intro m; simp
  · intro m id; simp

example : Reachable (.obj 1 (.ptr 2 (.opt none)) : Tree Nat) := by simp [Reachable]

end Verif.Headers
