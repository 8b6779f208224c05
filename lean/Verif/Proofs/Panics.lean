import Verif.Spec.Panics

/-! # No panic on tame documents: an invariant of the heap -/

namespace Verif.Panics

/-- What stays of the document: properties, payloads and headers are never replaced. -/
def SchRel (h0 : Heap) (C : Str → Prop) (a : Nat) (s : Sch) : Prop :=
  SchemaOk C s ∧ (a < h0.next → ∀ k p, (h0.schemas a).props.get k = some p → s.props.get k = some p)

def MsgRel (h0 : Heap) (C : Str → Prop) (a : Nat) (m : Msg) : Prop :=
  MessageOk C m ∧ (∀ b, (h0.messages a).payload = some b → m.payload = some b) ∧
    (∀ b, (h0.messages a).headers = some b → m.headers = some b) ∧ (m.ref = [] ∨ m.ref = (h0.messages a).ref)

/-- Operations: only tags, security and the target of the reference change. -/
structure OpRel (h0 : Heap) (C : Str → Prop) (a : Nat) (o : Op) : Prop where
  ref : o.ref = (h0.operations a).ref
  channel : o.channel = (h0.operations a).channel
  leaf : o.leaf = (h0.operations a).leaf
  traits : o.traits = (h0.operations a).traits
  messages : o.messages = (h0.operations a).messages
  reply : o.reply = (h0.operations a).reply
  refTo : o.ref = [] → o.refTo = none
  tags : NamedOk C o.tags
  security : NamedOk C o.security

/-- Objects of which only the target of the reference changes. -/
def MTraitRel (h0 : Heap) (a : Nat) (x : MTrait) : Prop := ∃ r, x = { h0.messageTraits a with refTo := r }
def OTraitRel (h0 : Heap) (a : Nat) (x : OTrait) : Prop := ∃ r, x = { h0.operationTraits a with refTo := r }
def ChanRel (h0 : Heap) (a : Nat) (x : Chan) : Prop := ∃ r, x = { h0.channels a with refTo := r }
def ReplyRel (h0 : Heap) (a : Nat) (x : Reply) : Prop := ∃ r, x = { h0.replies a with refTo := r }
def AddrRel (h0 : Heap) (a : Nat) (x : Addr) : Prop := ∃ r, x = { h0.addresses a with refTo := r }

structure Inv (h0 : Heap) (C : Str → Prop) (h : Heap) : Prop where
  schemas : ∀ a, SchRel h0 C a (h.schemas a)
  messages : ∀ a, MsgRel h0 C a (h.messages a)
  messageTraits : ∀ a, MTraitRel h0 a (h.messageTraits a)
  operationTraits : ∀ a, OTraitRel h0 a (h.operationTraits a)
  channels : ∀ a, ChanRel h0 a (h.channels a)
  operations : ∀ a, OpRel h0 C a (h.operations a)
  replies : ∀ a, ReplyRel h0 a (h.replies a)
  addresses : ∀ a, AddrRel h0 a (h.addresses a)
  next : h0.next ≤ h.next

theorem Inv.init {h0 : Heap} {d : Doc} (t : Tame h0 d) : Inv h0 (Calm h0 d) h0 where
  schemas a := ⟨t.schemas a, fun _ _ _ h => h⟩
  messages a := ⟨t.messages a, fun _ h => h, fun _ h => h, .inr rfl⟩
  messageTraits _ := ⟨_, rfl⟩
  operationTraits _ := ⟨_, rfl⟩
  channels _ := ⟨_, rfl⟩
  operations a := ⟨rfl, rfl, rfl, rfl, rfl, rfl, fun _ => (t.operations a).fresh, (t.operations a).tags, (t.operations a).security⟩
  replies _ := ⟨_, rfl⟩
  addresses _ := ⟨_, rfl⟩
  next := Nat.le_refl _

/-- `m` does not panic and keeps the invariant; its result satisfies `Q`. -/
def Safe (h0 : Heap) (C : Str → Prop) {α : Type} (m : M α) (Q : α → Prop) : Prop :=
  ∀ h, Inv h0 C h → match m h with
    | .ok (a, h') => Inv h0 C h' ∧ Q a
    | .error e => e ≠ .panic

section
variable {h0 : Heap} {C : Str → Prop}

theorem Safe.pure {α : Type} {a : α} {Q : α → Prop} (h : Q a) : Safe h0 C (Pure.pure a : M α) Q :=
  fun _ hi => ⟨hi, h⟩

theorem Safe.bind {α β : Type} {m : M α} {f : α → M β} {P : α → Prop} {Q : β → Prop} (hm : Safe h0 C m P)
    (hf : ∀ a, P a → Safe h0 C (f a) Q) : Safe h0 C (m >>= f) Q := by
  intro h hi
  have h1 := hm h hi
  show match (StateT.bind m f h : Except Bad (β × Heap)) with
    | .ok (a, h') => Inv h0 C h' ∧ Q a
    | .error e => e ≠ .panic
  unfold StateT.bind
  cases hr : m h with
  | error e => rw [hr] at h1; exact h1
  | ok x =>
    rw [hr] at h1
    obtain ⟨a, h'⟩ := x
    exact hf a h1.2 h' h1.1

theorem Safe.weaken {α : Type} {m : M α} {P Q : α → Prop} (hm : Safe h0 C m P) (h : ∀ a, P a → Q a) : Safe h0 C m Q := by
  intro hp hi
  have h1 := hm hp hi
  cases hr : m hp with
  | error e => rw [hr] at h1; exact h1
  | ok x => rw [hr] at h1; exact ⟨h1.1, h _ h1.2⟩

/-- Sequencing without a result. -/
theorem Safe.seq {α β : Type} {m : M α} {f : α → M β} {P : α → Prop} {Q : β → Prop} (hm : Safe h0 C m P)
    (hf : ∀ a, Safe h0 C (f a) Q) : Safe h0 C (m >>= f) Q := hm.bind fun a _ => hf a

theorem Safe.fail {α : Type} {Q : α → Prop} : Safe h0 C (fail : M α) Q := fun _ _ => by
  show Bad.err ≠ .panic; decide
theorem Safe.tooDeep {α : Type} {Q : α → Prop} : Safe h0 C (tooDeep : M α) Q := fun _ _ => by
  show Bad.deep ≠ .panic; decide

theorem Safe.deref {p : Ptr} (h : p ≠ none) : Safe h0 C (deref p) (fun a => p = some a) := by
  cases p with
  | none => exact absurd rfl h
  | some a => exact Safe.pure rfl

theorem Safe.sch (a : Nat) : Safe h0 C (sch a) (SchRel h0 C a) := fun _ hi => ⟨hi, hi.schemas a⟩
theorem Safe.msg (a : Nat) : Safe h0 C (msg a) (MsgRel h0 C a) := fun _ hi => ⟨hi, hi.messages a⟩
theorem Safe.messageTrait (a : Nat) :
    Safe h0 C (messageTrait a) (MTraitRel h0 a) :=
  fun _ hi => ⟨hi, hi.messageTraits a⟩
theorem Safe.operationTrait (a : Nat) :
    Safe h0 C (operationTrait a) (OTraitRel h0 a) :=
  fun _ hi => ⟨hi, hi.operationTraits a⟩
theorem Safe.channel (a : Nat) : Safe h0 C (channel a) (ChanRel h0 a) :=
  fun _ hi => ⟨hi, hi.channels a⟩
theorem Safe.operation (a : Nat) : Safe h0 C (operation a) (OpRel h0 C a) := fun _ hi => ⟨hi, hi.operations a⟩
theorem Safe.reply (a : Nat) : Safe h0 C (reply a) (ReplyRel h0 a) :=
  fun _ hi => ⟨hi, hi.replies a⟩
theorem Safe.address (a : Nat) : Safe h0 C (address a) (AddrRel h0 a) :=
  fun _ hi => ⟨hi, hi.addresses a⟩

theorem upd_all {α : Type} {P : Nat → α → Prop} {f : Nat → α} {a : Nat} {x : α} (hf : ∀ b, P b (f b)) (hx : P a x) :
    ∀ b, P b (upd f a x b) := by
  intro b
  unfold upd
  split
  · rename_i h; rw [h]; exact hx
  · exact hf b

theorem Safe.setSch {a : Nat} {s : Sch} (h : SchRel h0 C a s) : Safe h0 C (setSch a s) (fun _ => True) :=
  fun _ hi => ⟨{ hi with schemas := upd_all (P := SchRel h0 C) hi.schemas h }, trivial⟩

theorem Safe.setMsg {a : Nat} {m : Msg} (h : MsgRel h0 C a m) : Safe h0 C (setMsg a m) (fun _ => True) :=
  fun _ hi => ⟨{ hi with messages := upd_all (P := MsgRel h0 C) hi.messages h }, trivial⟩

theorem Safe.setOp {a : Nat} {o : Op} (h : OpRel h0 C a o) : Safe h0 C (setOp a o) (fun _ => True) :=
  fun _ hi => ⟨{ hi with operations := upd_all (P := OpRel h0 C) hi.operations h }, trivial⟩

theorem Safe.alloc {s : Sch} (h : SchemaOk C s) : Safe h0 C (alloc s) (fun _ => True) := by
  intro hp hi
  refine ⟨{ hi with schemas := upd_all (P := SchRel h0 C) hi.schemas ⟨h, fun hlt => ?_⟩, next := ?_ }, trivial⟩
  · exact absurd hlt (Nat.not_lt.2 hi.next)
  · exact Nat.le_succ_of_le hi.next

theorem Safe.linkMTrait (a t : Nat) : Safe h0 C (linkMTrait a t) (fun _ => True) := by
  intro hp hi
  have hk : MTraitRel h0 a { hp.messageTraits a with refTo := some t } := by
    obtain ⟨r, hr⟩ := hi.messageTraits a
    exact ⟨some t, by rw [hr]⟩
  exact ⟨{ hi with messageTraits := upd_all (P := MTraitRel h0) hi.messageTraits hk }, trivial⟩

theorem Safe.linkOTrait (a t : Nat) : Safe h0 C (linkOTrait a t) (fun _ => True) := by
  intro hp hi
  have hk : OTraitRel h0 a { hp.operationTraits a with refTo := some t } := by
    obtain ⟨r, hr⟩ := hi.operationTraits a
    exact ⟨some t, by rw [hr]⟩
  exact ⟨{ hi with operationTraits := upd_all (P := OTraitRel h0) hi.operationTraits hk }, trivial⟩

theorem Safe.linkChannel (a t : Nat) : Safe h0 C (linkChannel a t) (fun _ => True) := by
  intro hp hi
  have hk : ChanRel h0 a { hp.channels a with refTo := some t } := by
    obtain ⟨r, hr⟩ := hi.channels a
    exact ⟨some t, by rw [hr]⟩
  exact ⟨{ hi with channels := upd_all (P := ChanRel h0) hi.channels hk }, trivial⟩

theorem Safe.linkReply (a t : Nat) : Safe h0 C (linkReply a t) (fun _ => True) := by
  intro hp hi
  have hk : ReplyRel h0 a { hp.replies a with refTo := some t } := by
    obtain ⟨r, hr⟩ := hi.replies a
    exact ⟨some t, by rw [hr]⟩
  exact ⟨{ hi with replies := upd_all (P := ReplyRel h0) hi.replies hk }, trivial⟩

theorem Safe.linkAddress (a t : Nat) : Safe h0 C (linkAddress a t) (fun _ => True) := by
  intro hp hi
  have hk : AddrRel h0 a { hp.addresses a with refTo := some t } := by
    obtain ⟨r, hr⟩ := hi.addresses a
    exact ⟨some t, by rw [hr]⟩
  exact ⟨{ hi with addresses := upd_all (P := AddrRel h0) hi.addresses hk }, trivial⟩

theorem Safe.ranged {α : Type} {o : Order} (ho : o.Ok) (l : List α) :
    Safe h0 C (ranged o l) (fun l' => ∀ x ∈ l', x ∈ l) :=
  fun hp hi => ⟨{ hi with }, fun _ hx => (ho α hp.tick l).mem_iff.1 hx⟩

theorem Safe.each {α : Type} {f : α → M Unit} {l : List α} (h : ∀ x ∈ l, Safe h0 C (f x) (fun _ => True)) :
    Safe h0 C (each f l) (fun _ => True) := by
  induction l with
  | nil => exact Safe.pure trivial
  | cons x xs ih =>
    exact (h x (List.mem_cons_self ..)).seq fun _ => ih fun y hy => h y (List.mem_cons_of_mem _ hy)

theorem Safe.eachOf {o : Order} (ho : o.Ok) {f : Ptr → M Unit} {m : GoMap Str Ptr}
    (h : ∀ e ∈ m, Safe h0 C (f e.2) (fun _ => True)) : Safe h0 C (eachOf o f m) (fun _ => True) :=
  (Safe.ranged ho m).bind fun _ hl => Safe.each fun e he => h e (hl e he)

/-- `if c then do nothing`. -/
theorem Safe.ite {α : Type} {c : Prop} [Decidable c] {m k : M α} {Q : α → Prop} (hm : c → Safe h0 C m Q)
    (hk : ¬ c → Safe h0 C k Q) : Safe h0 C (if c then m else k) Q := by
  split
  · exact hm ‹_›
  · exact hk ‹_›

/-! ## References -/

theorem at'_get {m : GoMap Str Ptr} {k : Str} {a : Nat} (h : at' m k = some a) : m.get k = some (some a) := by
  unfold at' at h
  cases hg : m.get k with
  | none => rw [hg] at h; cases h
  | some p => rw [hg] at h; exact congrArg some h

theorem at'_of_get {m : GoMap Str Ptr} {k : Str} {p : Ptr} (h : m.get k = some p) : at' m k = p := by
  unfold at'; rw [h]

/-- A path of properties of the document is there all the time. -/
theorem Safe.schemaFrom {p : Ptr} {ks : List Str} (h : SchemaPath h0 p ks) :
    Safe h0 C (schemaFrom p ks) (fun _ => True) := by
  induction ks generalizing p with
  | nil => rw [Panics.schemaFrom]; exact Safe.pure trivial
  | cons k ks ih =>
    cases h with
    | @property a _ _ hlt hp =>
      rw [Panics.schemaFrom]
      refine Safe.bind (Safe.deref nofun) fun b hb => ?_
      cases hb
      refine (Safe.sch a).bind fun s hs => ?_
      cases ks with
      | nil => rw [Panics.schemaFrom]; exact Safe.pure trivial
      | cons k' ks' =>
        have key : ∃ c, at' (h0.schemas a).props k = some c := by
          generalize at' (h0.schemas a).props k = q at hp
          cases hp with
          | property => exact ⟨_, rfl⟩
        obtain ⟨c, hc⟩ := key
        have hg := hs.2 hlt k _ (at'_get hc)
        rw [at'_of_get hg]
        rw [hc] at hp
        exact ih hp

theorem Safe.messageFrom {p : Ptr} {ks : List Str} (h : MessagePath h0 p ks) :
    Safe h0 C (messageFrom p ks) (fun _ => True) := by
  have part : ∀ (f : Msg → Ptr) (a : Nat) (ks : List Str), SchemaPath h0 (f (h0.messages a)) ks →
      (∀ m, MsgRel h0 C a m → ∀ b, f (h0.messages a) = some b → f m = some b) →
      Safe h0 C (do
        let a ← Panics.deref (some a)
        let m ← Panics.msg a
        let r ← Panics.schemaFrom (f m) ks
        Pure.pure (Ty.schema, r)) (fun _ => True) := by
    intro f a ks hp hf
    refine Safe.bind (Safe.deref nofun) fun b hb => ?_
    cases hb
    refine (Safe.msg a).bind fun m hm => ?_
    refine Safe.seq (P := fun _ => True) ?_ fun _ => Safe.pure trivial
    cases ks with
    | nil => exact Safe.schemaFrom (.here _)
    | cons k ks =>
      have key : ∃ c, f (h0.messages a) = some c := by
        generalize f (h0.messages a) = q at hp
        cases hp with
        | property => exact ⟨_, rfl⟩
      obtain ⟨c, hc⟩ := key
      rw [hf m hm c hc]
      rw [hc] at hp
      exact Safe.schemaFrom hp
  cases h with
  | here => exact Safe.pure trivial
  | @payload a ks hp =>
    rw [Panics.messageFrom, if_pos rfl]
    exact part (·.payload) a ks hp fun m hm => hm.2.1
  | @header a ks hp =>
    rw [Panics.messageFrom, if_neg (by decide), if_pos rfl]
    exact part (·.headers) a ks hp fun m hm => hm.2.2.1
  | nothing _ h1 h2 =>
    rw [Panics.messageFrom, if_neg h1, if_neg h2]
    exact (Safe.schemaFrom (.here _)).seq fun _ => Safe.pure trivial

theorem Safe.resolve {r : Roots} {path : List Str} (h : PathOk h0 r path) :
    Safe h0 C (resolve r path) (fun _ => True) := by
  cases h with
  | @component k n ks h1 h2 =>
    rw [Panics.resolve, if_pos rfl]
    unfold Panics.component
    dsimp only
    rw [if_neg h1, if_neg h2]
    refine Safe.ite (fun _ => Safe.pure trivial) fun _ => ?_
    cases nodeKind r k with
    | none => exact Safe.fail
    | some x => exact Safe.pure trivial
  | schema hp =>
    rw [Panics.resolve, if_pos rfl]
    unfold Panics.component
    dsimp only
    rw [if_pos rfl]
    exact (Safe.schemaFrom hp).seq fun _ => Safe.pure trivial
  | message hp =>
    rw [Panics.resolve, if_pos rfl]
    unfold Panics.component
    dsimp only
    rw [if_neg (by decide), if_pos rfl]
    exact Safe.messageFrom hp
  | channel =>
    rw [Panics.resolve, if_neg (by decide), if_pos rfl]
    exact Safe.pure trivial
  | @channelMessage n m a ks ha hp =>
    rw [Panics.resolve, if_neg (by decide), if_pos rfl]
    unfold Panics.channelPart
    dsimp only
    rw [if_pos rfl]
    refine Safe.bind (Safe.deref (by rw [ha]; nofun)) fun b hb => ?_
    rw [ha] at hb
    cases hb
    refine (Safe.channel a).bind fun c hc => ?_
    obtain ⟨x, hc⟩ := hc
    rw [hc]
    exact Safe.messageFrom hp
  | elsewhere h1 h2 =>
    rw [Panics.resolve, if_neg h1, if_neg h2]
    exact Safe.fail

/-- References are resolved in `s`, the document or a dependency. -/
theorem Safe.referenceAs {s : Doc} (hs : ∀ r, C r → RefOk h0 s r) (t : Ty) {ref : Str} (h : C ref) :
    Safe h0 C (referenceAs s t ref) (fun _ => True) := by
  refine Safe.seq (P := fun _ => True) ?_ fun x => ?_
  · have hr := hs ref h
    unfold Panics.reference
    split
    · rename_i file path hsplit
      refine Safe.bind (P := fun r => fileOf s file = some r) ?_ fun r hf => Safe.resolve (hr file path r hsplit hf)
      unfold usedSpec
      refine Safe.ite (fun hf => Safe.pure (by simp [fileOf, hf])) fun hf => ?_
      cases hg : s.deps.get (trimDot file) with
      | none => exact Safe.fail
      | some r => exact Safe.pure (by simp [fileOf, hf, hg])
    · exact Safe.fail
  · obtain ⟨t', p⟩ := x
    refine Safe.ite (fun _ => ?_) fun _ => Safe.fail
    cases p with
    | none => exact Safe.fail
    | some a => exact Safe.pure trivial

theorem Safe.setLeaf {s : Doc} (hs : ∀ r, C r → RefOk h0 s r) {l : Leaf} (h : CalmLeaf C l) :
    Safe h0 C (setLeaf s l) (fun _ => True) :=
  Safe.each fun e he => Safe.ite (fun _ => Safe.pure trivial) fun hne =>
    (Safe.referenceAs hs e.1 (h e he hne)).seq fun _ => Safe.pure trivial

theorem Safe.setNamed {s : Doc} (hs : ∀ r, C r → RefOk h0 s r) {l : List (Option Named)} (h : NamedOk C l) :
    Safe h0 C (setNamed s l) (fun _ => True) := by
  refine Safe.each fun e he => ?_
  cases e with
  | none => exact Safe.pure trivial
  | some t => exact Safe.setLeaf hs (h.2 t he)

/-! ## Schemas -/

theorem Full.append {α : Type} {l k : List (Option α)} (hl : Full l) (hk : Full k) : Full (l ++ k) := by
  intro p hp
  rcases List.mem_append.1 hp with h | h
  · exact hl p h
  · exact hk p h

theorem absent_nil : Absent C [] := fun h => absurd rfl h

theorem SchemaOk.fresh {s : Sch} (h1 : s.ref = []) (h2 : s.props = []) (h3 : s.anyOf = []) (h4 : s.oneOf = [])
    (h5 : s.allOf = []) : SchemaOk C s where
  ref := by rw [h1]; exact absent_nil
  props := by rw [h2]; nofun
  anyOf := by rw [h3]; nofun
  oneOf := by rw [h4]; nofun
  allOf := by rw [h5]; nofun

/-- A change of nothing that matters. -/
theorem SchRel.same {a : Nat} {s s' : Sch} (h : SchRel h0 C a s) (h1 : s'.ref = s.ref) (h2 : s'.props = s.props)
    (h3 : s'.anyOf = s.anyOf) (h4 : s'.oneOf = s.oneOf) (h5 : s'.allOf = s.allOf) : SchRel h0 C a s' := by
  refine ⟨⟨?_, ?_, ?_, ?_, ?_⟩, ?_⟩
  · rw [h1]; exact h.1.ref
  · rw [h2]; exact h.1.props
  · rw [h3]; exact h.1.anyOf
  · rw [h4]; exact h.1.oneOf
  · rw [h5]; exact h.1.allOf
  · rw [h2]; exact h.2

theorem Safe.wraps (l : List Ptr) : Safe h0 C (wraps l) Full := by
  induction l with
  | nil => exact Safe.pure nofun
  | cons v vs ih =>
    refine (Safe.alloc (SchemaOk.fresh rfl rfl rfl rfl rfl)).seq fun w => ih.bind fun ws hws => Safe.pure ?_
    intro p hp
    rcases List.mem_cons.1 hp with h | h
    · rw [h]; nofun
    · exact hws p h

theorem Safe.mergeAlternatives {own other : List Ptr} {t : Option (List Ptr)} (h1 : Full own) (h2 : Full other) :
    Safe h0 C (mergeAlternatives own other t) Full := by
  cases t with
  | none => exact Safe.pure (h1.append h2)
  | some l => exact (Safe.wraps l).bind fun ws hws => Safe.pure ((h1.append h2).append hws)

theorem Safe.targetOf (s2 : Sch) :
    Safe h0 C (targetOf s2) (fun t => ∀ x, t = some x → SchemaOk C x) := by
  unfold Panics.targetOf
  cases s2.refTo with
  | none => exact Safe.pure nofun
  | some t => exact (Safe.sch t).bind fun s hs => Safe.pure fun x hx => by cases hx; exact hs.1

theorem FullMap.put {m : GoMap Str Ptr} (h : FullMap m) (k : Str) (a : Nat) : FullMap (m.put k (some a)) := by
  intro e he
  unfold GoMap.put at he
  rcases List.mem_cons.1 he with h1 | h1
  · rw [h1]; nofun
  · exact h e (List.mem_filter.1 h1 |>.1)

theorem FullMap.get {m : GoMap Str Ptr} (h : FullMap m) {k : Str} {p : Ptr} (hg : m.get k = some p) : p ≠ none := by
  induction m with
  | nil => cases hg
  | cons e m ih =>
    obtain ⟨k', q⟩ := e
    rw [GoMap.get_cons] at hg
    split at hg
    · cases hg; exact h (k', p) (List.mem_cons_self ..)
    · exact ih (fun e he => h e (List.mem_cons_of_mem _ he)) hg

theorem SchRel.put {a : Nat} {s : Sch} (hs : SchRel h0 C a s) {k : Str} (hk : s.props.get k = none) (b : Nat) :
    SchRel h0 C a { s with props := s.props.put k (some b) } := by
  refine ⟨{ hs.1 with props := hs.1.props.put k b }, fun hlt k' p hp => ?_⟩
  have h1 := hs.2 hlt k' p hp
  show (s.props.put k (some b)).get k' = some p
  rw [GoMap.get_put]
  split
  · rename_i heq; rw [heq, h1] at hk; cases hk
  · exact h1

theorem Safe.addOwn (a : Nat) {l : List (Str × Ptr)} (h : FullMap l) : Safe h0 C (addOwn a l) (fun _ => True) := by
  induction l with
  | nil => exact Safe.pure trivial
  | cons e rest ih =>
    obtain ⟨k, v⟩ := e
    have ih := ih fun e he => h e (List.mem_cons_of_mem _ he)
    unfold Panics.addOwn
    refine (Safe.sch a).bind fun s hs => ?_
    cases hg : s.props.get k with
    | some _ => exact ih
    | none =>
      cases v with
      | none => exact absurd rfl (h (k, none) (List.mem_cons_self ..))
      | some b => exact (Safe.setSch (hs.put hg b)).seq fun _ => ih

theorem Safe.addReferenced (a : Nat) {l : List (Str × Ptr)} (h : FullMap l) :
    Safe h0 C (addReferenced a l) (fun _ => True) := by
  induction l with
  | nil => exact Safe.pure trivial
  | cons e rest ih =>
    obtain ⟨k, v⟩ := e
    have ih := ih fun e he => h e (List.mem_cons_of_mem _ he)
    unfold Panics.addReferenced
    refine (Safe.sch a).bind fun s hs => ?_
    cases hg : s.props.get k with
    | some _ => exact ih
    | none =>
      refine Safe.bind (Safe.deref (h (k, v) (List.mem_cons_self ..))) fun b hb => ?_
      refine (Safe.sch b).bind fun p _ => ?_
      refine Safe.ite (fun _ => ?_) fun _ => ?_
      · exact (Safe.alloc (SchemaOk.fresh rfl rfl rfl rfl rfl)).seq fun w => (Safe.setSch (hs.put hg w)).seq fun _ => ih
      · exact (Safe.setSch (hs.put hg b)).seq fun _ => ih

theorem Safe.mergeWith {o : Order} (ho : o.Ok) (p : Ptr) {s2 : Sch} (h2 : SchemaOk C s2) :
    Safe h0 C (mergeWith o p s2) (fun _ => True) := by
  cases p with
  | none => exact Safe.pure trivial
  | some a =>
    unfold Panics.mergeWith
    refine (Safe.sch a).bind fun s hs => ?_
    refine Safe.seq (Safe.setSch (hs.same rfl rfl rfl rfl rfl)) fun _ => ?_
    refine (Safe.targetOf s2).bind fun t ht => (Safe.sch a).bind fun s hs => ?_
    refine (Safe.mergeAlternatives hs.1.allOf h2.allOf).bind fun l hl => (Safe.sch a).bind fun s hs => ?_
    refine Safe.seq (Safe.setSch (a := a) (s := { s with allOf := l }) ⟨{ hs.1 with allOf := hl }, hs.2⟩) fun _ => ?_
    refine (Safe.targetOf s2).bind fun t ht => (Safe.sch a).bind fun s hs => ?_
    refine (Safe.mergeAlternatives hs.1.anyOf h2.anyOf).bind fun l hl => (Safe.sch a).bind fun s hs => ?_
    refine Safe.seq (Safe.setSch (a := a) (s := { s with anyOf := l }) ⟨{ hs.1 with anyOf := hl }, hs.2⟩) fun _ => ?_
    refine (Safe.targetOf s2).bind fun t ht => (Safe.sch a).bind fun s hs => ?_
    refine (Safe.mergeAlternatives hs.1.oneOf h2.oneOf).bind fun l hl => (Safe.sch a).bind fun s hs => ?_
    refine Safe.seq (Safe.setSch (a := a) (s := { s with oneOf := l }) ⟨{ hs.1 with oneOf := hl }, hs.2⟩) fun _ => ?_
    refine (Safe.ranged ho s2.props).bind fun l hl => ?_
    refine (Safe.addOwn a fun e he => h2.props e (hl e he)).seq fun _ => ?_
    refine (Safe.targetOf s2).bind fun t ht => ?_
    cases t with
    | none => exact Safe.pure trivial
    | some t =>
      exact (Safe.ranged ho t.props).bind fun l hl => Safe.addReferenced a fun e he => (ht t rfl).props e (hl e he)

theorem Safe.metaSchema (n : Nat) (p : Ptr) : Safe h0 C (metaSchema n p) (fun _ => True) := by
  induction n generalizing p with
  | zero => rw [Panics.metaSchema]; exact Safe.tooDeep
  | succ n ih =>
    cases p with
    | none => exact Safe.pure trivial
    | some a =>
      unfold Panics.metaSchema
      exact (Safe.sch a).seq fun s => Safe.each fun x _ => ih x

theorem Safe.setSchemaReference {s : Doc} (hs : ∀ r, C r → RefOk h0 s r) (a : Nat) :
    Safe h0 C (setSchemaReference s a) (fun _ => True) := by
  unfold Panics.setSchemaReference
  refine (Safe.sch a).bind fun x hx => Safe.ite (fun _ => Safe.pure trivial) fun hne => ?_
  refine (Safe.referenceAs hs .schema (hx.1.ref hne)).seq fun t => (Safe.sch a).bind fun x hx => ?_
  exact Safe.setSch (hx.same rfl rfl rfl rfl rfl)

theorem Safe.visitMerge {o : Order} (ho : o.Ok) {visit : Ptr → M Unit} (a : Nat) {l : List Ptr} (hl : Full l)
    (hv : ∀ p, p ≠ none → Safe h0 C (visit p) (fun _ => True)) : Safe h0 C (visitMerge o visit a l) (fun _ => True) :=
  Safe.each fun v hm => (hv v (hl v hm)).seq fun _ => (Safe.deref (hl v hm)).seq fun b => (Safe.sch b).bind fun _ h2 =>
    Safe.mergeWith ho _ h2.1

theorem Safe.setSchema {s : Doc} (hs : ∀ r, C r → RefOk h0 s r) {o : Order} (ho : o.Ok) (n : Nat) (p : Ptr) :
    Safe h0 C (setSchema s o n p) (fun _ => True) := by
  induction n generalizing p with
  | zero => rw [Panics.setSchema]; exact Safe.tooDeep
  | succ n ih =>
    cases p with
    | none => exact Safe.pure trivial
    | some a =>
      unfold Panics.setSchema
      refine (Safe.setSchemaReference hs a).seq fun _ => ?_
      refine (Safe.sch a).seq fun _ => (Safe.eachOf ho fun e _ => ih e.2).seq fun _ => ?_
      refine (Safe.sch a).seq fun _ => (Safe.eachOf ho fun e _ => ih e.2).seq fun _ => ?_
      refine (Safe.sch a).seq fun _ => (ih _).seq fun _ => ?_
      refine (Safe.sch a).seq fun _ => (Safe.each fun e _ => ih e).seq fun _ => ?_
      refine (Safe.sch a).seq fun _ => (ih _).seq fun _ => ?_
      refine (Safe.sch a).seq fun _ => (Safe.each fun e _ => ih e).seq fun _ => ?_
      refine (Safe.sch a).bind fun s hs => (Safe.visitMerge ho a hs.1.anyOf fun p _ => ih p).seq fun _ => ?_
      refine (Safe.sch a).bind fun s hs => (Safe.visitMerge ho a hs.1.oneOf fun p _ => ih p).seq fun _ => ?_
      refine (Safe.sch a).bind fun s hs => (Safe.visitMerge ho a hs.1.allOf fun p _ => ih p).seq fun _ => ?_
      exact (Safe.sch a).seq fun _ => ih _

/-! ## Locations -/

theorem Safe.down {ks : List Str} (hks : ks ≠ []) {child : Ptr} (hc : child ≠ none) (parent : Ptr) :
    Safe h0 C (down ks child parent) (fun p => p ≠ none) := by
  induction ks generalizing child parent with
  | nil => exact absurd rfl hks
  | cons v rest ih =>
    have next : ∀ c, c ≠ none → Safe h0 C (Panics.down rest c child) (fun p => p ≠ none) := by
      intro c hcn
      cases rest with
      | nil => exact Safe.pure hc
      | cons _ _ => exact ih nofun hcn child
    unfold Panics.down
    refine (Safe.deref hc).bind fun a _ => (Safe.sch a).bind fun s hs => ?_
    cases hg : s.props.get v with
    | some c => exact next c (hs.1.props.get hg)
    | none =>
      exact (Safe.alloc (SchemaOk.fresh rfl rfl rfl rfl rfl)).seq fun n => (Safe.setSch (hs.put hg n)).seq fun _ =>
        next (some n) nofun

theorem split_tail {l : Str} (h : '/' ∈ l) : (Str.split '/' l).tail ≠ [] := by
  obtain ⟨u, v, rfl, hu⟩ := List.eq_append_cons_of_mem h
  rw [Str.split_append '/' u v hu]
  exact Str.split_ne_nil '/' v

/-- A change of nothing that matters. -/
theorem MessageOk.same {m m' : Msg} (h : MessageOk C m) (h1 : m'.ref = m.ref) (h2 : m'.oneOf = m.oneOf)
    (h3 : m'.tags = m.tags) (h4 : m'.leaf = m.leaf) (h5 : m'.traits = m.traits) (h6 : m'.corr = m.corr) :
    MessageOk C m' := by
  refine ⟨?_, ?_, ?_, ?_, ?_, ?_⟩
  · rw [h1]; exact h.ref
  · rw [h2]; exact h.oneOf
  · rw [h3]; exact h.tags
  · rw [h4]; exact h.leaf
  · rw [h5]; exact h.traits
  · rw [h6]; exact h.corr

/-- A payload may be given to a message that had none. -/
theorem MsgRel.putPayload {a : Nat} {m : Msg} (h : MsgRel h0 C a m) (hp : m.payload = none) {m' : Msg}
    (h' : MsgRel h0 C a m') (q : Ptr) : MsgRel h0 C a { m' with payload := q } :=
  ⟨h'.1.same rfl rfl rfl rfl rfl rfl, fun b hb => absurd (hp.symm.trans (h.2.1 b hb)) nofun, h'.2.2⟩

theorem MsgRel.putHeaders {a : Nat} {m : Msg} (h : MsgRel h0 C a m) (hp : m.headers = none) {m' : Msg}
    (h' : MsgRel h0 C a m') (q : Ptr) : MsgRel h0 C a { m' with headers := q } :=
  ⟨h'.1.same rfl rfl rfl rfl rfl rfl, h'.2.1, fun b hb => absurd (hp.symm.trans (h.2.2.1 b hb)) nofun, h'.2.2.2⟩

theorem Safe.createTreeFrom {get : Msg → Ptr} {put : Msg → Ptr → Msg} {p : Ptr} {l : Str}
    (hput : ∀ a m, MsgRel h0 C a m → get m = none → ∀ m', MsgRel h0 C a m' → ∀ q, MsgRel h0 C a (put m' q))
    (hp : p ≠ none) (hl : '/' ∈ l) : Safe h0 C (createTreeFrom get put p l) (fun q => q ≠ none) := by
  unfold Panics.createTreeFrom
  refine (Safe.deref hp).bind fun a _ => (Safe.msg a).bind fun m hm => ?_
  cases hg : get m with
  | none =>
    refine (Safe.alloc (SchemaOk.fresh rfl rfl rfl rfl rfl)).seq fun n => (Safe.msg a).bind fun m' hm' => ?_
    exact (Safe.setMsg (hput a m hm hg m' hm' _)).seq fun _ => Safe.down (split_tail hl) (Option.some_ne_none _) _
  | some b =>
    refine (Safe.sch b).seq fun s => ?_
    cases s.refTo with
    | none => exact Safe.down (split_tail hl) (Option.some_ne_none _) _
    | some t => exact Safe.down (split_tail hl) (Option.some_ne_none _) _

theorem Safe.createTree {p : Ptr} {l : Str} (hp : p ≠ none) (hl : LocOk l) :
    Safe h0 C (createTree p l) (fun q => q ≠ none) := by
  have fresh : Safe h0 C (do
      let n ← Panics.alloc {}
      Pure.pure (some n)) (fun q => q ≠ none) :=
    (Safe.alloc (SchemaOk.fresh rfl rfl rfl rfl rfl)).seq fun n => Safe.pure nofun
  unfold Panics.createTree
  refine Safe.ite (fun _ => fresh) fun _ => Safe.ite (fun h => ?_) fun _ => Safe.ite (fun h => ?_) fun _ => fresh
  · exact Safe.createTreeFrom (fun a m hm hg m' hm' q => hm.putHeaders hg hm' q) hp (hl (.inl h))
  · exact Safe.createTreeFrom (fun a m hm hg m' hm' q => hm.putPayload hg hm' q) hp (hl (.inr h))

theorem Safe.correlation (a : Nat) : Safe h0 C (correlation a) (fun _ => True) := by
  unfold Panics.correlation
  refine (Safe.msg a).bind fun m hm => ?_
  cases hc : m.corr with
  | none => exact Safe.pure trivial
  | some l =>
    have hl := hm.1.corr l hc
    refine (Safe.createTree (Option.some_ne_none a) hl).seq fun _ => Safe.ite (fun _ => Safe.pure trivial) fun _ => ?_
    exact (Safe.createTree (Option.some_ne_none a) hl).bind fun q hq => (Safe.deref hq).seq fun _ => Safe.pure trivial

/-! ## Metadata -/

theorem Safe.metaHeaders (n : Nat) (p : Ptr) : Safe h0 C (metaHeaders n p) (fun _ => True) := by
  cases p with
  | none => exact Safe.pure trivial
  | some a =>
    unfold Panics.metaHeaders
    refine (Safe.metaSchema n _).seq fun _ => (Safe.sch a).seq fun s => (Safe.targetOf s).seq fun t => ?_
    exact Safe.ite (fun _ => Safe.pure trivial) fun _ => Safe.fail

theorem Safe.metaMTrait (n : Nat) (p : Ptr) : Safe h0 C (metaMTrait n p) (fun _ => True) := by
  cases p with
  | none => exact Safe.pure trivial
  | some a =>
    unfold Panics.metaMTrait
    exact (Safe.messageTrait a).seq fun t => (Safe.metaSchema n _).seq fun _ => Safe.metaSchema n _

theorem Safe.metaMessage (n : Nat) (p : Ptr) : Safe h0 C (metaMessage n p) (fun _ => True) := by
  induction n generalizing p with
  | zero => rw [Panics.metaMessage]; exact Safe.tooDeep
  | succ n ih =>
    cases p with
    | none => exact Safe.pure trivial
    | some a =>
      unfold Panics.metaMessage
      refine (Safe.msg a).seq fun m => (Safe.metaSchema n _).seq fun _ => (Safe.metaHeaders n _).seq fun _ => ?_
      exact (Safe.each fun x _ => ih x).seq fun _ => (Safe.each fun x _ => Safe.metaMTrait n x).seq fun _ => Safe.correlation a

theorem Safe.metaChannel {o : Order} (ho : o.Ok) (n : Nat) (p : Ptr) : Safe h0 C (metaChannel o n p) (fun _ => True) := by
  cases p with
  | none => exact Safe.pure trivial
  | some a =>
    unfold Panics.metaChannel
    exact (Safe.channel a).seq fun c => Safe.eachOf ho fun e _ => Safe.metaMessage n e.2

theorem Safe.metaRoots {o : Order} (ho : o.Ok) (n : Nat) (r : Roots) : Safe h0 C (metaRoots o n r) (fun _ => True) :=
  (Safe.eachOf ho fun e _ => Safe.metaSchema n e.2).seq fun _ => (Safe.eachOf ho fun e _ => Safe.metaChannel ho n e.2).seq
    fun _ => (Safe.eachOf ho fun e _ => Safe.metaMessage n e.2).seq fun _ =>
    (Safe.eachOf ho fun e _ => Safe.metaMTrait n e.2).seq fun _ => Safe.eachOf ho fun e _ => Safe.metaChannel ho n e.2

/-! ## Messages -/

theorem Safe.copies {f : Ptr → M Ptr} (hf : ∀ p, Safe h0 C (f p) (fun q => p ≠ none → q ≠ none)) (l : List Ptr) :
    Safe h0 C (copies f l) (fun k => Full l → Full k) := by
  induction l with
  | nil => exact Safe.pure fun h => h
  | cons p ps ih =>
    unfold Panics.copies
    refine (hf p).bind fun q hq => ih.bind fun qs hqs => Safe.pure fun h => ?_
    intro x hx
    rcases List.mem_cons.1 hx with h1 | h1
    · rw [h1]; exact hq (h p (List.mem_cons_self ..))
    · exact hqs (fun y hy => h y (List.mem_cons_of_mem _ hy)) x h1

theorem Safe.copiesOf {f : Ptr → M Ptr} (hf : ∀ p, Safe h0 C (f p) (fun q => p ≠ none → q ≠ none)) (l : GoMap Str Ptr) :
    Safe h0 C (copiesOf f l) (fun k => FullMap l → FullMap k) := by
  induction l with
  | nil => exact Safe.pure fun h => h
  | cons e ps ih =>
    obtain ⟨k, p⟩ := e
    unfold Panics.copiesOf
    refine (hf p).bind fun q hq => ih.bind fun qs hqs => Safe.pure fun h => ?_
    intro x hx
    rcases List.mem_cons.1 hx with h1 | h1
    · rw [h1]; exact hq (h (k, p) (List.mem_cons_self ..))
    · exact hqs (fun y hy => h y (List.mem_cons_of_mem _ hy)) x h1

theorem Safe.deepCopy (n : Nat) (p : Ptr) : Safe h0 C (deepCopy n p) (fun q => p ≠ none → q ≠ none) := by
  induction n generalizing p with
  | zero => rw [Panics.deepCopy]; exact Safe.tooDeep
  | succ n ih =>
    cases p with
    | none => exact Safe.pure fun h => h
    | some a =>
      unfold Panics.deepCopy
      refine (Safe.sch a).bind fun s hs => (ih _).seq fun _ => (Safe.copiesOf ih _).bind fun props hprops => ?_
      refine (Safe.copiesOf ih _).seq fun _ => (ih _).seq fun _ => (Safe.copies ih _).seq fun _ => (ih _).seq fun _ => ?_
      refine (Safe.copies ih _).seq fun _ => (Safe.copies ih _).bind fun anyOf hany => (Safe.copies ih _).bind fun oneOf hone => ?_
      refine (Safe.copies ih _).bind fun allOf hall => (ih _).seq fun _ => ?_
      refine Safe.seq (Safe.alloc ?_) fun b => Safe.pure fun _ => nofun
      exact ⟨hs.1.ref, hprops hs.1.props, hany hs.1.anyOf, hone hs.1.oneOf, hall hs.1.allOf⟩

/-- What a message that is merged into satisfies. -/
def PlaceRel (h0 : Heap) (C : Str → Prop) : Place → Msg → Prop
  | .heap a, m => MsgRel h0 C a m
  | .copy _, m => MessageOk C m

/-- A place that holds a message without the forms that crash. -/
def PlaceOk (C : Str → Prop) : Place → Prop
  | .heap _ => True
  | .copy m => MessageOk C m

theorem PlaceRel.ok {p : Place} {m : Msg} (h : PlaceRel h0 C p m) : MessageOk C m := by
  cases p with
  | heap a => exact h.1
  | copy _ => exact h

theorem Safe.read {p : Place} (hp : PlaceOk C p) : Safe h0 C p.read (PlaceRel h0 C p) := by
  cases p with
  | heap a => exact Safe.msg a
  | copy m => exact Safe.pure hp

theorem Safe.write {p : Place} {m : Msg} (h : PlaceRel h0 C p m) : Safe h0 C (p.write m) (PlaceOk C) := by
  cases p with
  | heap a => exact (Safe.setMsg h).seq fun _ => Safe.pure trivial
  | copy _ => exact Safe.pure h

theorem Safe.mergeField {o : Order} (ho : o.Ok) (n : Nat) {get : Msg → Ptr} {put : Msg → Ptr → Msg} {p : Place}
    (hput : ∀ m, PlaceRel h0 C p m → get m = none → ∀ m', PlaceRel h0 C p m' → ∀ q, PlaceRel h0 C p (put m' q))
    (hp : PlaceOk C p) (m2 : Msg) : Safe h0 C (mergeField o n get put p m2) (PlaceOk C) := by
  unfold Panics.mergeField
  cases get m2 with
  | none => exact Safe.pure hp
  | some b =>
    refine (Safe.read hp).bind fun m hm => ?_
    cases hg : get m with
    | none =>
      exact (Safe.deepCopy n _).seq fun q => (Safe.read hp).bind fun m' hm' => Safe.write (hput m hm hg m' hm' q)
    | some a => exact (Safe.sch b).bind fun s2 h2 => (Safe.mergeWith ho _ h2.1).seq fun _ => Safe.pure hp

theorem PlaceRel.putPayload {p : Place} {m : Msg} (h : PlaceRel h0 C p m) (hp : m.payload = none) {m' : Msg}
    (h' : PlaceRel h0 C p m') (q : Ptr) : PlaceRel h0 C p { m' with payload := q } := by
  cases p with
  | heap a => exact MsgRel.putPayload h hp h' q
  | copy _ => exact MessageOk.same h' rfl rfl rfl rfl rfl rfl

theorem PlaceRel.putHeaders {p : Place} {m : Msg} (h : PlaceRel h0 C p m) (hp : m.headers = none) {m' : Msg}
    (h' : PlaceRel h0 C p m') (q : Ptr) : PlaceRel h0 C p { m' with headers := q } := by
  cases p with
  | heap a => exact MsgRel.putHeaders h hp h' q
  | copy _ => exact MessageOk.same h' rfl rfl rfl rfl rfl rfl

theorem PlaceRel.noRef {p : Place} {m : Msg} (h : PlaceRel h0 C p m) : PlaceRel h0 C p { m with ref := [] } := by
  have key : MessageOk C m → MessageOk C { m with ref := [] } := fun h => { h with ref := absent_nil }
  cases p with
  | heap a => exact ⟨key h.1, h.2.1, h.2.2.1, .inl rfl⟩
  | copy _ => exact key h

theorem Safe.mergeMessage {find : Str → M Nat} (hs : ∀ r, C r → Safe h0 C (find r) (fun _ => True)) {o : Order} (ho : o.Ok) (n : Nat) {p : Place}
    (hp : PlaceOk C p) {m2 : Msg} (h2 : MessageOk C m2) : Safe h0 C (mergeMessage find o n p m2) (PlaceOk C) := by
  induction n generalizing p m2 with
  | zero => rw [Panics.mergeMessage]; exact Safe.tooDeep
  | succ n ih =>
    unfold Panics.mergeMessage
    refine (Safe.read hp).bind fun m hm => ?_
    refine Safe.bind (P := PlaceOk C) (Safe.ite (fun _ => Safe.pure hp) fun hne => ?_) fun p hp => ?_
    · refine (hs _ (hm.ok.ref hne)).seq fun t => (Safe.read hp).bind fun m hm => ?_
      exact (Safe.write hm.noRef).bind fun p hp => (Safe.msg t).bind fun r hr => ih hp hr.1
    refine Safe.seq (P := fun _ => True) (Safe.ite (fun _ => Safe.pure trivial) fun hne => ?_) fun _ => ?_
    · refine (hs _ (h2.ref hne)).seq fun t => (Safe.msg t).bind fun r hr => ?_
      exact (ih (p := .copy m2) h2 hr.1).seq fun _ => Safe.pure trivial
    refine Safe.bind (Safe.mergeField ho n (fun m hm hg m' hm' q => hm.putPayload hg hm' q) hp m2) fun p hp => ?_
    exact Safe.mergeField ho n (fun m hm hg m' hm' q => hm.putHeaders hg hm' q) hp m2

theorem Safe.present {t : Option Named} (ht : t ≠ none) {l : List (Option Named)} (hl : Full l) :
    Safe h0 C (present t l) (fun _ => True) := by
  induction l with
  | nil => exact Safe.pure trivial
  | cons x rest ih =>
    cases x with
    | none => exact absurd rfl (hl none (List.mem_cons_self ..))
    | some x =>
      cases t with
      | none => exact absurd rfl ht
      | some y =>
        unfold Panics.present
        exact Safe.ite (fun _ => Safe.pure trivial) fun _ => ih fun p hp => hl p (List.mem_cons_of_mem _ hp)

theorem Safe.dedup {acc l : List (Option Named)} (h1 : NamedOk C acc) (h2 : NamedOk C l) :
    Safe h0 C (dedup acc l) (NamedOk C) := by
  induction l generalizing acc with
  | nil => exact Safe.pure h1
  | cons t ts ih =>
    unfold Panics.dedup
    have ht := h2.1 t (List.mem_cons_self ..)
    refine (Safe.present ht h1.1).seq fun b => ih ?_ ⟨fun p hp => h2.1 p (List.mem_cons_of_mem _ hp),
      fun x hx => h2.2 x (List.mem_cons_of_mem _ hx)⟩
    split
    · exact h1
    · refine ⟨h1.1.append fun p hp => ?_, fun x hx => ?_⟩
      · rw [List.mem_singleton.1 hp]; exact ht
      · rcases List.mem_append.1 hx with h | h
        · exact h1.2 x h
        · exact h2.2 x (by rw [List.mem_singleton.1 h]; exact List.mem_cons_self ..)

theorem NamedOk.append {l k : List (Option Named)} (hl : NamedOk C l) (hk : NamedOk C k) : NamedOk C (l ++ k) :=
  ⟨hl.1.append hk.1, fun t ht => (List.mem_append.1 ht).elim (hl.2 t) (hk.2 t)⟩

theorem namedOk_nil : NamedOk C [] := ⟨nofun, nofun⟩

theorem Safe.adoptSchema {s : Doc} (hs : ∀ r, C r → RefOk h0 s r) {o : Order} (ho : o.Ok) (n : Nat) {put : Msg → Ptr → Msg} {a b : Nat}
    (hput : ∀ m, MsgRel h0 C a m → ∀ q, MsgRel h0 C a (put m q)) :
    Safe h0 C (adoptSchema s o n put a b) (fun _ => True) := by
  unfold Panics.adoptSchema
  refine (Safe.sch b).bind fun x hx => (Safe.targetOf x).bind fun t ht => ?_
  refine Safe.seq (Safe.alloc ?_) fun q => (Safe.msg a).bind fun m hm => ?_
  · cases t with
    | none => exact hx.1
    | some y => exact ht y rfl
  · exact (Safe.setMsg (hput m hm _)).seq fun _ => (Safe.metaSchema n _).seq fun _ => Safe.setSchema hs ho n _

theorem Safe.mergeHeaders {s : Doc} (hs : ∀ r, C r → RefOk h0 s r) {o : Order} (ho : o.Ok) (n a : Nat) (p : Ptr) :
    Safe h0 C (mergeHeaders s o n a p) (fun _ => True) := by
  cases p with
  | none => exact Safe.pure trivial
  | some b =>
    unfold Panics.mergeHeaders
    refine (Safe.msg a).bind fun m hm => ?_
    cases hg : m.headers with
    | none => exact Safe.adoptSchema hs ho n fun m' hm' q => hm.putHeaders hg hm' q
    | some c => exact (Safe.sch b).bind fun s2 h2 => Safe.mergeWith ho _ h2.1

theorem Safe.mergePayload {s : Doc} (hs : ∀ r, C r → RefOk h0 s r) {o : Order} (ho : o.Ok) (n a : Nat) (p : Ptr) :
    Safe h0 C (mergePayload s o n a p) (fun _ => True) := by
  cases p with
  | none => exact Safe.pure trivial
  | some b =>
    unfold Panics.mergePayload
    refine (Safe.msg a).bind fun m hm => ?_
    cases hg : m.payload with
    | none => exact Safe.adoptSchema hs ho n fun m' hm' q => hm.putPayload hg hm' q
    | some c => exact (Safe.sch b).bind fun s2 h2 => Safe.mergeWith ho _ h2.1

theorem Safe.applyMTrait {d : Doc} (T : Tame h0 d) {s : Doc} (hs : ∀ r, Calm h0 d r → RefOk h0 s r) {o : Order} (ho : o.Ok) (n a : Nat) {p : Ptr}
    (hp : p ≠ none) : Safe h0 (Calm h0 d) (applyMTrait s o n a p) (fun _ => True) := by
  unfold Panics.applyMTrait
  refine (Safe.deref hp).seq fun b => (Safe.messageTrait b).seq fun t => (Safe.mergeHeaders hs ho n a _).seq fun _ => ?_
  refine (Safe.messageTrait b).seq fun t => (Safe.mergePayload hs ho n a _).seq fun _ => ?_
  refine (Safe.msg a).bind fun m hm => (Safe.messageTrait b).bind fun t ht => ?_
  obtain ⟨r, rfl⟩ := ht
  refine Safe.bind (Safe.dedup namedOk_nil (hm.1.tags.append (T.messageTraits b).tags)) fun tags htags => ?_
  refine Safe.setMsg ⟨{ hm.1 with tags := htags, corr := ?_ }, hm.2⟩
  intro l hl
  dsimp only at hl
  split at hl
  · exact hm.1.corr l hl
  · exact (T.messageTraits b).corr l hl

theorem Safe.setMTrait {d : Doc} (T : Tame h0 d) {s : Doc} (hs : ∀ r, Calm h0 d r → RefOk h0 s r) {o : Order} (ho : o.Ok) (n : Nat) (p : Ptr) :
    Safe h0 (Calm h0 d) (setMTrait s o n p) (fun _ => True) := by
  cases p with
  | none => exact Safe.pure trivial
  | some a =>
    unfold Panics.setMTrait
    refine (Safe.messageTrait a).bind fun t ht => ?_
    obtain ⟨r, rfl⟩ := ht
    have h := T.messageTraits a
    refine Safe.seq (P := fun _ => True) (Safe.ite (fun _ => Safe.pure trivial) fun hne => ?_) fun _ => ?_
    · exact (Safe.referenceAs hs .messageTrait (h.ref hne)).seq fun x => Safe.linkMTrait a x
    exact (Safe.setSchema hs ho n _).seq fun _ => (Safe.setSchema hs ho n _).seq fun _ => (Safe.setNamed hs h.tags).seq
      fun _ => Safe.setLeaf hs h.leaf

theorem Safe.followMTrait {p : Ptr} (hp : p ≠ none) : Safe h0 C (followMTrait p) (fun q => q ≠ none) := by
  unfold Panics.followMTrait
  refine (Safe.deref hp).seq fun a => (Safe.messageTrait a).seq fun t => ?_
  cases t.refTo with
  | none => exact Safe.pure nofun
  | some b => exact Safe.pure nofun

theorem Safe.setMessageReference {s : Doc} (hs : ∀ r, C r → RefOk h0 s r) (a : Nat) :
    Safe h0 C (setMessageReference s a) (fun _ => True) := by
  unfold Panics.setMessageReference
  refine (Safe.msg a).bind fun x hx => Safe.ite (fun _ => Safe.pure trivial) fun hne => ?_
  refine (Safe.referenceAs hs .message (hx.1.ref hne)).seq fun t => (Safe.msg a).bind fun x hx => ?_
  exact Safe.setMsg ⟨hx.1.same rfl rfl rfl rfl rfl rfl, hx.2⟩

theorem Safe.setMessage {d : Doc} (T : Tame h0 d) {s : Doc} (hs : ∀ r, Calm h0 d r → RefOk h0 s r) {o : Order} (ho : o.Ok) (n : Nat) (p : Ptr) :
    Safe h0 (Calm h0 d) (setMessage s o n p) (fun _ => True) := by
  induction n generalizing p with
  | zero => rw [Panics.setMessage]; exact Safe.tooDeep
  | succ n ih =>
    cases p with
    | none => exact Safe.pure trivial
    | some a =>
      unfold Panics.setMessage
      refine (Safe.setMessageReference hs a).seq fun _ => ?_
      refine (Safe.msg a).seq fun _ => (Safe.setSchema hs ho n _).seq fun _ => ?_
      refine (Safe.msg a).seq fun _ => (Safe.setSchema hs ho n _).seq fun _ => ?_
      refine (Safe.msg a).bind fun m hm => Safe.seq (P := fun _ => True) (Safe.each fun v hv => ?_) fun _ => ?_
      · refine (ih v).seq fun _ => (Safe.deref (hm.1.oneOf v hv)).seq fun b => (Safe.msg b).bind fun m2 h2 => ?_
        exact (Safe.mergeMessage (fun _ h => Safe.referenceAs hs .message h) ho n (p := .heap a) trivial h2.1).seq fun _ => Safe.pure trivial
      refine (Safe.msg a).bind fun m hm => (Safe.setNamed hs hm.1.tags).seq fun _ => (Safe.setLeaf hs hm.1.leaf).seq fun _ => ?_
      refine (Safe.msg a).bind fun m hm => Safe.each fun t ht => ?_
      refine (Safe.setMTrait T hs ho n t).seq fun _ => (Safe.followMTrait (hm.1.traits t ht)).bind fun x hx => ?_
      exact Safe.applyMTrait T hs ho n a hx

/-! ## Channels and operations -/

theorem Safe.setChannel {d : Doc} (T : Tame h0 d) {s : Doc} (hs : ∀ r, Calm h0 d r → RefOk h0 s r) {o : Order} (ho : o.Ok) (n : Nat) (p : Ptr) :
    Safe h0 (Calm h0 d) (setChannel s o n p) (fun _ => True) := by
  cases p with
  | none => exact Safe.pure trivial
  | some a =>
    unfold Panics.setChannel
    refine (Safe.channel a).bind fun t ht => ?_
    obtain ⟨r, rfl⟩ := ht
    have h := T.channels a
    refine Safe.seq (P := fun _ => True) (Safe.ite (fun _ => Safe.pure trivial) fun hne => ?_) fun _ => ?_
    · exact (Safe.referenceAs hs .channel (h.ref hne)).seq fun x => Safe.linkChannel a x
    exact (Safe.eachOf ho fun e _ => Safe.setMessage T hs ho n e.2).seq fun _ => Safe.setLeaf hs h.leaf

theorem Safe.setOTrait {d : Doc} (T : Tame h0 d) {s : Doc} (hs : ∀ r, Calm h0 d r → RefOk h0 s r) (p : Ptr) :
    Safe h0 (Calm h0 d) (setOTrait s p) (fun _ => True) := by
  cases p with
  | none => exact Safe.pure trivial
  | some a =>
    unfold Panics.setOTrait
    refine (Safe.operationTrait a).bind fun t ht => ?_
    obtain ⟨r, rfl⟩ := ht
    have h := T.operationTraits a
    refine Safe.seq (P := fun _ => True) (Safe.ite (fun _ => Safe.pure trivial) fun hne => ?_) fun _ => ?_
    · exact (Safe.referenceAs hs .operationTrait (h.ref hne)).seq fun x => Safe.linkOTrait a x
    exact (Safe.setNamed hs h.security).seq fun _ => (Safe.setNamed hs h.tags).seq fun _ => Safe.setLeaf hs h.leaf

theorem Safe.followOTrait {p : Ptr} (hp : p ≠ none) : Safe h0 C (followOTrait p) (fun q => q ≠ none) := by
  unfold Panics.followOTrait
  refine (Safe.deref hp).seq fun a => (Safe.operationTrait a).seq fun t => ?_
  cases t.refTo with
  | none => exact Safe.pure nofun
  | some b => exact Safe.pure nofun

theorem Safe.applyOTrait {d : Doc} (T : Tame h0 d) (a : Nat) {p : Ptr} (hp : p ≠ none) :
    Safe h0 (Calm h0 d) (applyOTrait a p) (fun _ => True) := by
  unfold Panics.applyOTrait
  refine (Safe.deref hp).seq fun b => (Safe.operationTrait b).bind fun t ht => (Safe.operation a).bind fun op hop => ?_
  obtain ⟨r, rfl⟩ := ht
  refine Safe.bind (Safe.dedup namedOk_nil (hop.security.append (T.operationTraits b).security)) fun security hsec => ?_
  refine Safe.bind (Safe.dedup namedOk_nil (hop.tags.append (T.operationTraits b).tags)) fun tags htags => ?_
  exact Safe.setOp { hop with security := hsec, tags := htags }

theorem Safe.firstMessage {o : Order} (ho : o.Ok) {c : Chan} (hc : FullMap c.messages) :
    Safe h0 C (firstMessage o c) (fun q => q ≠ none) := by
  unfold Panics.firstMessage
  refine (Safe.ranged ho c.messages).bind fun l hl => ?_
  match l, hl with
  | [], _ => exact Safe.fail
  | (k, p) :: rest, hl =>
    refine (Safe.deref (hc (k, p) (hl _ (List.mem_cons_self ..)))).seq fun a => (Safe.msg a).seq fun m => ?_
    cases m.refTo with
    | none => exact Safe.pure nofun
    | some b => exact Safe.pure nofun

theorem Safe.channelMessage {d : Doc} (T : Tame h0 d) {o : Order} (ho : o.Ok) {p : Ptr} (hp : p ≠ none) :
    Safe h0 (Calm h0 d) (channelMessage o p) (fun q => q ≠ none) := by
  have full : ∀ a c, ChanRel h0 a c → FullMap c.messages := by
    rintro a c ⟨r, rfl⟩
    exact (T.channels a).messages
  unfold Panics.channelMessage
  refine (Safe.deref hp).seq fun a => (Safe.channel a).bind fun c hc => ?_
  cases c.refTo with
  | none => exact Safe.firstMessage ho (full a c hc)
  | some b => exact (Safe.channel b).bind fun c hc => Safe.firstMessage ho (full b c hc)

/-- The message in which a reply address is looked for. -/
theorem Safe.askedMessage {d : Doc} (T : Tame h0 d) {o : Order} (ho : o.Ok) {op : Op} (h : Asked op) :
    Safe h0 (Calm h0 d) (getMessage o op) (fun q => q ≠ none) := by
  unfold Panics.getMessage
  rcases h.message with ⟨a, rest, hm⟩ | ⟨hm, hc⟩
  · rw [hm]; exact Safe.pure nofun
  · rw [hm]; exact Safe.channelMessage T ho hc

/-- The operation in which a reply address is looked for. -/
theorem Safe.askedOp {a : Nat} (h : Asked (h0.operations a)) : Safe h0 C (followOp (some a)) Asked := by
  unfold Panics.followOp
  refine (Safe.operation a).bind fun op hop => ?_
  have hr : op.ref = [] := hop.ref.trans h.ref
  rw [hop.refTo hr]
  exact Safe.pure ⟨hr, by rw [hop.messages, hop.channel]; exact h.message⟩

theorem Safe.setAddress {d : Doc} (T : Tame h0 d) {s : Doc} (hs : ∀ r, Calm h0 d r → RefOk h0 s r) {o : Order} (ho : o.Ok) (op : Option Nat) (p : Ptr)
    (h : ∀ b, p = some b → (h0.addresses b).location ≠ [] →
      LocOk (h0.addresses b).location ∧ ∃ a, op = some a ∧ Asked (h0.operations a)) :
    Safe h0 (Calm h0 d) (setAddress s o op p) (fun _ => True) := by
  cases p with
  | none => exact Safe.pure trivial
  | some b =>
    unfold Panics.setAddress
    refine (Safe.address b).bind fun t ht => ?_
    obtain ⟨r, rfl⟩ := ht
    refine Safe.seq (P := fun _ => True) (Safe.ite (fun _ => Safe.pure trivial) fun hne => ?_) fun _ => ?_
    · exact (Safe.referenceAs hs .address (T.addresses b hne)).seq fun x => Safe.linkAddress b x
    refine Safe.ite (fun _ => Safe.pure trivial) fun hl => ?_
    obtain ⟨hloc, a, rfl, hop⟩ := h b rfl hl
    refine (Safe.askedOp hop).bind fun op hop => (Safe.askedMessage T ho hop).bind fun m hm => ?_
    exact (Safe.createTree hm hloc).bind fun q hq => (Safe.deref hq).seq fun _ => Safe.pure trivial

theorem Safe.setReply {d : Doc} (T : Tame h0 d) {s : Doc} (hs : ∀ r, Calm h0 d r → RefOk h0 s r) {o : Order} (ho : o.Ok) (n : Nat) (op : Option Nat)
    (p : Ptr) (h : ∀ r b, p = some r → (h0.replies r).address = some b → (h0.addresses b).location ≠ [] →
      LocOk (h0.addresses b).location ∧ ∃ a, op = some a ∧ Asked (h0.operations a)) :
    Safe h0 (Calm h0 d) (setReply s o n op p) (fun _ => True) := by
  cases p with
  | none => exact Safe.pure trivial
  | some a =>
    unfold Panics.setReply
    refine (Safe.reply a).bind fun t ht => ?_
    obtain ⟨r, rfl⟩ := ht
    refine Safe.seq (P := fun _ => True) (Safe.ite (fun _ => Safe.pure trivial) fun hne => ?_) fun _ => ?_
    · exact (Safe.referenceAs hs .reply (T.replies a hne)).seq fun x => Safe.linkReply a x
    exact (Safe.setChannel T hs ho n _).seq fun _ => (Safe.each fun e _ => Safe.setMessage T hs ho n e).seq fun _ =>
      Safe.setAddress T hs ho op _ fun b hb => h a b rfl hb

theorem Safe.generateReply {d : Doc} (T : Tame h0 d) (a : Nat) : Safe h0 (Calm h0 d) (generateReply a) (fun _ => True) := by
  unfold Panics.generateReply
  refine (Safe.operation a).bind fun op hop => ?_
  cases hr : op.reply with
  | none => exact Safe.pure trivial
  | some r =>
    refine (Safe.reply r).bind fun x hx => ?_
    obtain ⟨y, rfl⟩ := hx
    exact (Safe.deref ((T.operations a).reply r (hop.reply.symm.trans hr))).seq fun _ => Safe.pure trivial

theorem Safe.setOpReference {d : Doc} (T : Tame h0 d) {s : Doc} (hs : ∀ r, Calm h0 d r → RefOk h0 s r) (a : Nat) :
    Safe h0 (Calm h0 d) (setOpReference s a) (fun _ => True) := by
  unfold Panics.setOpReference
  refine (Safe.operation a).bind fun x hx => Safe.ite (fun _ => Safe.pure trivial) fun hr => ?_
  refine (Safe.referenceAs hs .operation ((T.operations a).ref (hx.ref ▸ hr) |> (hx.ref ▸ ·))).seq fun t => ?_
  refine (Safe.operation a).bind fun y hy => ?_
  exact Safe.setOp { hy with refTo := fun h => absurd (hx.ref.trans (hy.ref.symm.trans h)) hr }

theorem Safe.setOperation {d : Doc} (T : Tame h0 d) {s : Doc} (hs : ∀ r, Calm h0 d r → RefOk h0 s r) {o : Order} (ho : o.Ok) (n : Nat) (p : Ptr) :
    Safe h0 (Calm h0 d) (setOperation s o n p) (fun _ => True) := by
  cases p with
  | none => exact Safe.pure trivial
  | some a =>
    have h := T.operations a
    unfold Panics.setOperation
    refine (Safe.setOpReference T hs a).seq fun _ => (Safe.operation a).bind fun op hop => ?_
    refine (Safe.setChannel T hs ho n _).seq fun _ => (Safe.setNamed hs hop.security).seq fun _ => ?_
    refine Safe.seq (Safe.setLeaf hs (by rw [hop.leaf]; exact h.leaf)) fun _ => (Safe.operation a).bind fun op hop => ?_
    refine Safe.seq (P := fun _ => True) (Safe.each fun t ht => ?_) fun _ => ?_
    · rw [hop.traits] at ht
      exact (Safe.setOTrait T hs t).seq fun _ => (Safe.followOTrait (h.traits t ht)).bind fun x hx => Safe.applyOTrait T a hx
    refine (Safe.operation a).seq fun op => (Safe.each fun e _ => Safe.setMessage T hs ho n e).seq fun _ => ?_
    refine (Safe.operation a).bind fun op hop => Safe.seq (P := fun _ => True) ?_ fun _ => Safe.generateReply T a
    refine Safe.setReply T hs ho n _ _ fun r b hr hb hl => ?_
    obtain ⟨h1, h2⟩ := h.location r b (hop.reply.symm.trans hr) hb hl
    exact ⟨h1, a, rfl, h2⟩

theorem Safe.setLeaves {s : Doc} (hs : ∀ r, C r → RefOk h0 s r) {o : Order} (ho : o.Ok) {m : GoMap Str (Option Leaf)}
    (h : ∀ e l, e ∈ m → e.2 = some l → CalmLeaf C l) : Safe h0 C (setLeaves s o m) (fun _ => True) := by
  unfold Panics.setLeaves
  refine (Safe.ranged ho m).bind fun l hl => Safe.each fun e he => ?_
  cases hx : e.2 with
  | none => exact Safe.pure trivial
  | some x => exact Safe.setLeaf hs (h e x (hl e he) hx)

theorem Safe.setComponents {d : Doc} (T : Tame h0 d) {s : Doc} (hd : s ∈ documents d) {o : Order} (ho : o.Ok) (n : Nat) :
    Safe h0 (Calm h0 d) (setComponents s o n s.main) (fun _ => True) := by
  have hs : ∀ r, Calm h0 d r → RefOk h0 s r := fun r hr => hr s hd
  have hr := T.roots s hd
  have leaves : ∀ k, Safe h0 (Calm h0 d) (Panics.setLeaves s o (s.main.others k)) (fun _ => True) := fun k =>
    Safe.setLeaves hs ho fun e l he hx => hr.others k e l he hx
  unfold Panics.setComponents
  refine (Safe.eachOf ho fun e _ => Safe.setSchema hs ho n e.2).seq fun _ => (leaves _).seq fun _ => ?_
  refine (Safe.eachOf ho fun e _ => Safe.setChannel T hs ho n e.2).seq fun _ => ?_
  refine (Safe.eachOf ho fun e _ => Safe.setOperation T hs ho n e.2).seq fun _ => ?_
  refine (Safe.eachOf ho fun e _ => Safe.setMessage T hs ho n e.2).seq fun _ => ?_
  refine (leaves _).seq fun _ => (leaves _).seq fun _ => (leaves _).seq fun _ => (leaves _).seq fun _ => ?_
  refine (leaves _).seq fun _ => (leaves _).seq fun _ => ?_
  refine (Safe.eachOf ho fun e _ => Safe.setOTrait T hs e.2).seq fun _ => ?_
  refine (Safe.eachOf ho fun e _ => Safe.setMTrait T hs ho n e.2).seq fun _ => ?_
  refine (leaves _).seq fun _ => (leaves _).seq fun _ => (leaves _).seq fun _ => (leaves _).seq fun _ => ?_
  refine (Safe.eachOf ho fun e he => Safe.setReply T hs ho n _ e.2 fun r b h1 h2 hl => ?_).seq fun _ => ?_
  · exact absurd (hr.replies e he r b h1 h2) hl
  · exact Safe.eachOf ho fun e he => Safe.setAddress T hs ho _ e.2 fun b h1 hl => absurd (hr.addresses e he b h1) hl

theorem Safe.setRoots {d : Doc} (T : Tame h0 d) {s : Doc} (hd : s ∈ documents d) {o : Order} (ho : o.Ok) (n : Nat) :
    Safe h0 (Calm h0 d) (setRoots s o n) (fun _ => True) := by
  have hs : ∀ r, Calm h0 d r → RefOk h0 s r := fun r hr => hr s hd
  unfold Panics.setRoots
  refine (Safe.setComponents T hd ho n).seq fun _ => (Safe.setLeaf hs (T.roots s hd).rest).seq fun _ => ?_
  refine (Safe.eachOf ho fun e _ => Safe.setChannel T hs ho n e.2).seq fun _ => ?_
  exact Safe.eachOf ho fun e _ => Safe.setOperation T hs ho n e.2

theorem Safe.process {d : Doc} (T : Tame h0 d) {o : Order} (ho : o.Ok) (n : Nat) : Safe h0 (Calm h0 d) (process d o n) (fun _ => True) := by
  unfold Panics.process
  refine (Safe.ranged ho d.deps).seq fun l => (Safe.each fun e _ => Safe.metaRoots ho n e.2).seq fun _ => ?_
  refine (Safe.metaRoots ho n _).seq fun _ => (Safe.ranged ho d.deps).bind fun l hl => ?_
  refine Safe.seq (P := fun _ => True) (Safe.each fun e he => ?_) fun _ => Safe.setRoots T (List.mem_cons_self ..) ho n
  exact Safe.setRoots T (List.mem_cons_of_mem _ (List.mem_map.2 ⟨e, hl e he, rfl⟩)) ho n

/-! ## Generation -/

theorem Safe.imports {o : Order} (ho : o.Ok) (n : Nat) {p : Ptr} (hp : p ≠ none) :
    Safe h0 C (imports o n p) (fun _ => True) := by
  induction n generalizing p with
  | zero => rw [Panics.imports]; exact Safe.tooDeep
  | succ n ih =>
    unfold Panics.imports
    refine (Safe.deref hp).seq fun a => (Safe.sch a).bind fun s hs => ?_
    refine (Safe.eachOf ho fun e he => ih (hs.1.props e he)).seq fun _ => ?_
    cases s.items with
    | none => exact Safe.pure trivial
    | some i => exact ih nofun

theorem Safe.messageImports {o : Order} (ho : o.Ok) (n : Nat) {p : Ptr} (hp : p ≠ none) :
    Safe h0 C (messageImports o n p) (fun _ => True) := by
  unfold Panics.messageImports
  refine (Safe.deref hp).seq fun a => (Safe.msg a).seq fun m => ?_
  cases m.payload with
  | none =>
    cases m.headers with
    | none => exact Safe.pure trivial
    | some b => exact Safe.imports ho n nofun
  | some b =>
    refine (Safe.imports ho n (Option.some_ne_none b)).seq fun _ => ?_
    cases m.headers with
    | none => exact Safe.pure trivial
    | some b => exact Safe.imports ho n nofun

theorem Safe.customImports {d : Doc} (T : Tame h0 d) {o : Order} (ho : o.Ok) (n : Nat) :
    Safe h0 (Calm h0 d) (customImports o n d.main) (fun _ => True) :=
  (Safe.eachOf ho fun e he => Safe.imports ho n (T.componentSchemas e he)).seq fun _ =>
    Safe.eachOf ho fun e he => Safe.messageImports ho n (T.componentMessages e he)

theorem Safe.generate {d : Doc} (T : Tame h0 d) {o : Order} (ho : o.Ok) (n : Nat) {sides : Bool}
    (hn : sides = true → NoNullOperation d) : Safe h0 (Calm h0 d) (generate d o n sides) (fun _ => True) := by
  unfold Panics.generate
  refine (Safe.process T ho n).seq fun _ => (Safe.customImports T ho n).seq fun _ => Safe.ite (fun h => ?_) fun _ => Safe.pure trivial
  exact Safe.eachOf ho fun e he => (Safe.deref (hn h e he)).seq fun _ => Safe.pure trivial

theorem no_panic {d : Doc} (T : Tame h0 d) {o : Order} (ho : o.Ok) (n : Nat) {sides : Bool}
    (hn : sides = true → NoNullOperation d) : run d o n sides h0 ≠ .error .panic := by
  have h := Safe.generate T ho n hn h0 (Inv.init T)
  unfold run
  cases hr : Panics.generate d o n sides h0 with
  | ok x => nofun
  | error e => rw [hr] at h; intro he; cases he; exact h rfl

end
end Verif.Panics
