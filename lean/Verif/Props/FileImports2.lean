import Verif.Model.FileImports2
import Verif.Props.FileImports

/-! # C124 for version 2: the generated file imports what it uses -/

namespace Verif.FileImports.V2
open Verif.Types (Cfg Sch Err Ty)
open Verif.Imports (Import)

/-! ## Specification -/

/-- A side takes part in a channel: the application receives what is published and sends what is subscribed to, the user the
other way round. -/
inductive Receives : Bool → Chan → Prop
  | app {ch : Chan} {o : Op} (h : ch.publish = some o) : Receives true ch
  | user {ch : Chan} {o : Op} (h : ch.subscribe = some o) : Receives false ch

inductive Sends : Bool → Chan → Prop
  | app {ch : Chan} {o : Op} (h : ch.subscribe = some o) : Sends true ch
  | user {ch : Chan} {o : Op} (h : ch.publish = some o) : Sends false ch

/-- The message sent on the channel has a correlation ID: that of the operation, the published one if there are two. -/
inductive Correlated : Chan → Prop
  | publish {ch : Chan} {o : Op} (h : ch.publish = some o) (hc : o.corr = true) : Correlated ch
  | subscribe {ch : Chan} {o : Op} (h : ch.publish = none) (h' : ch.subscribe = some o) (hc : o.corr = true) : Correlated ch

/-- The part is generated. -/
def Generated (g : Parts) (app : Bool) : Prop := (app = true ∧ g.app = true) ∨ (app = false ∧ g.user = true)

/-- The document `t` of version 3 has the messages that are written for `d`, none of them as a reference, its schemas, and
no operation. -/
structure Writes (d : Doc) (t : FileImports.Doc) : Prop where
  channel : ∀ m, m ∈ t.channelMsgs ↔ ∃ ch ∈ d.chans, ∃ o x, (ch.publish = some o ∨ ch.subscribe = some o) ∧ o.own = some x ∧
    m = { x with types := { x.types with ref := none } }
  component : ∀ m, m ∈ t.messages ↔ ∃ x ∈ d.messages, m = { x with types := { x.types with ref := none } }
  schema : ∀ s, s ∈ t.schemas ↔ s ∈ d.schemas

/-- Why the file of version 2 uses a package. -/
inductive Uses (c : Cfg) (g : Parts) (d : Doc) (t : FileImports.Doc) : Str → Prop
  | context {app : Bool} (h : Generated g app) : Uses c g d t qContext
  | extensions {app : Bool} (h : Generated g app) : Uses c g d t qExtensions
  | receives {app : Bool} {ch : Chan} (h : Generated g app) (hc : ch ∈ d.chans) (hr : Receives app ch) : Uses c g d t qFmt
  | path {app : Bool} {ch : Chan} {ps : List Sch} (h : Generated g app) (hc : ch ∈ d.chans) (hs : Sends app ch)
      (hp : ch.params = some ps) : Uses c g d t qFmt
  | uuid {app : Bool} {ch : Chan} (h : Generated g app) (hc : ch ∈ d.chans) (hs : Sends app ch) (hu : Correlated ch) :
      Uses c g d t qUuid
  | date {ch : Chan} {ps : List Sch} {s : Sch} {ty : Ty} (h : g.types = true) (hc : ch ∈ d.chans) (hp : ch.params = some ps)
      (hs : s ∈ ps) (hn : Types.schemaName c s = .ok ty) (hd : HasDate ty) : Uses c g d t qCivil
  | time {ch : Chan} {ps : List Sch} {s : Sch} {ty : Ty} (h : g.types = true) (hc : ch ∈ d.chans) (hp : ch.params = some ps)
      (hs : s ∈ ps) (hn : Types.schemaName c s = .ok ty) (hd : HasTime ty) : Uses c g d t qTime
  | types {q : Str} (h : g.types = true) (hu : FileImports.Uses c ⟨false, false, true⟩ t q) : Uses c g d t q

/-! ## Proofs -/

theorem receives_iff {app : Bool} {ch : Chan} : receives app ch = true ↔ Receives app ch := by
  unfold receives
  cases app with
  | true =>
    cases h : ch.publish with
    | none => exact ⟨(fun e => by simp at e), fun e => by cases e with | app h' => rw [h] at h'; cases h'⟩
    | some o => exact ⟨fun _ => .app h, fun _ => rfl⟩
  | false =>
    cases h : ch.subscribe with
    | none => exact ⟨(fun e => by simp at e), fun e => by cases e with | user h' => rw [h] at h'; cases h'⟩
    | some o => exact ⟨fun _ => .user h, fun _ => rfl⟩

theorem sends_iff {app : Bool} {ch : Chan} : sends app ch = true ↔ Sends app ch := by
  unfold sends
  cases app with
  | true =>
    cases h : ch.subscribe with
    | none => exact ⟨(fun e => by simp at e), fun e => by cases e with | app h' => rw [h] at h'; cases h'⟩
    | some o => exact ⟨fun _ => .app h, fun _ => rfl⟩
  | false =>
    cases h : ch.publish with
    | none => exact ⟨(fun e => by simp at e), fun e => by cases e with | user h' => rw [h] at h'; cases h'⟩
    | some o => exact ⟨fun _ => .user h, fun _ => rfl⟩

theorem publishCorr_iff {ch : Chan} : publishCorr ch = true ↔ Correlated ch := by
  unfold publishCorr
  cases hp : ch.publish with
  | some p =>
    refine ⟨fun h => .publish hp h, fun h => ?_⟩
    cases h with
    | publish h hc => rw [hp] at h; cases h; exact hc
    | subscribe h => rw [hp] at h; cases h
  | none =>
    cases hs : ch.subscribe with
    | some s =>
      refine ⟨fun h => .subscribe hp hs h, fun h => ?_⟩
      cases h with
      | publish h => rw [hp] at h; cases h
      | subscribe _ h hc => rw [hs] at h; cases h; exact hc
    | none =>
      refine ⟨(fun h => by simp at h), fun h => ?_⟩
      cases h with
      | publish h => rw [hp] at h; cases h
      | subscribe _ h => rw [hs] at h; cases h

theorem mem_path {ch : Chan} {q : Str} : q ∈ pathQuals ch ↔ q = qFmt ∧ ∃ ps, ch.params = some ps := by
  unfold pathQuals
  cases ch.params <;> simp

theorem mem_side {app : Bool} {chs : List Chan} {q : Str} : q ∈ sideQuals app chs ↔
    q = qContext ∨ q = qExtensions ∨ (q = qFmt ∧ ∃ ch ∈ chs, Receives app ch) ∨
    (q = qFmt ∧ ∃ ch ∈ chs, Sends app ch ∧ ∃ ps, ch.params = some ps) ∨ (q = qUuid ∧ ∃ ch ∈ chs, Sends app ch ∧ Correlated ch) := by
  have hw : ∀ ch, q ∈ waitQuals ch → q = qContext ∨ q = qExtensions ∨ q = qFmt := by
    intro ch h
    unfold waitQuals at h
    cases hs : ch.subscribe with
    | none => rw [hs] at h; cases h
    | some s =>
      rw [hs] at h
      cases hb : s.waits with
      | false => simp [hb] at h
      | true =>
        simp only [hb, if_true, List.mem_append, List.mem_singleton, mem_path] at h
        rcases h with (h | h) | h
        · exact .inl h
        · exact .inr (.inr h.1)
        · exact .inr (.inl h)
  unfold sideQuals
  simp only [List.mem_append, List.mem_map, List.mem_flatMap, List.mem_filter, List.mem_cons, List.not_mem_nil, or_false]
  constructor
  · rintro ((((⟨_, _, h⟩ | h | h) | ⟨ch, ⟨hc, hr⟩, h⟩) | ⟨ch, ⟨hc, hs⟩, h⟩) | h)
    · exact .inl h.symm
    · exact .inr (.inl h)
    · exact .inl h
    · have hr := receives_iff.1 hr
      simp only [receiveQuals, List.mem_append, List.mem_cons, List.not_mem_nil, or_false, mem_path] at h
      rcases h with (h | h) | h | h
      · exact .inl h
      · exact .inr (.inr (.inl ⟨h.1, ch, hc, hr⟩))
      · exact .inr (.inl h)
      · exact .inr (.inr (.inl ⟨h, ch, hc, hr⟩))
    · have hs := sends_iff.1 hs
      simp only [sendQuals, List.mem_append, List.mem_cons, List.not_mem_nil, or_false, mem_path] at h
      rcases h with ((h | h) | h) | h
      · exact .inl h
      · exact .inr (.inr (.inr (.inl ⟨h.1, ch, hc, hs, h.2⟩)))
      · cases hp : publishCorr ch with
        | false => simp [hp] at h
        | true =>
          simp only [hp, if_true, List.mem_singleton] at h
          exact .inr (.inr (.inr (.inr ⟨h, ch, hc, hs, publishCorr_iff.1 hp⟩)))
      · exact .inr (.inl h)
    · cases app with
      | true => simp at h
      | false =>
        simp only [Bool.false_eq_true, if_false, List.mem_flatMap, List.mem_filter] at h
        obtain ⟨ch, ⟨hc, hr⟩, h⟩ := h
        rcases hw ch h with h | h | h
        · exact .inl h
        · exact .inr (.inl h)
        · exact .inr (.inr (.inl ⟨h, ch, hc, receives_iff.1 hr⟩))
  · rintro (h | h | ⟨h, ch, hc, hr⟩ | ⟨h, ch, hc, hs, hp⟩ | ⟨h, ch, hc, hs, hu⟩)
    · exact .inl (.inl (.inl (.inr (.inr h))))
    · exact .inl (.inl (.inl (.inr (.inl h))))
    · exact .inl (.inl (.inr ⟨ch, ⟨hc, receives_iff.2 hr⟩, by simp [receiveQuals, h]⟩))
    · refine .inl (.inr ⟨ch, ⟨hc, sends_iff.2 hs⟩, ?_⟩)
      simp only [sendQuals, List.mem_append]
      exact .inl (.inl (.inr (mem_path.2 ⟨h, hp⟩)))
    · refine .inl (.inr ⟨ch, ⟨hc, sends_iff.2 hs⟩, ?_⟩)
      simp [sendQuals, publishCorr_iff.2 hu, h]

theorem mem_params {c : Cfg} {chs : List Chan} {l : List Str} (h : catAll (chs.map (chanQuals c)) = .ok l) (q : Str) :
    q ∈ l ↔ ∃ ch ∈ chs, ∃ ps, ch.params = some ps ∧ ∃ s ∈ ps, ∃ ty, Types.schemaName c s = .ok ty ∧
      ((q = qCivil ∧ HasDate ty) ∨ (q = qTime ∧ HasTime ty)) := by
  obtain ⟨h1, h2⟩ := mem_catAll h
  rw [h2]
  have key : ∀ ch : Chan, (∃ x, chanQuals c ch = .ok x) → ((∃ x, chanQuals c ch = .ok x ∧ q ∈ x) ↔
      ∃ ps, ch.params = some ps ∧ ∃ s ∈ ps, ∃ ty, Types.schemaName c s = .ok ty ∧
      ((q = qCivil ∧ HasDate ty) ∨ (q = qTime ∧ HasTime ty))) := by
    rintro ch ⟨x, hx⟩
    rw [hx]
    unfold chanQuals at hx
    cases hp : ch.params with
    | none => rw [hp] at hx; cases hx; simp
    | some ps =>
      rw [hp] at hx
      obtain ⟨_, h4⟩ := mem_catAll hx
      constructor
      · rintro ⟨y, hy, hq⟩
        cases hy
        obtain ⟨s, hs, z, hz, hq⟩ := (h4 q).1 hq
        unfold paramQuals at hz
        cases hn : Types.schemaName c s with
        | error e => rw [hn] at hz; cases hz
        | ok ty => rw [hn] at hz; cases hz; exact ⟨ps, rfl, s, hs, ty, hn, mem_tyQuals.1 hq⟩
      · rintro ⟨ps', e, s, hs, ty, hn, hq⟩
        cases e
        exact ⟨x, rfl, (h4 q).2 ⟨s, hs, tyQuals ty, by unfold paramQuals; rw [hn], mem_tyQuals.2 hq⟩⟩
  constructor
  · rintro ⟨ch, hc, hx⟩
    exact ⟨ch, hc, (key ch (h1 ch hc)).1 hx⟩
  · rintro ⟨ch, hc, hx⟩
    exact ⟨ch, hc, (key ch (h1 ch hc)).2 hx⟩

theorem mem_own {ch : Chan} {m : Msg} : m ∈ ownMsgs ch ↔ ∃ o, (ch.publish = some o ∨ ch.subscribe = some o) ∧ o.own = some m := by
  unfold ownMsgs
  cases hs : ch.subscribe <;> cases hp : ch.publish <;> simp
  exact Or.comm

theorem writes_typesPart (d : Doc) : Writes d d.typesPart := by
  refine ⟨fun m => ?_, fun m => ?_, fun _ => Iff.rfl⟩
  · simp only [Doc.typesPart, List.mem_map, List.mem_flatMap, mem_own]
    constructor
    · rintro ⟨x, ⟨ch, hc, o, ho, hx⟩, rfl⟩
      exact ⟨ch, hc, o, x, ho, hx, rfl⟩
    · rintro ⟨ch, hc, o, x, ho, hx, rfl⟩
      exact ⟨x, ⟨ch, hc, o, ho, hx⟩, rfl⟩
  · simp only [Doc.typesPart, List.mem_map]
    exact ⟨fun ⟨x, hx, e⟩ => ⟨x, hx, e.symm⟩, fun ⟨x, hx, e⟩ => ⟨x, hx, e.symm⟩⟩

/-- What the types part uses depends on which messages are written and on the schemas. -/
theorem uses_congr {c : Cfg} {t t' : FileImports.Doc} (hm : ∀ m, Written t m → Written t' m) (hs : ∀ s, s ∈ t.schemas → s ∈ t'.schemas)
    {q : Str} (h : FileImports.Uses c ⟨false, false, true⟩ t q) : FileImports.Uses c ⟨false, false, true⟩ t' q := by
  have hd : ∀ e, Declared c t e → Declared c t' e := by
    rintro e (⟨m, ds, hw, h⟩ | ⟨s, h, h'⟩)
    · exact .inl ⟨m, ds, hm m hw, h⟩
    · exact .inr ⟨s, hs s h, h'⟩
  cases h with
  | appContext h => cases h
  | userContext h => cases h
  | appExtensions h => cases h
  | userExtensions h => cases h
  | appFmt h => cases h
  | userFmt h => cases h
  | appUuid h => cases h
  | userUuid h => cases h
  | typesExtensions h => exact .typesExtensions h
  | typesFmt h => exact .typesFmt h
  | date h he hx ht => exact .date h (hd _ he) hx ht
  | time h he hx ht => exact .time h (hd _ he) hx ht
  | extraJson h he hx => exact .extraJson h (hd _ he) hx
  | schemaJson h hx hi => exact .schemaJson h (hs _ hx) hi
  | schemaTime h hx hi => exact .schemaTime h (hs _ hx) hi
  | instantJson h hx hi => exact .instantJson h (hm _ hx) hi
  | instantTime h hx hi => exact .instantTime h (hm _ hx) hi
  | corr h hx hc => exact .corr h (hm _ hx) hc
  | integer h hx hp => exact .integer h (hm _ hx) hp
  | number h hx hp => exact .number h (hm _ hx) hp
  | math h hx hp => exact .math h (hm _ hx) hp
  | payloadJson h hx h1 h2 h3 => exact .payloadJson h (hm _ hx) h1 h2 h3
  | payloadTime h hx hp hf => exact .payloadTime h (hm _ hx) hp hf
  | headerJson h hx hy ht => exact .headerJson h (hm _ hx) hy ht
  | headerTime h hx hy ht hf => exact .headerTime h (hm _ hx) hy ht hf

theorem writes_same {d : Doc} {t t' : FileImports.Doc} (h : Writes d t) (h' : Writes d t') (m : Msg) (hw : Written t m) : Written t' m :=
  ⟨hw.1.elim (fun e => .inl ((h'.channel m).2 ((h.channel m).1 e))) (fun e => .inr ((h'.component m).2 ((h.component m).1 e))), hw.2⟩

/-- **C124 (version 2).** The packages a file of version 2 uses are exactly those the document gives a reason to use. -/
theorem C124_v2_uses {c : Cfg} {g : Parts} {d : Doc} {qs : List Str} (h : fileQuals c g d = .ok qs) {t : FileImports.Doc}
    (ht : Writes d t) (q : Str) : q ∈ qs ↔ Uses c g d t q := by
  unfold fileQuals at h
  obtain ⟨x, y, hx, hy, rfl⟩ := mem_cat h
  obtain ⟨x2, z, hx2, hz, rfl⟩ := mem_cat hy
  cases hx
  cases hx2
  have hside : ∀ (app b : Bool), q ∈ (if b = true then sideQuals app d.chans else []) ↔ b = true ∧ q ∈ sideQuals app d.chans := by
    intro app b; cases b <;> simp
  have hz' : q ∈ z ↔ g.types = true ∧ ((∃ ch ∈ d.chans, ∃ ps, ch.params = some ps ∧ ∃ s ∈ ps, ∃ ty, Types.schemaName c s = .ok ty ∧
      ((q = qCivil ∧ HasDate ty) ∨ (q = qTime ∧ HasTime ty))) ∨ FileImports.Uses c ⟨false, false, true⟩ t q) := by
    cases hg : g.types with
    | false => rw [hg] at hz; cases hz; simp
    | true =>
      rw [hg, if_pos rfl] at hz
      obtain ⟨a, b, ha, hb, rfl⟩ := mem_cat hz
      have hf : FileImports.fileQuals c ⟨false, false, true⟩ d.typesPart = .ok b := by
        unfold FileImports.fileQuals
        simp only [Bool.false_eq_true, if_false, if_true, hb, cat, List.nil_append]
      rw [List.mem_append, mem_params ha, C124_uses hf]
      have hw := writes_typesPart d
      rw [and_iff_right rfl]
      refine or_congr Iff.rfl ⟨fun h => ?_, fun h => ?_⟩
      · exact uses_congr (writes_same hw ht) (fun s hs => (ht.schema s).2 ((hw.schema s).1 hs)) h
      · exact uses_congr (writes_same ht hw) (fun s hs => (hw.schema s).2 ((ht.schema s).1 hs)) h
  rw [List.mem_append, List.mem_append, hside, hside, hz']
  have hS : ∀ app, Generated g app → q ∈ sideQuals app d.chans → Uses c g d t q := by
    intro app hg hq
    rcases mem_side.1 hq with (rfl | rfl | ⟨rfl, ch, hc, hr⟩ | ⟨rfl, ch, hc, hs, ps, hp⟩ | ⟨rfl, ch, hc, hs, hu⟩)
    · exact .context hg
    · exact .extensions hg
    · exact .receives hg hc hr
    · exact .path hg hc hs hp
    · exact .uuid hg hc hs hu
  constructor
  · rintro (⟨hg, hq⟩ | ⟨hg, hq⟩ | ⟨hg, ⟨ch, hc, ps, hp, s, hs, ty, hn, ⟨rfl, hd⟩ | ⟨rfl, hd⟩⟩ | hu⟩)
    · exact hS true (.inl ⟨rfl, hg⟩) hq
    · exact hS false (.inr ⟨rfl, hg⟩) hq
    · exact .date hg hc hp hs hn hd
    · exact .time hg hc hp hs hn hd
    · exact .types hg hu
  · have gen : ∀ {app : Bool}, Generated g app → q ∈ sideQuals app d.chans →
        (g.app = true ∧ q ∈ sideQuals true d.chans) ∨ (g.user = true ∧ q ∈ sideQuals false d.chans) := by
      intro app hg hp
      rcases hg with ⟨rfl, hg⟩ | ⟨rfl, hg⟩
      · exact .inl ⟨hg, hp⟩
      · exact .inr ⟨hg, hp⟩
    intro hu
    rw [← or_assoc]
    cases hu with
    | context hg => exact .inl (gen hg (mem_side.2 (.inl rfl)))
    | extensions hg => exact .inl (gen hg (mem_side.2 (.inr (.inl rfl))))
    | receives hg hc hr => exact .inl (gen hg (mem_side.2 (.inr (.inr (.inl ⟨rfl, _, hc, hr⟩)))))
    | path hg hc hs hp => exact .inl (gen hg (mem_side.2 (.inr (.inr (.inr (.inl ⟨rfl, _, hc, hs, _, hp⟩))))))
    | uuid hg hc hs hu => exact .inl (gen hg (mem_side.2 (.inr (.inr (.inr (.inr ⟨rfl, _, hc, hs, hu⟩))))))
    | date hg hc hp hs hn hd => exact .inr ⟨hg, .inl ⟨_, hc, _, hp, _, hs, _, hn, .inl ⟨rfl, hd⟩⟩⟩
    | time hg hc hp hs hn hd => exact .inr ⟨hg, .inl ⟨_, hc, _, hp, _, hs, _, hn, .inr ⟨rfl, hd⟩⟩⟩
    | types hg hu => exact .inr ⟨hg, .inr hu⟩

theorem v2_fixed {c : Cfg} {g : Parts} {d : Doc} {t : FileImports.Doc} {q : Str} (h : Uses c g d t q) : q ∈ fixedNames ∧ q ≠ qErrors := by
  cases h with
  | types _ hu => exact uses_fixed hu
  | _ => decide

/-- **C124 (version 2, partial: custom Go types are left out).** Every package the file uses is imported under the name the
file uses. -/
theorem C124_v2_imported_partial {pkg : Str → Str} (hk : Known pkg) {c : Cfg} {g : Parts} {d : Doc} {qs : List Str}
    (h : fileQuals c g d = .ok qs) {di : Imports.Doc} {b : List Import} (hb : block di = some b) {q : Str} (hq : q ∈ qs) :
    ∃ i ∈ b, declares pkg i = some q := by
  obtain ⟨l, _, rfl⟩ := block_some hb
  have := (v2_fixed ((C124_v2_uses h (writes_typesPart d) q).1 hq)).1
  rw [← fixed_names hk, List.mem_filterMap] at this
  obtain ⟨i, hi, hd⟩ := this
  exact ⟨i, List.mem_append_left _ hi, hd⟩

/-- **C124 is violated** (version 2): `errors` is imported and never used, for every document and every choice of parts. -/
theorem C124_v2_violated_unused {pkg : Str → Str} (hk : Known pkg) {c : Cfg} {g : Parts} {d : Doc} {qs : List Str}
    (h : fileQuals c g d = .ok qs) {di : Imports.Doc} {b : List Import} (hb : block di = some b) :
    ∃ i ∈ b, declares pkg i = some qErrors ∧ qErrors ∉ qs := by
  obtain ⟨l, _, rfl⟩ := block_some hb
  refine ⟨⟨[], "errors".toList⟩, List.mem_append_left _ (by decide), ?_, ?_⟩
  · unfold declares; rw [if_pos rfl, hk.errors]
  · intro hq; exact (v2_fixed ((C124_v2_uses h (writes_typesPart d) _).1 hq)).2 rfl

/-! ## Non-vacuity -/

/-- A channel with a parameter that is a date, to which messages with a correlation ID are published. -/
def exChan : Chan :=
  { params := some [.node ⟨['d'], [], Types.tString, "date".toList, false, none⟩ [] none none],
    publish := some { corr := true, own := some exMsg } }

example : (match fileQuals ⟨id, true⟩ ⟨false, true, true⟩ ⟨[exChan], [], []⟩ with
    | .ok qs => fixedNames.filter (fun q => decide (q ∈ qs))
    | .error _ => []) = [qJson, qFmt, qContext, qExtensions, qUuid, qCivil] := by decide

example : (match fileQuals ⟨id, true⟩ ⟨false, true, false⟩ ⟨[exChan], [], []⟩ with
    | .ok qs => fixedNames.filter (fun q => decide (q ∈ qs))
    | .error _ => []) = [qFmt, qContext, qExtensions, qUuid] := by decide

end Verif.FileImports.V2
