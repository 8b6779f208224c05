import Verif.Model.FileImports
import Verif.Props.Imports

/-!
# C124: the generated file imports what it uses
-/

namespace Verif.FileImports
open Verif.Types (Cfg Info Sch Ty Err Decl Body)
open Verif.Imports (Import DocCarries)

/-! ## Specification -/

/-- `pkg` tells the name of the package at each path; the fixed packages have the names the templates use. -/
structure Known (pkg : Str → Str) : Prop where
  json : pkg "encoding/json".toList = qJson
  time : pkg "time".toList = qTime
  errors : pkg "errors".toList = qErrors
  fmt : pkg "fmt".toList = qFmt
  context : pkg "context".toList = qContext
  binary : pkg "encoding/binary".toList = qBinary
  math : pkg "math".toList = qMath
  extensions : pkg "github.com/lerenn/asyncapi-codegen/pkg/extensions".toList = qExtensions
  uuid : pkg "github.com/google/uuid".toList = qUuid
  civil : pkg "cloud.google.com/go/civil".toList = qCivil

/-- The name an import declares in the file: the one given to it, or that of the package. A dot or an underscore
declares none. -/
def declares (pkg : Str → Str) (i : Import) : Option Str :=
  if i.name = [] then some (pkg i.path)
  else if i.name = ['.'] ∨ i.name = ['_'] then none
  else some i.name

/-- The names of the fixed packages. -/
def fixedNames : List Str :=
  [qJson, qTime, qErrors, qFmt, qContext, qBinary, qMath, qExtensions, qUuid, qCivil]

/-- A message that is written: a message of a channel or of the components that is no reference. -/
def Written (d : Doc) (m : Msg) : Prop := (m ∈ d.channelMsgs ∨ m ∈ d.messages) ∧ m.types.ref = none

/-- The type mentions a date, an instant. -/
inductive HasDate : Ty → Prop
  | date : HasDate .date
  | slice {t : Ty} (h : HasDate t) : HasDate (.slice t)
inductive HasTime : Ty → Prop
  | time : HasTime .time
  | slice {t : Ty} (h : HasTime t) : HasTime (.slice t)

/-- A type that the declaration mentions. -/
inductive Mentions : Decl → Ty → Prop
  | field {n : Str} {fs : List (Str × Ty)} {x : Option Ty} {k : Str} {t : Ty} (h : (k, t) ∈ fs) :
      Mentions ⟨n, .struct fs x⟩ t
  | extra {n : Str} {fs : List (Str × Ty)} {t : Ty} : Mentions ⟨n, .struct fs (some t)⟩ t
  | alias {n : Str} {t : Ty} : Mentions ⟨n, .alias t⟩ t

/-- A declaration the types part writes: of a written message or of a component schema. -/
def Declared (c : Cfg) (d : Doc) (e : Decl) : Prop :=
  (∃ m ds, Written d m ∧ Types.msgDecls c m.types = .ok ds ∧ e ∈ ds) ∨
    ∃ s ∈ d.schemas, ∃ ds, Types.decls c s = .ok ds ∧ e ∈ ds

/-- A side calls the UUID package: it sends a message with a correlation ID that is no reply, or makes a request. -/
def SideUuid (s : Side) : Prop := ∃ o ∈ s.send, o.corr = true ∧ (o.isReply = false ∨ o.reply.isSome = true)

/-- A side formats errors or addresses: it receives something, makes a request, or sends to a channel with an address and
parameters. -/
def SideFmt (s : Side) : Prop :=
  s.receive ≠ [] ∨ ∃ o ∈ s.send, o.reply.isSome = true ∨ (o.params = true ∧ o.address = true)

/-- A format that is generated as a date or an instant: unless formats are ignored. -/
def DateFmt (c : Cfg) (f : Str) : Prop := c.dates = true ∧ (f = "date".toList ∨ f = "date-time".toList)

/-- The declaration is a struct with additional properties. -/
def Extra (e : Decl) : Prop := ∃ n fs t, e = ⟨n, .struct fs (some t)⟩

/-- The functions of instants of a message, in words: headers that are neither a reference nor an object, or an array
that is a payload and no reference, with the format of a date. -/
def MsgInstant (c : Cfg) (m : Types.Msg) : Prop :=
  (∃ h, m.headers = some h ∧ h.isRef = false ∧ h.info.type ≠ Types.tObject ∧ DateFmt c h.info.format) ∨
  (∃ p, m.payload = some p ∧ p.isRef = false ∧ p.info.type = Types.tArray ∧ DateFmt c p.info.format)

/-- The functions of instants of a component schema. -/
def SchInstant (c : Cfg) (s : Sch) : Prop := s.info.type ≠ Types.tObject ∧ DateFmt c s.info.format

/-- Why the generated file uses a package. -/
inductive Uses (c : Cfg) (g : Parts) (d : Doc) : Str → Prop
  -- a controller
  | appContext (h : g.app = true) : Uses c g d qContext
  | userContext (h : g.user = true) : Uses c g d qContext
  | appExtensions (h : g.app = true) : Uses c g d qExtensions
  | userExtensions (h : g.user = true) : Uses c g d qExtensions
  | appFmt (h : g.app = true) (hs : SideFmt d.app) : Uses c g d qFmt
  | userFmt (h : g.user = true) (hs : SideFmt d.user) : Uses c g d qFmt
  | appUuid (h : g.app = true) (hs : SideUuid d.app) : Uses c g d qUuid
  | userUuid (h : g.user = true) (hs : SideUuid d.user) : Uses c g d qUuid
  -- the types
  | typesExtensions (h : g.types = true) : Uses c g d qExtensions
  | typesFmt (h : g.types = true) : Uses c g d qFmt
  | date (h : g.types = true) {e : Decl} {t : Ty} (he : Declared c d e) (hm : Mentions e t) (ht : HasDate t) : Uses c g d qCivil
  | time (h : g.types = true) {e : Decl} {t : Ty} (he : Declared c d e) (hm : Mentions e t) (ht : HasTime t) : Uses c g d qTime
  | extraJson (h : g.types = true) {e : Decl} (he : Declared c d e) (hx : Extra e) : Uses c g d qJson
  | schemaJson (h : g.types = true) {s : Sch} (hs : s ∈ d.schemas) (hi : SchInstant c s) : Uses c g d qJson
  | schemaTime (h : g.types = true) {s : Sch} (hs : s ∈ d.schemas) (hi : SchInstant c s) : Uses c g d qTime
  | instantJson (h : g.types = true) {m : Msg} (hm : Written d m) (hi : MsgInstant c m.types) : Uses c g d qJson
  | instantTime (h : g.types = true) {m : Msg} (hm : Written d m) (hi : MsgInstant c m.types) : Uses c g d qTime
  -- the functions of a message
  | corr (h : g.types = true) {m : Msg} (hm : Written d m) (hc : m.corr = true) : Uses c g d qUuid
  | integer (h : g.types = true) {m : Msg} (hm : Written d m) (hp : m.payload.type = Types.tInteger) : Uses c g d qBinary
  | number (h : g.types = true) {m : Msg} (hm : Written d m) (hp : m.payload.type = Types.tNumber) : Uses c g d qBinary
  | math (h : g.types = true) {m : Msg} (hm : Written d m) (hp : m.payload.type = Types.tNumber) : Uses c g d qMath
  | payloadJson (h : g.types = true) {m : Msg} (hm : Written d m) (h1 : m.payload.type ≠ Types.tString)
      (h2 : m.payload.type ≠ Types.tInteger) (h3 : m.payload.type ≠ Types.tNumber) : Uses c g d qJson
  | payloadTime (h : g.types = true) {m : Msg} (hm : Written d m) (hp : m.payload.type = Types.tString)
      (hf : DateFmt c m.payload.format) : Uses c g d qTime
  | headerJson (h : g.types = true) {m : Msg} {x : Hdr} (hm : Written d m) (hx : x ∈ m.hdrs)
      (ht : x.type = Types.tObject) : Uses c g d qJson
  | headerTime (h : g.types = true) {m : Msg} {x : Hdr} (hm : Written d m) (hx : x ∈ m.hdrs)
      (ht : x.type ≠ Types.tObject) (hf : DateFmt c x.format) : Uses c g d qTime

/-! ## Which qualifiers a file has -/

theorem isDate_iff {c : Cfg} {f : Str} : isDate c f = true ↔ DateFmt c f := by
  unfold isDate DateFmt
  simp only [Bool.and_eq_true, Bool.or_eq_true, decide_eq_true_eq]

theorem mem_cat {a b : Except Err (List Str)} {l : List Str} (h : cat a b = .ok l) :
    ∃ x y, a = .ok x ∧ b = .ok y ∧ l = x ++ y := by
  unfold cat at h
  cases a with
  | error e => cases h
  | ok x => cases b with
    | error e => cases h
    | ok y => cases h; exact ⟨x, y, rfl, rfl, rfl⟩

theorem mem_catAll {α : Type} {f : α → Except Err (List Str)} : ∀ {as : List α} {l : List Str},
    catAll (as.map f) = .ok l → (∀ a ∈ as, ∃ x, f a = .ok x) ∧ ∀ q, q ∈ l ↔ ∃ a ∈ as, ∃ x, f a = .ok x ∧ q ∈ x
  | [], l, h => by cases h; simp
  | a :: as, l, h => by
    obtain ⟨x, y, hx, hy, rfl⟩ := mem_cat h
    obtain ⟨h1, h2⟩ := mem_catAll hy
    constructor
    · intro b hb
      rcases List.mem_cons.1 hb with rfl | hb
      · exact ⟨x, hx⟩
      · exact h1 b hb
    · intro q
      rw [List.mem_append, h2]
      constructor
      · rintro (hq | ⟨b, hb, z, hz, hq⟩)
        · exact ⟨a, List.mem_cons_self, x, hx, hq⟩
        · exact ⟨b, List.mem_cons_of_mem _ hb, z, hz, hq⟩
      · rintro ⟨b, hb, z, hz, hq⟩
        rcases List.mem_cons.1 hb with rfl | hb
        · rw [hx] at hz; cases hz; exact Or.inl hq
        · exact Or.inr ⟨b, hb, z, hz, hq⟩

theorem mem_msgQuals {c : Cfg} {m : Msg} (hr : m.types.ref = none) {l : List Str} (h : msgQuals c m = .ok l) :
    ∃ ts, msgTypeQuals c m.types = .ok ts ∧ l = ts ++ (if m.corr then [qUuid] else []) ++ [qExtensions] ++
      decodePayload c m.payload ++ m.hdrs.flatMap (decodeHdr c) ++ encodePayload c m.payload ++
      m.hdrs.flatMap (encodeHdr c) := by
  unfold msgQuals at h
  rw [hr] at h
  simp only at h
  cases ht : msgTypeQuals c m.types with
  | error e => rw [ht] at h; cases h
  | ok ts => rw [ht] at h; cases h; exact ⟨ts, rfl, rfl⟩

/-- The qualifiers a message writes besides those of its types. -/
def bodyQuals (c : Cfg) (m : Msg) : List Str :=
  (if m.corr then [qUuid] else []) ++ [qExtensions] ++ decodePayload c m.payload ++ m.hdrs.flatMap (decodeHdr c) ++
    encodePayload c m.payload ++ m.hdrs.flatMap (encodeHdr c)

/-- The functions of instants that a message writes for its headers and payload. -/
def instQuals (c : Cfg) (m : Types.Msg) : List Str :=
  (match m.headers with
    | some h => if h.isRef then [] else timeQuals c h.info
    | none => []) ++
  (match m.payload with
    | some p => if (p.info.type = Types.tObject ∨ p.info.type = Types.tArray) ∧ p.isRef = false then timeQuals c p.info else []
    | none => [])

theorem mem_timeQuals {c : Cfg} {i : Info} {q : Str} :
    q ∈ timeQuals c i ↔ (i.type ≠ Types.tObject ∧ DateFmt c i.format) ∧ (q = qJson ∨ q = qTime) := by
  rw [← isDate_iff]
  unfold timeQuals
  split
  · rename_i h; simp [h]
  · rename_i h; simp [h]

theorem mem_instQuals {c : Cfg} {m : Types.Msg} {q : Str} :
    q ∈ instQuals c m ↔ MsgInstant c m ∧ (q = qJson ∨ q = qTime) := by
  unfold instQuals MsgInstant
  rw [List.mem_append]
  have h1 : (q ∈ (match m.headers with
      | some h => if h.isRef then [] else timeQuals c h.info
      | none => [])) ↔ (∃ h, m.headers = some h ∧ h.isRef = false ∧ h.info.type ≠ Types.tObject ∧
        DateFmt c h.info.format) ∧ (q = qJson ∨ q = qTime) := by
    cases m.headers with
    | none => simp
    | some h =>
      cases hr : h.isRef with
      | true => simp [hr]
      | false => simp [hr, mem_timeQuals, and_assoc]
  have h2 : (q ∈ (match m.payload with
      | some p => if (p.info.type = Types.tObject ∨ p.info.type = Types.tArray) ∧ p.isRef = false then timeQuals c p.info else []
      | none => [])) ↔ (∃ p, m.payload = some p ∧ p.isRef = false ∧ p.info.type = Types.tArray ∧
        DateFmt c p.info.format) ∧ (q = qJson ∨ q = qTime) := by
    cases m.payload with
    | none => simp
    | some p =>
      have hne : Types.tArray ≠ Types.tObject := by decide
      by_cases ho : p.info.type = Types.tObject
      · have hna : p.info.type ≠ Types.tArray := by rw [ho]; exact hne.symm
        simp [ho, mem_timeQuals, hne.symm]
      · by_cases ha : p.info.type = Types.tArray
        · cases hr : p.isRef with
          | true => simp [hr]
          | false => simp [hr, ha, mem_timeQuals, hne]
        · simp [ho, ha]
  rw [h1, h2]
  constructor
  · rintro (⟨h, hq⟩ | ⟨h, hq⟩)
    · exact ⟨Or.inl h, hq⟩
    · exact ⟨Or.inr h, hq⟩
  · rintro ⟨h | h, hq⟩
    · exact Or.inl ⟨h, hq⟩
    · exact Or.inr ⟨h, hq⟩

theorem mem_fileQuals {c : Cfg} {g : Parts} {d : Doc} {qs : List Str} (h : fileQuals c g d = .ok qs) (q : Str) :
    q ∈ qs ↔ (g.app = true ∧ q ∈ sideQuals d.app) ∨ (g.user = true ∧ q ∈ sideQuals d.user) ∨
      (g.types = true ∧ (q = qExtensions ∨ q = qFmt ∨ (∃ e, Declared c d e ∧ q ∈ declQuals e) ∨
        (∃ m, Written d m ∧ (q ∈ bodyQuals c m ∨ (MsgInstant c m.types ∧ (q = qJson ∨ q = qTime)))) ∨
        (∃ s ∈ d.schemas, SchInstant c s ∧ (q = qJson ∨ q = qTime)))) := by
  unfold fileQuals at h
  obtain ⟨x, y, hx, hy, rfl⟩ := mem_cat h
  obtain ⟨x2, z, hx2, hz, rfl⟩ := mem_cat hy
  cases hx
  cases hx2
  rw [List.mem_append, List.mem_append]
  have ha : ∀ (b : Bool) (s : Side), q ∈ (if b = true then sideQuals s else []) ↔ b = true ∧ q ∈ sideQuals s := by
    intro b s; cases b <;> simp
  rw [ha, ha]
  refine or_congr Iff.rfl (or_congr Iff.rfl ?_)
  cases hg : g.types with
  | false => rw [hg] at hz; cases hz; simp
  | true =>
    rw [hg, if_pos rfl] at hz
    unfold typesQuals at hz
    obtain ⟨w, y1, hw, hy1, rfl⟩ := mem_cat hz
    obtain ⟨y2, y3, hy2, hy3, rfl⟩ := mem_cat hy1
    obtain ⟨y4, y5, hy4, hy5, rfl⟩ := mem_cat hy3
    cases hw
    obtain ⟨e1, m1⟩ := mem_catAll hy2
    obtain ⟨e2, m2⟩ := mem_catAll hy4
    obtain ⟨e3, m3⟩ := mem_catAll hy5
    simp only [List.mem_append, true_and, m1 q, m2 q, m3 q, List.mem_cons, List.not_mem_nil, or_false]
    -- messages
    have hmsg : ∀ m : Msg, (∃ x, msgQuals c m = .ok x) → ((∃ x, msgQuals c m = .ok x ∧ q ∈ x) ↔
        m.types.ref = none ∧ ((∃ ds, Types.msgDecls c m.types = .ok ds ∧ ∃ e ∈ ds, q ∈ declQuals e) ∨
          q ∈ bodyQuals c m ∨ (MsgInstant c m.types ∧ (q = qJson ∨ q = qTime)))) := by
      intro m hm
      cases hr : m.types.ref with
      | some r =>
        have : msgQuals c m = .ok [] := by unfold msgQuals; rw [hr]
        simp [this]
      | none =>
        obtain ⟨x, hx⟩ := hm
        obtain ⟨ts, hts, hl⟩ := mem_msgQuals hr hx
        have ht2 := hts
        unfold msgTypeQuals at ht2
        cases hd : Types.msgDecls c m.types with
        | error e => rw [hd] at ht2; cases ht2
        | ok ds =>
          rw [hd] at ht2
          simp only [Except.ok.injEq] at ht2
          have hts' : ∀ q, q ∈ ts ↔ (∃ e ∈ ds, q ∈ declQuals e) ∨ (MsgInstant c m.types ∧ (q = qJson ∨ q = qTime)) := by
            intro q
            rw [← ht2, List.append_assoc, List.mem_append, List.mem_flatMap]
            exact or_congr Iff.rfl mem_instQuals
          have hx' : q ∈ x ↔ q ∈ ts ∨ q ∈ bodyQuals c m := by
            rw [hl]; unfold bodyQuals; simp only [List.mem_append]
            constructor
            · rintro ((((((h | h) | h) | h) | h) | h) | h) <;> simp [h]
            · rintro (h | (((((h | h) | h) | h) | h) | h)) <;> simp [h]
          constructor
          · rintro ⟨x', hx2, hq⟩
            rw [hx] at hx2; cases hx2
            refine ⟨rfl, ?_⟩
            rcases hx'.1 hq with hq | hq
            · rcases (hts' q).1 hq with hq | hq
              · exact Or.inl ⟨ds, rfl, hq⟩
              · exact Or.inr (Or.inr hq)
            · exact Or.inr (Or.inl hq)
          · rintro ⟨_, hq⟩
            refine ⟨x, hx, hx'.2 ?_⟩
            rcases hq with ⟨ds', hds, hq⟩ | hq | hq
            · cases hds; exact Or.inl ((hts' q).2 (Or.inl hq))
            · exact Or.inr hq
            · exact Or.inl ((hts' q).2 (Or.inr hq))
    have hsch : ∀ s : Sch, (∃ x, schQuals c s = .ok x) → ((∃ x, schQuals c s = .ok x ∧ q ∈ x) ↔
        (∃ ds, Types.decls c s = .ok ds ∧ ∃ e ∈ ds, q ∈ declQuals e) ∨ (SchInstant c s ∧ (q = qJson ∨ q = qTime))) := by
      intro s hs
      obtain ⟨x, hx⟩ := hs
      have hx2 := hx
      unfold schQuals at hx2
      cases hd : Types.decls c s with
      | error e => rw [hd] at hx2; cases hx2
      | ok ds =>
        rw [hd] at hx2
        simp only [Except.ok.injEq] at hx2
        have hx' : q ∈ x ↔ (∃ e ∈ ds, q ∈ declQuals e) ∨ (SchInstant c s ∧ (q = qJson ∨ q = qTime)) := by
          rw [← hx2, List.mem_append, List.mem_flatMap, mem_timeQuals]; exact Iff.rfl
        constructor
        · rintro ⟨x', hx3, hq⟩
          rw [hx] at hx3; cases hx3
          exact (hx'.1 hq).elim (fun h => Or.inl ⟨ds, rfl, h⟩) Or.inr
        · rintro (⟨ds', hds, hq⟩ | hq)
          · cases hds; exact ⟨x, hx, hx'.2 (Or.inl hq)⟩
          · exact ⟨x, hx, hx'.2 (Or.inr hq)⟩
    constructor
    · rintro ((h | h) | ⟨m, hm, hx⟩ | ⟨m, hm, hx⟩ | ⟨s, hs, hx⟩)
      · exact Or.inl h
      · exact Or.inr (Or.inl h)
      · obtain ⟨hr, hq⟩ := (hmsg m (e1 m hm)).1 hx
        rcases hq with ⟨ds, hds, e, he, hq⟩ | hq
        · exact Or.inr (Or.inr (Or.inl ⟨e, Or.inl ⟨m, ds, ⟨Or.inl hm, hr⟩, hds, he⟩, hq⟩))
        · exact Or.inr (Or.inr (Or.inr (Or.inl ⟨m, ⟨Or.inl hm, hr⟩, hq⟩)))
      · obtain ⟨hr, hq⟩ := (hmsg m (e2 m hm)).1 hx
        rcases hq with ⟨ds, hds, e, he, hq⟩ | hq
        · exact Or.inr (Or.inr (Or.inl ⟨e, Or.inl ⟨m, ds, ⟨Or.inr hm, hr⟩, hds, he⟩, hq⟩))
        · exact Or.inr (Or.inr (Or.inr (Or.inl ⟨m, ⟨Or.inr hm, hr⟩, hq⟩)))
      · rcases (hsch s (e3 s hs)).1 hx with ⟨ds, hds, e, he, hq⟩ | hq
        · exact Or.inr (Or.inr (Or.inl ⟨e, Or.inr ⟨s, hs, ds, hds, he⟩, hq⟩))
        · exact Or.inr (Or.inr (Or.inr (Or.inr ⟨s, hs, hq⟩)))
    · rintro (h | h | ⟨e, (⟨m, ds, ⟨hm, hr⟩, hds, he⟩ | ⟨s, hs, ds, hds, he⟩), hq⟩ | ⟨m, ⟨hm, hr⟩, hq⟩ | ⟨s, hs, hq⟩)
      · exact Or.inl (Or.inl h)
      · exact Or.inl (Or.inr h)
      · rcases hm with hm | hm
        · exact Or.inr (Or.inl ⟨m, hm, (hmsg m (e1 m hm)).2 ⟨hr, Or.inl ⟨ds, hds, e, he, hq⟩⟩⟩)
        · exact Or.inr (Or.inr (Or.inl ⟨m, hm, (hmsg m (e2 m hm)).2 ⟨hr, Or.inl ⟨ds, hds, e, he, hq⟩⟩⟩))
      · exact Or.inr (Or.inr (Or.inr ⟨s, hs, (hsch s (e3 s hs)).2 (Or.inl ⟨ds, hds, e, he, hq⟩)⟩))
      · rcases hm with hm | hm
        · exact Or.inr (Or.inl ⟨m, hm, (hmsg m (e1 m hm)).2 ⟨hr, Or.inr hq⟩⟩)
        · exact Or.inr (Or.inr (Or.inl ⟨m, hm, (hmsg m (e2 m hm)).2 ⟨hr, Or.inr hq⟩⟩))
      · exact Or.inr (Or.inr (Or.inr ⟨s, hs, (hsch s (e3 s hs)).2 (Or.inr hq)⟩))

theorem mem_tyQuals {q : Str} : ∀ {t : Ty}, q ∈ tyQuals t ↔ (q = qCivil ∧ HasDate t) ∨ (q = qTime ∧ HasTime t)
  | .slice t => by
    rw [tyQuals, mem_tyQuals (t := t)]
    constructor
    · rintro (⟨h, hd⟩ | ⟨h, hd⟩)
      · exact Or.inl ⟨h, .slice hd⟩
      · exact Or.inr ⟨h, .slice hd⟩
    · rintro (⟨h, hd⟩ | ⟨h, hd⟩)
      · cases hd with | slice hd => exact Or.inl ⟨h, hd⟩
      · cases hd with | slice hd => exact Or.inr ⟨h, hd⟩
  | .date => by
    rw [tyQuals, List.mem_singleton]
    exact ⟨fun h => Or.inl ⟨h, .date⟩, fun h => h.elim (·.1) (fun h => nomatch h.2)⟩
  | .time => by
    rw [tyQuals, List.mem_singleton]
    exact ⟨fun h => Or.inr ⟨h, .time⟩, fun h => h.elim (fun h => nomatch h.2) (·.1)⟩
  | .named _ | .custom _ | .bool | .string | .int32 | .int64 | .float32 | .float64 | .unknown _ | .any => by
    constructor
    · intro h; simp [tyQuals] at h
    · rintro (⟨_, h⟩ | ⟨_, h⟩) <;> cases h

theorem mem_declQuals {q : Str} {e : Decl} :
    q ∈ declQuals e ↔ (∃ t, Mentions e t ∧ q ∈ tyQuals t) ∨ (Extra e ∧ (q = qJson ∨ q = qFmt)) := by
  obtain ⟨n, b⟩ := e
  cases b with
  | alias t =>
    constructor
    · exact fun h => Or.inl ⟨t, .alias, h⟩
    · rintro (⟨t', hm, h⟩ | ⟨⟨_, _, _, h⟩, _⟩)
      · cases hm; exact h
      · cases h
  | struct fs x =>
    unfold declQuals
    rw [List.mem_append, List.mem_flatMap]
    cases x with
    | none =>
      constructor
      · rintro (⟨f, hf, h⟩ | h)
        · exact Or.inl ⟨f.2, .field hf, h⟩
        · cases h
      · rintro (⟨t, hm, h⟩ | ⟨⟨_, _, _, h⟩, _⟩)
        · cases hm with | field hf => exact Or.inl ⟨_, hf, h⟩
        · cases h
    | some t =>
      simp only [List.mem_append, List.mem_cons, List.not_mem_nil, or_false]
      constructor
      · rintro (⟨f, hf, h⟩ | h | h)
        · exact Or.inl ⟨f.2, .field hf, h⟩
        · exact Or.inl ⟨t, .extra, h⟩
        · exact Or.inr ⟨⟨n, fs, t, rfl⟩, h⟩
      · rintro (⟨t', hm, h⟩ | ⟨_, h⟩)
        · cases hm with
          | field hf => exact Or.inl ⟨_, hf, h⟩
          | extra => exact Or.inr (Or.inl h)
        · exact Or.inr (Or.inr h)

theorem mem_side {s : Side} {q : Str} :
    q ∈ sideQuals s ↔ q = qContext ∨ q = qExtensions ∨ (q = qFmt ∧ SideFmt s) ∨ (q = qUuid ∧ SideUuid s) := by
  unfold sideQuals subscriberQuals SideFmt SideUuid
  simp only [List.mem_append, List.mem_flatMap, List.mem_map, List.mem_cons, List.not_mem_nil, or_false]
  have ha : ∀ a : ReplyAddr, q ∈ addrQuals a → q = qFmt ∨ q = qExtensions := by
    intro a h; cases a <;> simp [addrQuals] at h; exact h
  constructor
  · rintro (((⟨_, _, h⟩ | h | h) | ⟨o, ho, h⟩) | ⟨o, ho, h⟩)
    · exact Or.inl h.symm
    · exact Or.inr (Or.inl h)
    · exact Or.inl h
    · have hne : s.receive ≠ [] := by intro h'; rw [h'] at ho; cases ho
      unfold receiveQuals at h
      simp only [List.mem_append, List.mem_cons, List.not_mem_nil, or_false] at h
      rcases h with (h | h | h) | h
      · exact Or.inl h
      · exact Or.inr (Or.inl h)
      · exact Or.inr (Or.inr (Or.inl ⟨h, Or.inl hne⟩))
      · cases hr : o.reply with
        | none => rw [hr] at h; cases h
        | some a =>
          rw [hr] at h
          rcases List.mem_cons.1 h with h | h
          · exact Or.inl h
          · rcases ha a h with h | h
            · exact Or.inr (Or.inr (Or.inl ⟨h, Or.inl hne⟩))
            · exact Or.inr (Or.inl h)
    · unfold sendQuals at h
      simp only [List.mem_append, List.mem_cons, List.not_mem_nil, or_false] at h
      rcases h with (((h | h) | h) | h) | h
      · exact Or.inl h
      · exact Or.inr (Or.inl h)
      · cases hp : o.params <;> cases ha : o.address <;> simp [sendAddrQuals, hp, ha] at h
        exact Or.inr (Or.inr (Or.inl ⟨h, Or.inr ⟨o, ho, Or.inr ⟨hp, ha⟩⟩⟩))
      · cases hc : o.corr <;> cases hi : o.isReply <;> simp [hc, hi] at h
        exact Or.inr (Or.inr (Or.inr ⟨h, o, ho, hc, Or.inl hi⟩))
      · cases hr : o.reply with
        | none => rw [hr] at h; cases h
        | some a =>
          rw [hr] at h
          have hs : o.reply.isSome = true := by rw [hr]; rfl
          simp only [List.mem_append, List.mem_cons, List.not_mem_nil, or_false] at h
          rcases h with (h | h | h | h) | h
          · rcases ha a h with h | h
            · exact Or.inr (Or.inr (Or.inl ⟨h, Or.inr ⟨o, ho, Or.inl hs⟩⟩))
            · exact Or.inr (Or.inl h)
          · exact Or.inl h
          · exact Or.inr (Or.inl h)
          · exact Or.inr (Or.inr (Or.inl ⟨h, Or.inr ⟨o, ho, Or.inl hs⟩⟩))
          · cases hc : o.corr <;> simp [hc] at h
            exact Or.inr (Or.inr (Or.inr ⟨h, o, ho, hc, Or.inr hs⟩))
  · rintro (h | h | ⟨h, hf⟩ | ⟨h, o, ho, hc, hr⟩)
    · exact Or.inl (Or.inl (Or.inr (Or.inr h)))
    · exact Or.inl (Or.inl (Or.inr (Or.inl h)))
    · rcases hf with hf | ⟨o, ho, hr | ⟨hp, ha⟩⟩
      · obtain ⟨o, ho⟩ := List.exists_mem_of_ne_nil _ hf
        exact Or.inl (Or.inr ⟨o, ho, by simp [receiveQuals, h]⟩)
      · obtain ⟨a, hr⟩ := Option.isSome_iff_exists.1 hr
        exact Or.inr ⟨o, ho, by simp [sendQuals, hr, h]⟩
      · exact Or.inr ⟨o, ho, by simp [sendQuals, sendAddrQuals, hp, ha, h]⟩
    · refine Or.inr ⟨o, ho, ?_⟩
      rcases hr with hr | hr
      · simp [sendQuals, hc, hr, h]
      · obtain ⟨a, hr⟩ := Option.isSome_iff_exists.1 hr
        simp [sendQuals, hc, hr, h]

theorem mem_body {c : Cfg} {m : Msg} {q : Str} : q ∈ bodyQuals c m ↔
    (q = qUuid ∧ m.corr = true) ∨ q = qExtensions ∨
    (q = qBinary ∧ (m.payload.type = Types.tInteger ∨ m.payload.type = Types.tNumber)) ∨
    (q = qMath ∧ m.payload.type = Types.tNumber) ∨
    (q = qJson ∧ ((m.payload.type ≠ Types.tString ∧ m.payload.type ≠ Types.tInteger ∧ m.payload.type ≠ Types.tNumber) ∨
      ∃ x ∈ m.hdrs, x.type = Types.tObject)) ∨
    (q = qTime ∧ ((m.payload.type = Types.tString ∧ isDate c m.payload.format = true) ∨
      ∃ x ∈ m.hdrs, x.type ≠ Types.tObject ∧ isDate c x.format = true)) ∨
    (q = qFmt ∧ ∃ x ∈ m.hdrs, x.required = true ∧ x.pointer = true) := by
  have hdec : q ∈ decodePayload c m.payload ∨ q ∈ encodePayload c m.payload ∨ q = qExtensions ↔
      q = qExtensions ∨
      (q = qBinary ∧ (m.payload.type = Types.tInteger ∨ m.payload.type = Types.tNumber)) ∨
      (q = qMath ∧ m.payload.type = Types.tNumber) ∨
      (q = qJson ∧ (m.payload.type ≠ Types.tString ∧ m.payload.type ≠ Types.tInteger ∧ m.payload.type ≠ Types.tNumber)) ∨
      (q = qTime ∧ (m.payload.type = Types.tString ∧ isDate c m.payload.format = true)) := by
    have n1 : Types.tInteger ≠ Types.tString := by decide
    have n2 : Types.tNumber ≠ Types.tString := by decide
    have n3 : Types.tNumber ≠ Types.tInteger := by decide
    have n4 : Types.tString ≠ Types.tObject := by decide
    have n5 : Types.tString ≠ Types.tArray := by decide
    have n6 : Types.tInteger ≠ Types.tObject := by decide
    have n7 : Types.tInteger ≠ Types.tArray := by decide
    have n8 : Types.tNumber ≠ Types.tObject := by decide
    have n9 : Types.tNumber ≠ Types.tArray := by decide
    unfold decodePayload encodePayload
    by_cases h1 : m.payload.type = Types.tString
    · rw [h1]
      cases hf : isDate c m.payload.format <;>
        simp [n1.symm, n2.symm, n4, n5] <;> grind
    · by_cases h2 : m.payload.type = Types.tInteger
      · rw [h2]; simp [n1, n3.symm, n6, n7]; grind
      · by_cases h3 : m.payload.type = Types.tNumber
        · rw [h3]; simp [n2, n3, n8, n9]; grind
        · simp only [h1, h2, h3, if_false, false_and, and_false, or_false, ne_eq, not_false_eq_true, and_self, and_true]
          split <;> simp <;> grind
  have hh : (∃ x ∈ m.hdrs, q ∈ decodeHdr c x) ∨ (∃ x ∈ m.hdrs, q ∈ encodeHdr c x) ∨ q = qExtensions ↔
      q = qExtensions ∨ (q = qJson ∧ ∃ x ∈ m.hdrs, x.type = Types.tObject) ∨
      (q = qTime ∧ ∃ x ∈ m.hdrs, x.type ≠ Types.tObject ∧ isDate c x.format = true) ∨
      (q = qFmt ∧ ∃ x ∈ m.hdrs, x.required = true ∧ x.pointer = true) := by
    have hd : ∀ x : Hdr, q ∈ decodeHdr c x ↔ (q = qJson ∧ x.type = Types.tObject) ∨
        (q = qTime ∧ x.type ≠ Types.tObject ∧ isDate c x.format = true) := by
      intro x; unfold decodeHdr
      by_cases h : x.type = Types.tObject
      · simp [h]
      · cases hf : isDate c x.format <;> simp [h]
    have he : ∀ x : Hdr, q ∈ encodeHdr c x ↔ (q = qJson ∧ x.type = Types.tObject) ∨
        (q = qTime ∧ x.type ≠ Types.tObject ∧ isDate c x.format = true) ∨
        (q = qFmt ∧ x.required = true ∧ x.pointer = true) ∨
        (q = qExtensions ∧ (x.type = Types.tObject ∨ (x.required = true ∧ x.pointer = true))) := by
      intro x; unfold encodeHdr
      by_cases h : x.type = Types.tObject <;> cases hf : isDate c x.format <;> cases x.required <;>
        cases x.pointer <;> simp [h] <;> grind
    constructor
    · rintro (⟨x, hx, h⟩ | ⟨x, hx, h⟩ | h)
      · rcases (hd x).1 h with ⟨h, h2⟩ | ⟨h, h2⟩
        · exact Or.inr (Or.inl ⟨h, x, hx, h2⟩)
        · exact Or.inr (Or.inr (Or.inl ⟨h, x, hx, h2⟩))
      · rcases (he x).1 h with ⟨h, h2⟩ | ⟨h, h2⟩ | ⟨h, h2⟩ | ⟨h, h2⟩
        · exact Or.inr (Or.inl ⟨h, x, hx, h2⟩)
        · exact Or.inr (Or.inr (Or.inl ⟨h, x, hx, h2⟩))
        · exact Or.inr (Or.inr (Or.inr ⟨h, x, hx, h2⟩))
        · exact Or.inl h
      · exact Or.inl h
    · rintro (h | ⟨h, x, hx, h2⟩ | ⟨h, x, hx, h2⟩ | ⟨h, x, hx, h2⟩)
      · exact Or.inr (Or.inr h)
      · exact Or.inl ⟨x, hx, (hd x).2 (Or.inl ⟨h, h2⟩)⟩
      · exact Or.inl ⟨x, hx, (hd x).2 (Or.inr ⟨h, h2⟩)⟩
      · exact Or.inr (Or.inl ⟨x, hx, (he x).2 (Or.inr (Or.inr (Or.inl ⟨h, h2⟩)))⟩)
  have hall : q ∈ bodyQuals c m ↔ (q = qUuid ∧ m.corr = true) ∨
      (q ∈ decodePayload c m.payload ∨ q ∈ encodePayload c m.payload ∨ q = qExtensions) ∨
      ((∃ x ∈ m.hdrs, q ∈ decodeHdr c x) ∨ (∃ x ∈ m.hdrs, q ∈ encodeHdr c x) ∨ q = qExtensions) := by
    unfold bodyQuals
    simp only [List.mem_append, List.mem_flatMap, List.mem_singleton]
    have : (q ∈ if m.corr = true then [qUuid] else []) ↔ q = qUuid ∧ m.corr = true := by
      cases m.corr <;> simp
    rw [this]
    generalize (q ∈ decodePayload c m.payload) = A
    generalize (q ∈ encodePayload c m.payload) = B
    generalize (∃ x ∈ m.hdrs, q ∈ decodeHdr c x) = C
    generalize (∃ x ∈ m.hdrs, q ∈ encodeHdr c x) = D
    generalize (q = qExtensions) = E
    generalize (q = qUuid ∧ m.corr = true) = F
    grind
  rw [hall, hdec, hh]
  clear hall hdec hh
  generalize (q = qExtensions) = E
  generalize (∃ x ∈ m.hdrs, x.type = Types.tObject) = A
  generalize (∃ x ∈ m.hdrs, x.type ≠ Types.tObject ∧ isDate c x.format = true) = B
  generalize (∃ x ∈ m.hdrs, x.required = true ∧ x.pointer = true) = C
  grind

/-- The packages a generated file uses are exactly those the document gives a reason to use. -/
theorem C124_uses {c : Cfg} {g : Parts} {d : Doc} {qs : List Str} (h : fileQuals c g d = .ok qs) (q : Str) :
    q ∈ qs ↔ Uses c g d q := by
  rw [mem_fileQuals h]
  constructor
  · rintro (⟨hg, hq⟩ | ⟨hg, hq⟩ | ⟨hg, hq⟩)
    · rcases mem_side.1 hq with rfl | rfl | ⟨rfl, hs⟩ | ⟨rfl, hs⟩
      · exact .appContext hg
      · exact .appExtensions hg
      · exact .appFmt hg hs
      · exact .appUuid hg hs
    · rcases mem_side.1 hq with rfl | rfl | ⟨rfl, hs⟩ | ⟨rfl, hs⟩
      · exact .userContext hg
      · exact .userExtensions hg
      · exact .userFmt hg hs
      · exact .userUuid hg hs
    · rcases hq with rfl | rfl | ⟨e, he, hq⟩ | ⟨m, hm, hq | ⟨hi, rfl | rfl⟩⟩ | ⟨s, hs, hi, rfl | rfl⟩
      · exact .typesExtensions hg
      · exact .typesFmt hg
      · rcases mem_declQuals.1 hq with ⟨t, hm, hq⟩ | ⟨hx, rfl | rfl⟩
        · rcases mem_tyQuals.1 hq with ⟨rfl, ht⟩ | ⟨rfl, ht⟩
          · exact .date hg he hm ht
          · exact .time hg he hm ht
        · exact .extraJson hg he hx
        · exact .typesFmt hg
      · rcases mem_body.1 hq with ⟨rfl, hc⟩ | rfl | ⟨rfl, hp | hp⟩ | ⟨rfl, hp⟩ | ⟨rfl, ⟨h1, h2, h3⟩ | ⟨x, hx, ht⟩⟩ |
          ⟨rfl, ⟨hp, hf⟩ | ⟨x, hx, ht, hf⟩⟩ | ⟨rfl, _⟩
        · exact .corr hg hm hc
        · exact .typesExtensions hg
        · exact .integer hg hm hp
        · exact .number hg hm hp
        · exact .math hg hm hp
        · exact .payloadJson hg hm h1 h2 h3
        · exact .headerJson hg hm hx ht
        · exact .payloadTime hg hm hp (isDate_iff.1 hf)
        · exact .headerTime hg hm hx ht (isDate_iff.1 hf)
        · exact .typesFmt hg
      · exact .instantJson hg hm hi
      · exact .instantTime hg hm hi
      · exact .schemaJson hg hs hi
      · exact .schemaTime hg hs hi
  · have T : ∀ {P : Prop}, g.types = true → P → (g.types = true ∧ P) := fun a b => ⟨a, b⟩
    intro hu
    cases hu with
    | appContext h => exact Or.inl ⟨h, mem_side.2 (Or.inl rfl)⟩
    | userContext h => exact Or.inr (Or.inl ⟨h, mem_side.2 (Or.inl rfl)⟩)
    | appExtensions h => exact Or.inl ⟨h, mem_side.2 (Or.inr (Or.inl rfl))⟩
    | userExtensions h => exact Or.inr (Or.inl ⟨h, mem_side.2 (Or.inr (Or.inl rfl))⟩)
    | appFmt h hs => exact Or.inl ⟨h, mem_side.2 (Or.inr (Or.inr (Or.inl ⟨rfl, hs⟩)))⟩
    | userFmt h hs => exact Or.inr (Or.inl ⟨h, mem_side.2 (Or.inr (Or.inr (Or.inl ⟨rfl, hs⟩)))⟩)
    | appUuid h hs => exact Or.inl ⟨h, mem_side.2 (Or.inr (Or.inr (Or.inr ⟨rfl, hs⟩)))⟩
    | userUuid h hs => exact Or.inr (Or.inl ⟨h, mem_side.2 (Or.inr (Or.inr (Or.inr ⟨rfl, hs⟩)))⟩)
    | typesExtensions h => exact Or.inr (Or.inr ⟨h, Or.inl rfl⟩)
    | typesFmt h => exact Or.inr (Or.inr ⟨h, Or.inr (Or.inl rfl)⟩)
    | date h he hm ht => exact Or.inr (Or.inr ⟨h, Or.inr (Or.inr (Or.inl ⟨_, he, mem_declQuals.2 (Or.inl ⟨_, hm, mem_tyQuals.2 (Or.inl ⟨rfl, ht⟩)⟩)⟩))⟩)
    | time h he hm ht => exact Or.inr (Or.inr ⟨h, Or.inr (Or.inr (Or.inl ⟨_, he, mem_declQuals.2 (Or.inl ⟨_, hm, mem_tyQuals.2 (Or.inr ⟨rfl, ht⟩)⟩)⟩))⟩)
    | extraJson h he hx => exact Or.inr (Or.inr ⟨h, Or.inr (Or.inr (Or.inl ⟨_, he, mem_declQuals.2 (Or.inr ⟨hx, Or.inl rfl⟩)⟩))⟩)
    | schemaJson h hs hi => exact Or.inr (Or.inr ⟨h, Or.inr (Or.inr (Or.inr (Or.inr ⟨_, hs, hi, Or.inl rfl⟩)))⟩)
    | schemaTime h hs hi => exact Or.inr (Or.inr ⟨h, Or.inr (Or.inr (Or.inr (Or.inr ⟨_, hs, hi, Or.inr rfl⟩)))⟩)
    | instantJson h hm hi => exact Or.inr (Or.inr ⟨h, Or.inr (Or.inr (Or.inr (Or.inl ⟨_, hm, Or.inr ⟨hi, Or.inl rfl⟩⟩)))⟩)
    | instantTime h hm hi => exact Or.inr (Or.inr ⟨h, Or.inr (Or.inr (Or.inr (Or.inl ⟨_, hm, Or.inr ⟨hi, Or.inr rfl⟩⟩)))⟩)
    | corr h hm hc => exact Or.inr (Or.inr ⟨h, Or.inr (Or.inr (Or.inr (Or.inl ⟨_, hm, Or.inl (mem_body.2 (Or.inl ⟨rfl, hc⟩))⟩)))⟩)
    | integer h hm hp => exact Or.inr (Or.inr ⟨h, Or.inr (Or.inr (Or.inr (Or.inl ⟨_, hm, Or.inl (mem_body.2 (Or.inr (Or.inr (Or.inl ⟨rfl, Or.inl hp⟩))))⟩)))⟩)
    | number h hm hp => exact Or.inr (Or.inr ⟨h, Or.inr (Or.inr (Or.inr (Or.inl ⟨_, hm, Or.inl (mem_body.2 (Or.inr (Or.inr (Or.inl ⟨rfl, Or.inr hp⟩))))⟩)))⟩)
    | math h hm hp => exact Or.inr (Or.inr ⟨h, Or.inr (Or.inr (Or.inr (Or.inl ⟨_, hm, Or.inl (mem_body.2 (Or.inr (Or.inr (Or.inr (Or.inl ⟨rfl, hp⟩)))))⟩)))⟩)
    | payloadJson h hm h1 h2 h3 => exact Or.inr (Or.inr ⟨h, Or.inr (Or.inr (Or.inr (Or.inl ⟨_, hm, Or.inl (mem_body.2 (Or.inr (Or.inr (Or.inr (Or.inr (Or.inl ⟨rfl, Or.inl ⟨h1, h2, h3⟩⟩))))))⟩)))⟩)
    | headerJson h hm hx ht => exact Or.inr (Or.inr ⟨h, Or.inr (Or.inr (Or.inr (Or.inl ⟨_, hm, Or.inl (mem_body.2 (Or.inr (Or.inr (Or.inr (Or.inr (Or.inl ⟨rfl, Or.inr ⟨_, hx, ht⟩⟩))))))⟩)))⟩)
    | payloadTime h hm hp hf => exact Or.inr (Or.inr ⟨h, Or.inr (Or.inr (Or.inr (Or.inl ⟨_, hm, Or.inl (mem_body.2 (Or.inr (Or.inr (Or.inr (Or.inr (Or.inr (Or.inl ⟨rfl, Or.inl ⟨hp, isDate_iff.2 hf⟩⟩)))))))⟩)))⟩)
    | headerTime h hm hx ht hf => exact Or.inr (Or.inr ⟨h, Or.inr (Or.inr (Or.inr (Or.inl ⟨_, hm, Or.inl (mem_body.2 (Or.inr (Or.inr (Or.inr (Or.inr (Or.inr (Or.inl ⟨rfl, Or.inr ⟨_, hx, ht, isDate_iff.2 hf⟩⟩)))))))⟩)))⟩)

/-! ## The import block -/

theorem fixed_names {pkg : Str → Str} (hk : Known pkg) : fixed.filterMap (declares pkg) = fixedNames := by
  have e : ∀ p : Str, declares pkg ⟨[], p⟩ = some (pkg p) := fun p => by unfold declares; rw [if_pos rfl]
  have : fixed.filterMap (declares pkg) = fixed.map (fun i => pkg i.path) := by
    unfold fixed
    simp only [List.filterMap_cons, e, List.filterMap_nil, List.map_cons, List.map_nil]
  rw [this]
  unfold fixed fixedNames
  simp only [List.map_cons, List.map_nil, hk.json, hk.time, hk.errors, hk.fmt, hk.context, hk.binary, hk.math,
    hk.extensions, hk.uuid, hk.civil]

theorem block_some {d : Imports.Doc} {b : List Import} (h : block d = some b) :
    ∃ l, Imports.customImports d = some l ∧ b = fixed ++ l := by
  unfold block at h
  cases hc : Imports.customImports d with
  | none => rw [hc] at h; cases h
  | some l => rw [hc] at h; cases h; exact ⟨l, rfl, rfl⟩

theorem uses_fixed {c : Cfg} {g : Parts} {d : Doc} {q : Str} (h : Uses c g d q) : q ∈ fixedNames ∧ q ≠ qErrors := by
  cases h <;> decide

/-- Every package the file uses is imported under the name the file uses, whatever the document and the parts
generated. -/
theorem C124_imported_partial {pkg : Str → Str} (hk : Known pkg) {c : Cfg} {g : Parts} {d : Doc} {qs : List Str}
    (h : fileQuals c g d = .ok qs) {di : Imports.Doc} {b : List Import} (hb : block di = some b) {q : Str} (hq : q ∈ qs) :
    ∃ i ∈ b, declares pkg i = some q := by
  obtain ⟨l, _, rfl⟩ := block_some hb
  have := (uses_fixed ((C124_uses h q).1 hq)).1
  rw [← fixed_names hk, List.mem_filterMap] at this
  obtain ⟨i, hi, hd⟩ := this
  exact ⟨i, List.mem_append_left _ hi, hd⟩

/-- The file always imports a package that it never uses, whatever the document, the options and the parts: without
the formatter, that removes it, no generated file compiles. -/
theorem C124_violated_unused {pkg : Str → Str} (hk : Known pkg) {c : Cfg} {g : Parts} {d : Doc} {qs : List Str}
    (h : fileQuals c g d = .ok qs) {di : Imports.Doc} {b : List Import} (hb : block di = some b) :
    ∃ i ∈ b, declares pkg i = some qErrors ∧ qErrors ∉ qs := by
  obtain ⟨l, _, rfl⟩ := block_some hb
  refine ⟨⟨[], "errors".toList⟩, List.mem_append_left _ (by decide), ?_, ?_⟩
  · unfold declares; rw [if_pos rfl, hk.errors]
  · intro hq; exact (uses_fixed ((C124_uses h _).1 hq)).2 rfl

/-- Names of optional values of a list without duplicates. -/
theorem nodup_filterMap {α : Type} {f : α → Option Str} {k : α → Str} : ∀ {l : List α}, (l.map k).Nodup →
    ((l.filterMap f).Nodup ↔ ∀ i ∈ l, ∀ j ∈ l, ∀ n, f i = some n → f j = some n → i = j)
  | [], _ => by simp
  | a :: l, hn => by
    simp only [List.map_cons, List.nodup_cons] at hn
    have ih := nodup_filterMap (f := f) hn.2
    have hal : ∀ j ∈ l, a ≠ j := by
      rintro j hj rfl; exact hn.1 (List.mem_map_of_mem hj)
    cases hf : f a with
    | none =>
      rw [List.filterMap_cons_none hf, ih]
      constructor
      · intro h i hi j hj n h1 h2
        rcases List.mem_cons.1 hi with rfl | hi
        · rw [hf] at h1; cases h1
        · rcases List.mem_cons.1 hj with rfl | hj
          · rw [hf] at h2; cases h2
          · exact h i hi j hj n h1 h2
      · intro h i hi j hj
        exact h i (List.mem_cons_of_mem _ hi) j (List.mem_cons_of_mem _ hj)
    | some n =>
      rw [List.filterMap_cons_some hf, List.nodup_cons, ih, List.mem_filterMap]
      constructor
      · rintro ⟨h0, h⟩ i hi j hj n' h1 h2
        rcases List.mem_cons.1 hi with rfl | hi <;> rcases List.mem_cons.1 hj with rfl | hj
        · rfl
        · rw [hf] at h1; cases h1; exact absurd ⟨j, hj, h2⟩ h0
        · rw [hf] at h2; cases h2; exact absurd ⟨_, ‹_ ∈ l›, h1⟩ h0
        · exact h i hi j hj n' h1 h2
      · intro h
        refine ⟨?_, fun i hi j hj => h i (List.mem_cons_of_mem _ hi) j (List.mem_cons_of_mem _ hj)⟩
        rintro ⟨j, hj, h2⟩
        exact hal j hj (h a List.mem_cons_self j (List.mem_cons_of_mem _ hj) n hf h2)

/-- The names declared by the import block are different exactly when no custom import bears the name of a fixed
package and no two custom imports bear one name. -/
theorem C124_names_partial {pkg : Str → Str} (hk : Known pkg) {d : Imports.Doc} {b : List Import} (hb : block d = some b) :
    (b.filterMap (declares pkg)).Nodup ↔
      (∀ i n, DocCarries d i → i.path ≠ [] → declares pkg i = some n → n ∉ fixedNames) ∧
      (∀ i j n, DocCarries d i → DocCarries d j → i.path ≠ [] → j.path ≠ [] → declares pkg i = some n →
        declares pkg j = some n → i = j) := by
  obtain ⟨l, hl, rfl⟩ := block_some hb
  obtain ⟨hm, hn⟩ := Imports.C57_collected d l hl
  rw [List.filterMap_append, fixed_names hk, List.nodup_append, nodup_filterMap hn]
  have hfix : fixedNames.Nodup := by decide
  constructor
  · rintro ⟨_, h2, h3⟩
    refine ⟨?_, ?_⟩
    · intro i n hi hp hd hf
      exact h3 n hf n (List.mem_filterMap.2 ⟨i, (hm i).2 ⟨hi, hp⟩, hd⟩) rfl
    · intro i j n hi hj hpi hpj
      exact h2 i ((hm i).2 ⟨hi, hpi⟩) j ((hm j).2 ⟨hj, hpj⟩) n
  · rintro ⟨h1, h2⟩
    refine ⟨hfix, ?_, ?_⟩
    · intro i hi j hj n
      have a := (hm i).1 hi
      have b := (hm j).1 hj
      exact h2 i j n a.1 b.1 a.2 b.2
    · rintro a ha x hx rfl
      obtain ⟨i, hi, hd⟩ := List.mem_filterMap.1 hx
      have := (hm i).1 hi
      exact h1 i a this.1 this.2 hd ha

/-- The import the documentation shows, `github.com/google/uuid`. -/
def docUuid : Import := ⟨[], "github.com/google/uuid".toList⟩

/-- A document with one component schema that has this import. -/
def uuidDoc : Imports.Doc := ⟨false, [(['A'], .mk (some docUuid) [] none [])], [], [], []⟩

/-- A document that uses the import the documentation shows: its file declares one name twice. -/
theorem C124_violated_uuid {pkg : Str → Str} (hk : Known pkg) :
    ∃ b, block uuidDoc = some b ∧ ¬ (b.filterMap (declares pkg)).Nodup := by
  have hb : block uuidDoc = some (fixed ++ [docUuid]) := by decide
  refine ⟨_, hb, fun h => ?_⟩
  have hc : DocCarries uuidDoc docUuid :=
    ⟨.mk (some docUuid) [] none [], Or.inl ⟨['A'], List.mem_singleton.2 rfl⟩, .own ..⟩
  refine ((C124_names_partial hk hb).1 h).1 docUuid qUuid hc (by decide) ?_ (by decide)
  exact (show declares pkg docUuid = some (pkg docUuid.path) by unfold declares; exact if_pos rfl).trans (congrArg some hk.uuid)

/-- Two imports of different paths with one name are not reported. -/
theorem C124_violated_alias {pkg : Str → Str} (hk : Known pkg) :
    ∃ (d : Imports.Doc) (b : List Import), block d = some b ∧ ¬ (b.filterMap (declares pkg)).Nodup := by
  let i : Import := ⟨['m'], ['a']⟩
  let j : Import := ⟨['m'], ['b']⟩
  let d : Imports.Doc := ⟨false, [(['A'], .mk (some i) [] none []), (['B'], .mk (some j) [] none [])], [], [], []⟩
  have hb : ∃ b, block d = some b := ⟨_, rfl⟩
  obtain ⟨b, hb⟩ := hb
  refine ⟨d, b, hb, fun h => ?_⟩
  have hi : DocCarries d i := ⟨_, Or.inl ⟨['A'], List.mem_cons_self⟩, .own ..⟩
  have hj : DocCarries d j := ⟨_, Or.inl ⟨['B'], List.mem_cons_of_mem _ List.mem_cons_self⟩, .own ..⟩
  have := ((C124_names_partial hk hb).1 h).2 i j ['m'] hi hj (by decide) (by decide) rfl rfl
  exact absurd this (by decide)

/-! ## Non-vacuity -/

/-- The names of packages are as expected. -/
def pkgOf (p : Str) : Str :=
  if p = "encoding/json".toList then qJson else if p = "encoding/binary".toList then qBinary
  else if p = "github.com/lerenn/asyncapi-codegen/pkg/extensions".toList then qExtensions
  else if p = "github.com/google/uuid".toList then qUuid
  else if p = "cloud.google.com/go/civil".toList then qCivil else p

example : Known pkgOf := ⟨by decide, by decide, by decide, by decide, by decide, by decide, by decide, by decide,
  by decide, by decide⟩

/-- A message whose payload is an object with a date. -/
def exMsg : Msg :=
  ⟨⟨['M'], none, none, some (.node ⟨['P'], [], Types.tObject, [], false, none⟩
    [(['d'], .node ⟨['d'], [], Types.tString, "date".toList, false, none⟩ [] none none)] none none)⟩,
    ⟨['P'], [], Types.tObject, [], false, none⟩, [], true⟩

/-- A document with this message and a request. -/
def exDoc : Doc := ⟨[exMsg], [], [], ⟨[{ corr := true, reply := some .channel }], []⟩, ⟨[], [{ corr := true, reply := some .channel }]⟩⟩

example : (match fileQuals ⟨id, true⟩ ⟨true, true, true⟩ exDoc with
    | .ok qs => fixedNames.filter (fun q => decide (q ∈ qs))
    | .error _ => []) = [qJson, qFmt, qContext, qExtensions, qUuid, qCivil] := by decide

/-- Sending to a channel with parameters uses `fmt`, without receiving anything. -/
example : fileQuals ⟨id, true⟩ ⟨true, false, false⟩ ⟨[], [], [], ⟨[], [{ params := true }]⟩, ⟨[], []⟩⟩ =
    .ok [qExtensions, qContext, qContext, qExtensions, qFmt] := rfl

example : (block ⟨false, [(['A'], .mk (some ⟨['m'], "github.com/google/uuid".toList⟩) [] none [])], [], [], []⟩).map
    (fun b => decide (b.filterMap (declares pkgOf)).Nodup) = some true := by decide

end Verif.FileImports
