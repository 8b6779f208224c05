import Verif.Proofs.Panics2
import Verif.Props.Panics

/-!
# C111, version 2: no document crashes the generator

The counterpart of `Verif.Props.Panics` for documents of version 2.
-/

namespace Verif.Panics2

open Panics (Heap Ptr M Ty Order Sch Msg Bad inOrder inOrder_ok absent_nil schema_plain message_plain SchemaOk MessageOk
  namedOk_nil leaf_nil userRef correlationLocation)

/-- **C111, version 2** A document without the forms of `Tame` is processed, or refused with an error, in whatever order Go
ranges over maps and however deep the calls are nested: no run ends with a panic. -/
theorem C111_v2_partial {s : Store} {d : Doc} (t : Tame s d) {o : Order} (ho : o.Ok) (n : Nat) (sides : Bool) :
    run d o n sides s ≠ .error .panic :=
  no_panic t ho n sides

/-! ## A document that meets the hypotheses

A user with friends, sent in a message with a correlation ID over a channel with a parameter. -/

/-- `#/components/messages/User` -/
def messageRef : Str := key! "#/components/messages/User"
/-- `./other.yaml#/components/parameters/Id` -/
def parameterRef : Str := key! "./other.yaml#/components/parameters/Id"

/-- Its schemas and messages. The message of the operation is a reference. -/
def sampleStore : Store where
  schemas
    | 0 => { type := key! "object", props := [(key! "name", some 1), (key! "friends", some 2)] }
    | 1 => { type := key! "string" }
    | 2 => { type := key! "array", items := some 3 }
    | 3 => { ref := userRef }
    | 4 => { allOf := [some 3, some 0] }
    | _ => {}
  messages
    | 0 => { ref := messageRef }
    | 1 => { payload := some 4, corr := some correlationLocation }
    | _ => {}
  next := 5

/-- Its channel. -/
def sampleChannel : Chan where
  parameters := [(key! "id", some { ref := parameterRef })]
  subscribe := some 0

/-- The document and the other file. -/
def sampleDoc : Doc where
  main := { channels := [(key! "users.{id}", some sampleChannel)], messages := [(key! "User", some 1)],
            schemas := [(key! "User", some 0)] }
  deps := [(key! "other.yaml", { parameters := [(key! "Id", some {})] })]

theorem calm_of {h : Heap} {d : Doc} {ref file path : Str} (hs : Str.split '#' ref = [file, path])
    (hk : ∀ s ∈ documents d, ∀ r, fileOf s file = some r → PathOk h r (Str.split '/' (Panics.trimSlash path))) :
    Calm h d ref := by
  intro s hmem f p r hsp hf
  rw [hs] at hsp
  cases hsp
  exact hk s hmem r hf

theorem userRef_calm : Calm sampleStore.heap sampleDoc userRef :=
  calm_of (file := []) (path := key! "/components/schemas/User") (by decide) fun _ _ _ _ => .schema (.here _)

theorem messageRef_calm : Calm sampleStore.heap sampleDoc messageRef :=
  calm_of (file := []) (path := key! "/components/messages/User") (by decide) fun _ _ _ _ => .message (.here _)

theorem parameterRef_calm : Calm sampleStore.heap sampleDoc parameterRef :=
  calm_of (file := key! "./other.yaml") (path := key! "/components/parameters/Id") (by decide) fun _ _ _ _ => .parameter

theorem sample_tame : Tame sampleStore sampleDoc where
  schemas
    | 0 => ⟨absent_nil, by decide, by decide, by decide, by decide⟩
    | 1 => ⟨absent_nil, by decide, by decide, by decide, by decide⟩
    | 2 => ⟨absent_nil, by decide, by decide, by decide, by decide⟩
    | 3 => ⟨fun _ => userRef_calm, by decide, by decide, by decide, by decide⟩
    | 4 => ⟨absent_nil, by decide, by decide, by decide, by decide⟩
    | _ + 5 => schema_plain
  messages
    | 0 => ⟨fun _ => messageRef_calm, by decide, namedOk_nil, leaf_nil, by decide, nofun⟩
    | 1 => ⟨absent_nil, by decide, namedOk_nil, leaf_nil, by decide, fun l hl => by cases hl; decide⟩
    | _ + 2 => message_plain
  roots x hx := by
    rcases List.mem_cons.1 hx with h | h
    · rw [h]
      refine ⟨nofun, ?_, by decide, by decide, nofun, nofun⟩
      rintro c (_ | ⟨_, ⟨⟩⟩)
      refine ⟨fun a ha _ => ?_, nofun, nofun, ?_⟩
      · cases ha; decide
      · rintro p (_ | ⟨_, ⟨⟩⟩)
        exact fun _ => parameterRef_calm
    · rw [List.mem_singleton.1 h]
      refine ⟨nofun, nofun, by decide, by decide, nofun, ?_⟩
      rintro p (_ | ⟨_, ⟨⟩⟩)
      exact absent_nil

example (n : Nat) : run sampleDoc inOrder n true sampleStore ≠ .error .panic :=
  C111_v2_partial sample_tame inOrder_ok n true
example : run sampleDoc inOrder 12 true sampleStore = .ok () := by decide +kernel

/-! ## Documents that crash the generator -/

/-- A null channel. -/
theorem C111_violated_v2_channel :
    run { main := { channels := [(key! "c", none)] } } inOrder 9 false {} = .error .panic := by decide +kernel

/-- A null parameter, of a channel or of the components. -/
theorem C111_violated_v2_parameter :
    run { main := { channels := [(key! "c", some { parameters := [(key! "p", none)] })] } } inOrder 9 false {} =
      .error .panic ∧
    run { main := { parameters := [(key! "p", none)] } } inOrder 9 false {} = .error .panic := by decide +kernel

/-- A null schema or message of the components. -/
theorem C111_violated_v2_component :
    run { main := { schemas := [(key! "S", none)] } } inOrder 9 false {} = .error .panic ∧
    run { main := { messages := [(key! "M", none)] } } inOrder 9 false {} = .error .panic := by decide +kernel

/-- A document with one schema in its components. -/
def withSchema : Doc := { main := { schemas := [(key! "S", some 0)] } }

/-- A null among the properties or the alternatives of a schema. -/
theorem C111_violated_v2_schema :
    run withSchema inOrder 9 false { schemas := fun _ => { props := [(key! "p", none)] }, next := 1 } = .error .panic ∧
    run withSchema inOrder 9 false { schemas := fun _ => { anyOf := [none] }, next := 1 } = .error .panic ∧
    run withSchema inOrder 9 false { schemas := fun _ => { oneOf := [none] }, next := 1 } = .error .panic ∧
    run withSchema inOrder 9 false { schemas := fun _ => { allOf := [none] }, next := 1 } = .error .panic := by
  decide +kernel

/-- A document with one message in its components. -/
def withMessage : Doc := { main := { messages := [(key! "M", some 0)] } }

/-- A null among the alternatives of a message, or a correlation ID whose location has no path. -/
theorem C111_violated_v2_message :
    run withMessage inOrder 9 false { messages := fun _ => { oneOf := [none] } } = .error .panic ∧
    run withMessage inOrder 9 false { messages := fun _ => { corr := some (key! "$message.header#correlationId") } } =
      .error .panic := by
  decide +kernel

/-- A document with one channel and one operation. -/
def withOperation : Doc := { main := { channels := [(key! "c", some { publish := some 0 })] } }

/-- An operation whose message is a reference with fewer than four parts, such as `M`, or `#/messages/M`; elsewhere such
references are reported. -/
theorem C111_violated_v2_operation :
    run withOperation inOrder 9 false { messages := fun _ => { ref := key! "M" } } = .error .panic ∧
    run withOperation inOrder 9 false { messages := fun _ => { ref := key! "#/messages/M" } } = .error .panic ∧
    run withMessage inOrder 9 false { messages := fun _ => { ref := key! "#/messages/M" } } = .error .err := by
  decide +kernel

/-! ## Circular messages -/

theorem follow_cycle {h : Heap} {a b : Nat} (ha : (h.messages a).refTo = some b) (hb : (h.messages b).refTo = some a)
    (n : Nat) : follow n a h = .error .deep ∧ follow n b h = .error .deep := by
  induction n with
  | zero => exact ⟨rfl, rfl⟩
  | succ n ih =>
    have step : ∀ x y, (h.messages x).refTo = some y → follow (n + 1) x h = follow n y h := by
      intro x y hx
      show (match (h.messages x).refTo with | some b => follow n b | none => pure ()) h = _
      rw [hx]
    rw [step a b ha, step b a hb]
    exact ih.symm

/-- Two messages that are references to each other, and a channel that uses one. -/
def circularDoc : Doc where
  main := { channels := [(key! "c", some { publish := some 0 })], messages := [(key! "A", some 1), (key! "B", some 2)] }
/-- Its messages. -/
def circularStore : Store where
  messages
    | 0 => { ref := key! "#/components/messages/A" }
    | 1 => { ref := key! "#/components/messages/B" }
    | 2 => { ref := key! "#/components/messages/A" }
    | _ => {}


theorem bind_ok {α β : Type} {m : M α} {f : α → M β} {h h' : Heap} {x : α} (hm : m h = .ok (x, h')) :
    (m >>= f) h = f x h' := by
  simp only [bind, StateT.bind, hm, Except.bind]

theorem ok_messageRef {ref : Str} {h : Heap} {n : Str} {a : Nat} (h1 : Str.split '#' ref = [[], '/' :: ref.drop 2])
    (h2 : Str.split '/' (ref.drop 2) = [key! "components", key! "messages", n])
    (h3 : Panics.at' circularDoc.main.messages n = some a) : referenceAs circularDoc .message ref h = .ok (a, h) := by
  have hr : reference circularDoc ref h = .ok ((.message, some a), h) := by
    unfold reference
    rw [h1]
    show resolve circularDoc.main (Str.split '/' (ref.drop 2)) h = _
    rw [h2]
    show Except.ok ((Ty.message, Panics.at' circularDoc.main.messages n), h) = _
    rw [h3]
  unfold referenceAs
  rw [bind_ok hr]
  rfl

/-- A message that is only a reference. -/
structure Bare (m : Msg) (ref : Str) : Prop where
  payload : m.payload = none
  headers : m.headers = none
  oneOf : m.oneOf = []
  corr : m.corr = none
  ref : m.ref = ref

/-- Steps that end well, and what they leave of the messages. -/
def Does (m : M Unit) (P Q : (Nat → Msg) → Prop) : Prop :=
  ∀ h, P h.messages → ∃ h', m h = .ok ((), h') ∧ Q h'.messages

section
variable {P Q R : (Nat → Msg) → Prop}

theorem Does.skip : Does (pure ()) P P := fun h hp => ⟨h, rfl, hp⟩

theorem Does.seq {m k : M Unit} (hm : Does m P Q) (hk : Does k Q R) : Does (m >>= fun _ => k) P R := fun h hp => by
  obtain ⟨h', e, hq⟩ := hm h hp
  rw [bind_ok e]
  exact hk h' hq

theorem Does.ranged {α : Type} {l : List α} {f : List α → M Unit} (hf : Does (f l) P Q) :
    Does (Panics.ranged inOrder l >>= f) P Q := fun h hp => hf { h with tick := h.tick + 1 } hp

theorem Does.msg {a : Nat} {f : Msg → M Unit} (hf : ∀ m, (∃ g, P g ∧ g a = m) → Does (f m) P Q) :
    Does (Panics.msg a >>= f) P Q := fun h hp => hf (h.messages a) ⟨_, hp, rfl⟩ h hp

theorem Does.deref {a : Nat} {f : Nat → M Unit} (hf : Does (f a) P Q) : Does (Panics.deref (some a) >>= f) P Q :=
  fun h hp => hf h hp

theorem Does.none {α : Type} (f : α → M Unit) : Does (Panics.ranged inOrder [] >>= Panics.each f) P P := .ranged .skip

theorem Does.one {α : Type} {f : α → M Unit} {x : α} (h : Does (f x) P Q) :
    Does (Panics.ranged inOrder [x] >>= Panics.each f) P Q := .ranged (h.seq .skip)

theorem Does.two {α : Type} {f : α → M Unit} {x y : α} (h : Does (f x) P Q) (k : Does (f y) Q R) :
    Does (Panics.ranged inOrder [x, y] >>= Panics.each f) P R := .ranged (h.seq (k.seq .skip))

theorem does_metaMessage {n a : Nat} {ref : Str} (hb : ∀ g, P g → Bare (g a) ref) :
    Does (metaMessage inOrder (n + 1) (some a)) P P := by
  unfold metaMessage
  refine Does.deref (Does.msg fun m ⟨g, hg, hm⟩ => ?_)
  have b := hm ▸ hb g hg
  rw [b.payload, b.headers, b.oneOf, if_pos rfl]
  refine Does.skip.seq (Does.skip.seq (Does.skip.seq ?_))
  unfold Panics.correlation
  refine Does.msg fun m ⟨g, hg, hm⟩ => ?_
  have b := hm ▸ hb g hg
  rw [b.corr]
  exact .skip

theorem does_setMessage {n a t : Nat} {ref : Str} (hb : ∀ g, P g → Bare (g a) ref) (hne : ref ≠ [])
    (hr : ∀ h, referenceAs circularDoc .message ref h = .ok (t, h))
    (hl : ∀ g, P g → Q (Panics.upd g a { g a with refTo := some t })) (hq : ∀ g, Q g → Bare (g a) ref) :
    Does (setMessage circularDoc inOrder (n + 1) (some a)) P Q := by
  unfold setMessage
  refine Does.deref (Does.msg fun m ⟨g, hg, hm⟩ => ?_)
  have b := hm ▸ hb g hg
  rw [b.payload, if_pos rfl]
  refine Does.skip.seq (Does.seq (Q := Q) ?_ ?_)
  · unfold setMessageReference
    refine Does.msg fun m ⟨g, hg, hm⟩ => ?_
    have b := hm ▸ hb g hg
    rw [b.ref, if_neg hne]
    intro h hp
    rw [bind_ok (hr h)]
    exact ⟨_, rfl, hl _ hp⟩
  refine Does.msg fun m ⟨g, hg, hm⟩ => ?_
  have b := hm ▸ hq g hg
  rw [b.headers]
  refine Does.skip.seq (Does.msg fun m ⟨g, hg, hm⟩ => ?_)
  have b := hm ▸ hq g hg
  rw [b.oneOf]
  refine Does.skip.seq ?_
  unfold setCorrelation
  refine Does.msg fun m ⟨g, hg, hm⟩ => ?_
  have b := hm ▸ hq g hg
  rw [b.corr, b.ref]
  dsimp only
  rw [if_neg hne]
  intro h hp
  rw [bind_ok (hr h)]
  exact ⟨_, rfl, hp⟩

end

/-- The messages while the circular document is processed; those of `l` have their target. -/
structure Circular (l : List Nat) (g : Nat → Msg) : Prop where
  bare0 : Bare (g 0) (key! "#/components/messages/A")
  bare1 : Bare (g 1) (key! "#/components/messages/B")
  bare2 : Bare (g 2) (key! "#/components/messages/A")
  refTo : ∀ a ∈ l, (g a).refTo = some (if a = 1 then 2 else 1)

theorem Circular.link {l : List Nat} {g : Nat → Msg} (c : Circular l g) (a : Nat) :
    Circular (a :: l) (Panics.upd g a { g a with refTo := some (if a = 1 then 2 else 1) }) := by
  have key : ∀ {b r}, Bare (g b) r → Bare (Panics.upd g a { g a with refTo := some (if a = 1 then 2 else 1) } b) r := by
    intro b r hb
    unfold Panics.upd
    by_cases hab : b = a
    · subst hab; rw [if_pos rfl]; exact ⟨hb.1, hb.2, hb.3, hb.4, hb.5⟩
    · rw [if_neg hab]; exact hb
  refine ⟨key c.bare0, key c.bare1, key c.bare2, fun b hb => ?_⟩
  unfold Panics.upd
  by_cases hab : b = a
  · subst hab; rw [if_pos rfl]
  · rw [if_neg hab]; exact c.refTo b ((List.mem_cons.1 hb).resolve_left hab)

theorem does_metaRoots (n : Nat) : Does (metaRoots inOrder (n + 1) circularDoc.main) (Circular []) (Circular []) := by
  unfold metaRoots
  refine Does.seq (Q := Circular []) (Does.one ?_) ((Does.none _).seq (Does.seq (Q := Circular []) ?_ (Does.none _)))
  · show Does (do
      pure ()
      metaOperation inOrder (n + 1) 0
      metaPars inOrder []) _ _
    refine Does.skip.seq (Does.seq (Q := Circular []) ?_ (Does.none _))
    unfold metaOperation
    refine Does.msg fun m ⟨g, hg, hm⟩ => ?_
    have b := hm ▸ hg.bare0
    rw [b.ref, if_neg (by decide), show (Str.split '/' (key! "#/components/messages/A"))[3]? = some (key! "A") by decide]
    exact Does.skip.seq (does_metaMessage fun g c => c.bare0)
  · exact Does.two (does_metaMessage fun g c => c.bare1) (does_metaMessage fun g c => c.bare2)

theorem does_setRoots (n : Nat) :
    Does (setRoots circularDoc inOrder (n + 1)) (Circular []) (Circular [2, 1, 0]) := by
  have rA : ∀ h, referenceAs circularDoc .message (key! "#/components/messages/A") h = .ok (1, h) := fun h =>
    ok_messageRef (n := key! "A") (by decide) (by decide) rfl
  have rB : ∀ h, referenceAs circularDoc .message (key! "#/components/messages/B") h = .ok (2, h) := fun h =>
    ok_messageRef (n := key! "B") (by decide) (by decide) rfl
  unfold setRoots
  refine Does.seq (Q := Circular [0]) (Does.one ?_) ((Does.none _).seq (Does.seq (Q := Circular [2, 1, 0]) ?_ (Does.none _)))
  · show Does (do
      pure ()
      setMessage circularDoc inOrder (n + 1) (some 0)
      setPars circularDoc inOrder []) _ _
    exact Does.skip.seq ((does_setMessage (fun g c => c.bare0) (by decide) rA (fun g c => c.link 0) fun g c => c.bare0).seq
      (Does.none _))
  · exact Does.two (Q := Circular [1, 0])
      (does_setMessage (fun g c => c.bare1) (by decide) rB (fun g c => c.link 1) fun g c => c.bare1)
      (does_setMessage (fun g c => c.bare2) (by decide) rA (fun g c => c.link 2) fun g c => c.bare2)

theorem does_imports {l : List Nat} (n : Nat) :
    Does (customImports inOrder (n + 1) circularDoc.main) (Circular l) (Circular l) := by
  have key : ∀ {a r}, (∀ g, Circular l g → Bare (g a) r) →
      Does (Panics.messageImports inOrder (n + 1) (some a)) (Circular l) (Circular l) := by
    intro a r hb
    unfold Panics.messageImports
    refine Does.deref (Does.msg fun m ⟨g, hg, hm⟩ => ?_)
    have b := hm ▸ hb g hg
    rw [b.payload, b.headers]
    exact Does.skip.seq .skip
  unfold customImports
  exact (Does.none _).seq ((Does.two (key fun g c => c.bare1) (key fun g c => c.bare2)).seq (Does.none _))

theorem does_process (n : Nat) : Does (process circularDoc inOrder (n + 1)) (Circular []) (Circular [2, 1, 0]) := by
  unfold process
  refine Does.ranged (Does.skip.seq ((does_metaRoots n).seq (Does.ranged (Does.skip.seq (does_setRoots n)))))

/-- The generator follows the references of a message until there are none, at whatever depth its stack ends: with circular
references the process dies. Without the code of a side it generates the types. -/
theorem C111_violated_v2_circular :
    (∀ n, run circularDoc inOrder n true circularStore = .error .deep) ∧
    ∀ n, run circularDoc inOrder (n + 1) false circularStore = .ok () := by
  have start : Circular [] circularStore.heap.messages :=
    ⟨⟨rfl, rfl, rfl, rfl, rfl⟩, ⟨rfl, rfl, rfl, rfl, rfl⟩, ⟨rfl, rfl, rfl, rfl, rfl⟩, nofun⟩
  have both : ∀ n sides, ∃ h, Circular [2, 1, 0] h.messages ∧
      generate circularDoc inOrder (n + 1) sides circularStore.heap = (if sides then do
        let l ← Panics.ranged inOrder circularDoc.main.channels
        Panics.each (fun e => sideChannel (n + 1) e.2) l else pure () : M Unit) h := by
    intro n sides
    obtain ⟨h, hp, c⟩ := does_process n _ start
    obtain ⟨h', hi, c'⟩ := does_imports n h c
    refine ⟨h', c', ?_⟩
    unfold generate
    rw [bind_ok hp, bind_ok hi]
  refine ⟨fun n => ?_, fun n => ?_⟩
  · cases n with
    | zero => decide +kernel
    | succ n =>
      obtain ⟨h, c, hg⟩ := both n true
      unfold run
      rw [hg]
      have hf : ∀ k h, Circular [2, 1, 0] h.messages → follow (k + 1) 0 h = .error .deep := by
        intro k h c
        have := follow_cycle (c.refTo 1 (by decide)) (c.refTo 2 (by decide)) k
        show (match (h.messages 0).refTo with | some b => follow k b | none => pure ()) h = _
        rw [c.refTo 0 (by decide)]
        exact this.1
      have : (do
          let l ← Panics.ranged inOrder circularDoc.main.channels
          Panics.each (fun e => sideChannel (n + 1) e.2) l : M Unit) h = .error .deep := by
        show ((do
          follow (n + 1) 0
          pure ()) : M Unit) { h with tick := h.tick + 1 } = _
        simp only [bind, StateT.bind]
        rw [hf _ { h with tick := h.tick + 1 } c]
        rfl
      rw [if_pos rfl, this]
  · obtain ⟨h, c, hg⟩ := both n false
    unfold run
    rw [hg]
    rfl

end Verif.Panics2
