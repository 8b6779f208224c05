import Verif.Proofs.Panics

/-!
# C111: no document crashes the generator

Every document should be processed or refused with an error. For documents of version 3 this is proved for those without
certain nulls and incomplete replies (`Tame`), and refuted for the others, form by form.
-/

namespace Verif.Panics

/-- Go's order of maps, as they are written. -/
def inOrder : Order := ⟨fun _ l => l⟩

instance : DecidableEq (Except Bad Unit)
  | .ok (), .ok () => isTrue rfl
  | .ok (), .error _ => isFalse nofun
  | .error _, .ok () => isFalse nofun
  | .error a, .error b => decidable_of_iff (a = b) ⟨fun h => h ▸ rfl, fun h => by cases h; rfl⟩

/-- **C111, version 3** A document without the forms of `Tame` is processed, or refused with an error, in whatever order Go
ranges over maps and however deep the calls are nested: no run ends with a panic. -/
theorem C111_v3_partial {h : Heap} {d : Doc} (t : Tame h d) {o : Order} (ho : o.Ok) (n : Nat) {sides : Bool}
    (hn : sides = true → NoNullOperation d) : run d o n sides h ≠ .error .panic :=
  no_panic t ho n hn

/-! ## A document that meets the hypotheses

A user with a name and friends, sent in a message with a correlation ID and a trait, over a channel; an operation with a
reply whose address is in the headers. Then a document that uses a schema of another file. -/

/-- `#/components/schemas/User` -/
def userRef : Str := key! "#/components/schemas/User"
/-- `./other.yaml#/components/schemas/Id` -/
def idRef : Str := key! "./other.yaml#/components/schemas/Id"
/-- `#/components/messageTraits/Common` -/
def traitRef : Str := key! "#/components/messageTraits/Common"
/-- `#/channels/users/messages/user` -/
def messageRef : Str := key! "#/channels/users/messages/user"
/-- `$message.header#/correlationId` -/
def correlationLocation : Str := key! "$message.header#/correlationId"
/-- `$message.header#/replyTo` -/
def replyLocation : Str := key! "$message.header#/replyTo"

/-- Its schemas. -/
def sampleSchemas : Nat → Sch
  | 0 => { type := key! "object", props := [(key! "name", some 1), (key! "friends", some 2)] }
  | 1 => { type := key! "string" }
  | 2 => { type := key! "array", items := some 3 }
  | 3 => { ref := userRef }
  | 4 => { allOf := [some 3, some 5] }
  | 5 => { type := key! "object", patternProps := [(key! "^x-", none)] }
  | _ => {}

/-- Its messages. -/
def sampleMessages : Nat → Msg
  | 0 => { payload := some 4, corr := some correlationLocation, traits := [some 0],
           tags := [some { name := key! "Tag0" }] }
  | 1 => { ref := messageRef }
  | _ => {}

/-- Its message traits. -/
def sampleTraits : Nat → MTrait
  | 0 => { ref := traitRef }
  | 1 => { tags := [some { name := key! "Tag0" }, some { name := key! "Tag1" }] }
  | _ => {}

/-- Its channels. -/
def sampleChannels : Nat → Chan
  | 0 => { messages := [(key! "user", some 0)] }
  | _ => {}

/-- Its operations. -/
def sampleOperations : Nat → Op
  | 0 => { channel := some 0, messages := [some 1], reply := some 0 }
  | _ => {}

/-- Its replies. -/
def sampleReplies : Nat → Reply
  | 0 => { channel := some 0, address := some 0 }
  | _ => {}

/-- Its reply addresses. -/
def sampleAddresses : Nat → Addr
  | 0 => { location := replyLocation }
  | _ => {}

/-- The decoded document. -/
def sampleHeap : Heap where
  schemas := sampleSchemas
  messages := sampleMessages
  messageTraits := sampleTraits
  channels := sampleChannels
  operations := sampleOperations
  replies := sampleReplies
  addresses := sampleAddresses
  next := 6

/-- The document. -/
def sampleDoc : Doc where
  main := { channels := [(key! "users", some 0)], operations := [(key! "sendUser", some 0)],
            schemas := [(key! "User", some 0)], messageTraits := [(key! "Common", some 1)] }

/-- A document with one schema, which is one of another file. -/
def usingHeap : Heap where
  schemas
    | 0 => { ref := idRef }
    | 1 => { type := key! "string" }
    | _ => {}
  next := 2

/-- The document and the other file. -/
def usingDoc : Doc where
  main := { schemas := [(key! "Key", some 0)] }
  deps := [(key! "other.yaml", { schemas := [(key! "Id", some 1), (key! "Nothing", none)] })]

instance {α : Type} [DecidableEq α] (l : List (Option α)) : Decidable (Full l) :=
  inferInstanceAs (Decidable (∀ p ∈ l, p ≠ none))
instance (m : GoMap Str Ptr) : Decidable (FullMap m) := inferInstanceAs (Decidable (∀ e ∈ m, e.2 ≠ none))
instance (l : Str) : Decidable (LocOk l) := inferInstanceAs (Decidable (_ → _))

theorem calm_of {h : Heap} {d : Doc} {ref file path : Str} (hs : Str.split '#' ref = [file, path])
    (hk : ∀ s ∈ documents d, ∀ r, fileOf s file = some r → PathOk h r (Str.split '/' (trimSlash path))) : Calm h d ref := by
  intro s hmem f p r hsp hf
  rw [hs] at hsp
  cases hsp
  exact hk s hmem r hf

theorem userRef_calm : Calm sampleHeap sampleDoc userRef :=
  calm_of (file := []) (path := key! "/components/schemas/User") (by decide) fun _ _ _ _ => .schema (.here _)

theorem traitRef_calm : Calm sampleHeap sampleDoc traitRef :=
  calm_of (file := []) (path := key! "/components/messageTraits/Common") (by decide) fun _ _ _ _ =>
    .component (by decide) (by decide)

theorem messageRef_calm : Calm sampleHeap sampleDoc messageRef := by
  refine calm_of (file := []) (path := key! "/channels/users/messages/user") (by decide) fun s hs r hr => ?_
  rw [List.mem_singleton.1 (show s ∈ [sampleDoc] from hs)] at hr
  cases hr
  exact .channelMessage (a := 0) rfl (.here _)

theorem idRef_calm : Calm usingHeap usingDoc idRef :=
  calm_of (file := key! "./other.yaml") (path := key! "/components/schemas/Id") (by decide) fun _ _ _ _ => .schema (.here _)

section
variable {h : Heap} {C : Str → Prop}

theorem named_plain {l : List (Option Named)} (h1 : Full l) (h2 : ∀ t, some t ∈ l → t.leaf = []) : NamedOk C l :=
  ⟨h1, fun t ht => by rw [h2 t ht]; nofun⟩
theorem leaf_nil : CalmLeaf C [] := nofun
theorem schema_plain : SchemaOk C {} := ⟨absent_nil, nofun, nofun, nofun, nofun⟩
theorem message_plain : MessageOk C {} := ⟨absent_nil, nofun, namedOk_nil, leaf_nil, nofun, nofun⟩
theorem messageTrait_plain : MTraitOk C {} := ⟨absent_nil, namedOk_nil, leaf_nil, nofun⟩
theorem operationTrait_plain : OTraitOk C {} := ⟨absent_nil, namedOk_nil, namedOk_nil, leaf_nil⟩
theorem channel_plain : ChannelOk C {} := ⟨absent_nil, nofun, leaf_nil⟩
theorem operation_plain : OperationOk h C {} := ⟨absent_nil, rfl, namedOk_nil, namedOk_nil, leaf_nil, nofun, nofun, nofun⟩
end

theorem sample_tame : Tame sampleHeap sampleDoc where
  schemas
    | 0 => ⟨absent_nil, by decide, by decide, by decide, by decide⟩
    | 1 => ⟨absent_nil, by decide, by decide, by decide, by decide⟩
    | 2 => ⟨absent_nil, by decide, by decide, by decide, by decide⟩
    | 3 => ⟨fun _ => userRef_calm, by decide, by decide, by decide, by decide⟩
    | 4 => ⟨absent_nil, by decide, by decide, by decide, by decide⟩
    | 5 => ⟨absent_nil, by decide, by decide, by decide, by decide⟩
    | _ + 6 => schema_plain
  messages
    | 0 => ⟨absent_nil, by decide, named_plain (by decide) (by rintro t (_ | ⟨_, ⟨⟩⟩); rfl), leaf_nil, by decide,
        fun l hl => by cases hl; decide⟩
    | 1 => ⟨fun _ => messageRef_calm, by decide, namedOk_nil, leaf_nil, by decide, nofun⟩
    | _ + 2 => message_plain
  messageTraits
    | 0 => ⟨fun _ => traitRef_calm, namedOk_nil, leaf_nil, nofun⟩
    | 1 => ⟨absent_nil, named_plain (by decide) (by rintro t (_ | ⟨_, _ | ⟨_, ⟨⟩⟩⟩) <;> rfl), leaf_nil, nofun⟩
    | _ + 2 => messageTrait_plain
  operationTraits _ := operationTrait_plain
  channels
    | 0 => ⟨absent_nil, by decide, leaf_nil⟩
    | _ + 1 => channel_plain
  operations
    | 0 => ⟨absent_nil, rfl, namedOk_nil, namedOk_nil, leaf_nil, by decide, fun r hr => by cases hr; nofun,
        fun r a hr ha _ => by
          cases hr
          cases ha
          exact ⟨by decide, rfl, .inl ⟨1, [], rfl⟩⟩⟩
    | _ + 1 => operation_plain
  replies
    | 0 => absent_nil
    | _ + 1 => absent_nil
  addresses
    | 0 => absent_nil
    | _ + 1 => absent_nil
  roots s hs := by
    rw [List.mem_singleton.1 (show s ∈ [sampleDoc] from hs)]
    exact ⟨leaf_nil, nofun, nofun, nofun⟩
  componentSchemas := by decide
  componentMessages := by decide

theorem using_tame : Tame usingHeap usingDoc where
  schemas
    | 0 => ⟨fun _ => idRef_calm, by decide, by decide, by decide, by decide⟩
    | 1 => ⟨absent_nil, by decide, by decide, by decide, by decide⟩
    | _ + 2 => schema_plain
  messages _ := message_plain
  messageTraits _ := messageTrait_plain
  operationTraits _ := operationTrait_plain
  channels _ := channel_plain
  operations _ := operation_plain
  replies _ := absent_nil
  addresses _ := absent_nil
  roots s hs := by
    rcases List.mem_cons.1 hs with h | h
    · rw [h]; exact ⟨leaf_nil, nofun, nofun, nofun⟩
    · rw [List.mem_singleton.1 h]; exact ⟨leaf_nil, nofun, nofun, nofun⟩
  componentSchemas := by decide
  componentMessages := by decide

theorem inOrder_ok : inOrder.Ok := fun _ _ _ => .refl _

example (n : Nat) : run sampleDoc inOrder n true sampleHeap ≠ .error .panic :=
  C111_v3_partial sample_tame inOrder_ok n (fun _ => by unfold NoNullOperation; decide)
example : run sampleDoc inOrder 12 true sampleHeap = .ok () := by decide +kernel
example (n : Nat) : run usingDoc inOrder n false usingHeap ≠ .error .panic :=
  C111_v3_partial using_tame inOrder_ok n nofun
example : run usingDoc inOrder 12 false usingHeap = .ok () := by decide +kernel

/-! ## Documents that crash the generator -/

/-- A document with one operation. -/
def withOperation : Doc := { main := { operations := [(key! "op", some 0)] } }

/-- An operation whose reply has no channel. AsyncAPI does not require one, and a reply that is a reference has none. -/
theorem C111_violated_reply :
    run withOperation inOrder 9 false { operations := fun _ => { reply := some 0 } } = .error .panic := by decide +kernel

/-- The same as a reference to a reply of the components that has a channel. -/
theorem C111_violated_reply_reference :
    run { main := { operations := [(key! "op", some 0)], replies := [(key! "R", some 1)] } } inOrder 9 false
      { operations := fun _ => { reply := some 0 },
        replies := fun
          | 0 => { ref := key! "#/components/replies/R" }
          | _ => { channel := some 0 } } = .error .panic := by decide +kernel

/-- A null among the traits of an operation. -/
theorem C111_violated_operation_trait :
    run withOperation inOrder 9 false { operations := fun _ => { traits := [none] } } = .error .panic := by decide +kernel

/-- A null among the tags, or the security schemes, of an operation that has a trait. -/
theorem C111_violated_tag :
    run withOperation inOrder 9 false
      { operations := fun _ => { traits := [some 0], tags := [none, some { name := key! "T" }] } } = .error .panic ∧
    run withOperation inOrder 9 false
      { operations := fun _ => { traits := [some 0], security := [none, some { name := key! "S" }] } } = .error .panic := by
  decide +kernel

/-- A reply address with a location, among the components or below a reply of the components. -/
theorem C111_violated_component_address :
    run { main := { addresses := [(key! "A", some 0)] } } inOrder 9 false
      { addresses := fun _ => { location := replyLocation } } = .error .panic ∧
    run { main := { replies := [(key! "R", some 0)] } } inOrder 9 false
      { replies := fun _ => { channel := some 0, address := some 0 },
        addresses := fun _ => { location := replyLocation } } = .error .panic := by
  decide +kernel

/-- A reply address with a location without a path, or in an operation without messages and channel. -/
theorem C111_violated_address :
    run withOperation inOrder 9 false
      { operations := fun _ => { reply := some 0, messages := [some 0] },
        replies := fun _ => { channel := some 0, address := some 0 },
        addresses := fun _ => { location := key! "$message.header#replyTo" } } = .error .panic ∧
    run withOperation inOrder 9 false
      { operations := fun _ => { reply := some 0 },
        replies := fun _ => { channel := some 0, address := some 0 },
        addresses := fun _ => { location := replyLocation } } = .error .panic := by
  decide +kernel

/-- A document with one message in its components. -/
def withMessage : Doc := { main := { messages := [(key! "M", some 0)] } }

/-- A null among the traits, or the alternatives, of a message. -/
theorem C111_violated_message_trait :
    run withMessage inOrder 9 false { messages := fun _ => { traits := [none] } } = .error .panic ∧
    run withMessage inOrder 9 false { messages := fun _ => { oneOf := [none] } } = .error .panic := by
  decide +kernel

/-- A correlation ID whose location has no path. -/
theorem C111_violated_correlation :
    run withMessage inOrder 9 false { messages := fun _ => { corr := some (key! "$message.header#correlationId") } } =
      .error .panic := by decide +kernel

/-- A document with one schema in its components. -/
def withSchema : Doc := { main := { schemas := [(key! "S", some 0)] } }

/-- A null among the alternatives of a schema. -/
theorem C111_violated_alternative :
    run withSchema inOrder 9 false { schemas := fun _ => { anyOf := [none] }, next := 1 } = .error .panic ∧
    run withSchema inOrder 9 false { schemas := fun _ => { oneOf := [none] }, next := 1 } = .error .panic ∧
    run withSchema inOrder 9 false { schemas := fun _ => { allOf := [none] }, next := 1 } = .error .panic := by
  decide +kernel

/-- A null property, schema or message: `CustomImports` looks into them. -/
theorem C111_violated_null :
    run withSchema inOrder 9 false { schemas := fun _ => { props := [(key! "p", none)] }, next := 1 } = .error .panic ∧
    run { main := { schemas := [(key! "S", none)] } } inOrder 9 false {} = .error .panic ∧
    run { main := { messages := [(key! "M", none)] } } inOrder 9 false {} = .error .panic := by
  decide +kernel

/-- A null operation, when the code of a side is wanted. -/
theorem C111_violated_operation :
    run { main := { operations := [(key! "op", none)] } } inOrder 9 true {} = .error .panic ∧
    run { main := { operations := [(key! "op", none)] } } inOrder 9 false {} = .ok () := by
  decide +kernel

end Verif.Panics
