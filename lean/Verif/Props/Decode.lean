import Verif.Proofs.Decode

/-!
# C110: documents are read as AsyncAPI defines them

Every document AsyncAPI allows is accepted, and every value in it is found again, under its keyword, in the
structures the code is generated from.
-/

namespace Verif.Decode

/-- The structures that hold the objects of AsyncAPI 3.0.0; a schema of another format is decoded as a
schema. -/
def go3 : S3 → T3
  | .root => .root
  | .info => .info
  | .contact => .contact
  | .license => .license
  | .server => .server
  | .serverVariable => .serverVariable
  | .channel => .channel
  | .operation => .operation
  | .operationTrait => .operationTrait
  | .reply => .reply
  | .replyAddress => .replyAddress
  | .message => .message
  | .messageTrait => .messageTrait
  | .messageExample => .messageExample
  | .correlationId => .correlationId
  | .parameter => .parameter
  | .schema => .schema
  | .multiFormat => .schema
  | .goTypeImport => .goTypeImport
  | .security => .security
  | .oauthFlows => .oauthFlows
  | .oauthFlow => .oauthFlow
  | .tag => .tag
  | .externalDocs => .externalDocs
  | .components => .components
  | .serverBindings => .serverBindings
  | .channelBindings => .channelBindings
  | .operationBindings => .operationBindings
  | .messageBindings => .messageBindings

/-- The structures that hold the objects of AsyncAPI 2.6.0. -/
def go2 : S2 → T2
  | .root => .root
  | .info => .info
  | .channel => .channel
  | .operation => .operation
  | .message => .message
  | .correlationId => .correlationId
  | .parameter => .parameter
  | .schema => .schema
  | .goTypeImport => .goTypeImport
  | .components => .components

theorem tables3 (s : S3) : okObj go3 fields3 read3 ignored3 s = true := by
  cases s <;> decide +kernel

theorem tables2 (s : S2) : okObj go2 fields2 read2 ignored2 s = true := by
  cases s <;> decide +kernel

/-- A document of version 3 whose values have the shapes of `read3` is accepted, and each of its values is at
its place in the structures, unless it is below a keyword of `ignored3`. Missing: the forms AsyncAPI allows
besides (`narrowSh`, `narrowed3`), which are refused, and the keywords of `ignored3`, which are skipped. -/
theorem C110_v3_partial (doc : Json) (h : Conforms read3 (.obj .root) doc) :
    ∃ v, decode fields3 doc (.struct .root) = some v ∧
      ∀ p x, Reach read3 ignored3 (.obj .root) doc p x → ∃ y, valAt v p = some y ∧ Holds y x := by
  have ho : ok go3 (.obj .root) (Ty.struct T3.root) = true := rfl
  obtain ⟨v, hv⟩ := decode_of_conforms tables3 h (.struct .root) ho
  exact ⟨v, hv, fun p x hr => valAt_of_reach tables3 hr h _ ho v hv⟩

/-- The same for version 2, with `read2` and `ignored2`. -/
theorem C110_v2_partial (doc : Json) (h : Conforms read2 (.obj .root) doc) :
    ∃ v, decode fields2 doc (.struct .root) = some v ∧
      ∀ p x, Reach read2 ignored2 (.obj .root) doc p x → ∃ y, valAt v p = some y ∧ Holds y x := by
  have ho : ok go2 (.obj .root) (Ty.struct T2.root) = true := rfl
  obtain ⟨v, hv⟩ := decode_of_conforms tables2 h (.struct .root) ho
  exact ⟨v, hv, fun p x hr => valAt_of_reach tables2 hr h _ ho v hv⟩

theorem read_keys {σ : Type} [DecidableEq σ] {T : σ → List (Str × Sh σ)} {o : List (σ × Str × Sh σ)} (s : σ)
    (k : Str) (a : Sh σ) (h : (k, a) ∈ (T s).map (fun f => (f.1, override s f.1 f.2 o))) :
    ∃ b, (k, b) ∈ T s := by
  obtain ⟨f, hf, e⟩ := List.mem_map.1 h
  cases e
  exact ⟨f.2, hf⟩

theorem read_sub {σ : Type} [DecidableEq σ] {T : σ → List (Str × Sh σ)} {o : List (σ × Str × Sh σ)}
    (hc : ∀ s, (T s).all (fun f => subB 8 (override s f.1 f.2 o) f.2) = true) (s : σ) (k : Str) (b : Sh σ)
    (h : (k, b) ∈ T s) :
    ∃ a, (k, a) ∈ (T s).map (fun f => (f.1, override s f.1 f.2 o)) ∧ Sub a b :=
  ⟨_, List.mem_map.2 ⟨(k, b), h, rfl⟩, sub_of_subB (List.all_eq_true.1 (hc s) _ h)⟩

theorem subs3 (s : S3) : (std3 s).all (fun f => subB 8 (override s f.1 f.2 narrowed3) f.2) = true := by
  cases s <;> decide +kernel

theorem subs2 (s : S2) : (std2 s).all (fun f => subB 8 (override s f.1 f.2 narrowed2) f.2) = true := by
  cases s <;> decide +kernel

/-- The documents of `C110_v3_partial` are documents of AsyncAPI 3.0.0. -/
theorem C110_v3_standard (doc : Json) (h : Conforms read3 (.obj .root) doc) : Conforms std3 (.obj .root) doc :=
  conforms_mono (T := read3) (T' := std3) read_keys (read_sub subs3) _ doc (Nat.le_refl _) _ _ (.refl _) h

/-- The documents of `C110_v2_partial` are documents of AsyncAPI 2.6.0. -/
theorem C110_v2_standard (doc : Json) (h : Conforms read2 (.obj .root) doc) : Conforms std2 (.obj .root) doc :=
  conforms_mono (T := read2) (T' := std2) read_keys (read_sub subs2) _ doc (Nat.le_refl _) _ _ (.refl _) h

/-- A document of version 3 of the kind of `C110_v3_partial`, in a file of a known format, is loaded. -/
theorem C110_v3_loaded_partial (fs : Str → Parse.File) (path : Str) (ms : List (Str × Json))
    (hf : fs path = .doc (.obj ms))
    (he : Parse.ext path = ['.', 'y', 'a', 'm', 'l'] ∨ Parse.ext path = ['.', 'y', 'm', 'l'] ∨
      Parse.ext path = ['.', 'j', 's', 'o', 'n'])
    (hv : Parse.member Parse.asyncapiKey ms = some (.str (key! "3.0.0")))
    (h : Conforms read3 (.obj .root) (.obj ms)) :
    Parse.load decodes fs path [] = .ok (some (⟨.v3, .obj ms⟩, [])) := by
  obtain ⟨v, hd, _⟩ := C110_v3_partial _ h
  have hdec : decodes .v3 (.obj ms) = true := by rw [decodes, hd]; rfl
  have hver : Parse.versionFromJSON (.obj ms) = .ok (key! "3.0.0") := by
    simp only [Parse.versionFromJSON, hv]
    rfl
  have hmaj : Parse.majorVersionFromJSON (.obj ms) = .ok 3 := by
    simp only [Parse.majorVersionFromJSON, hver]
    rfl
  have hfj : Parse.fromJSON decodes 0 (.obj ms) = .ok (some ⟨.v3, .obj ms⟩) := by
    simp only [Parse.fromJSON, hmaj]
    simp only [if_pos, bind, Except.bind, pure, Except.pure, hdec]
  have hff : Parse.fromFile decodes fs path 0 = .ok (some ⟨.v3, .obj ms⟩) := by
    rw [Parse.fromFile, hf]
    simp only [if_pos he]
    exact hfj
  rw [Parse.load, hff]
  rfl

/-! ## Documents that are refused -/

theorem decodes3_of_inside {doc j : Json} {t : Ty T3} (hi : Inside fields3 (.struct .root) doc t j)
    (h : decode fields3 j t = none) : decodes .v3 doc = false := by
  rw [decodes, decode_none_of_inside hi h]
  rfl

theorem decodes2_of_inside {doc j : Json} {t : Ty T2} (hi : Inside fields2 (.struct .root) doc t j)
    (h : decode fields2 j t = none) : decodes .v2 doc = false := by
  rw [decodes, decode_none_of_inside hi h]
  rfl

/-- A boolean in place of a schema, wherever a schema is read: `additionalProperties: false`. -/
theorem C110_violated_boolean :
    (∀ doc b, Inside fields3 (.struct .root) doc (.struct .schema) (.bool b) → decodes .v3 doc = false) ∧
    (∀ doc b, Inside fields2 (.struct .root) doc (.struct .schema) (.bool b) → decodes .v2 doc = false) :=
  ⟨fun _ _ h => decodes3_of_inside h (by rw [decode]; all_goals nofun),
   fun _ _ h => decodes2_of_inside h (by rw [decode]; all_goals nofun)⟩

/-- Members of schemas that AsyncAPI allows and that are refused: a list of types, `multipleOf` with a number,
a list of items, an integer with a fraction, and in version 3 `additionalItems`, `propertyNames` and `contains`
with a schema. -/
inductive Refused (v3 : Bool) : Str → Json → Prop
  | types (xs : List Json) : Refused v3 (key! "type") (.arr xs)
  | multipleOf (t : Str) : Refused v3 (key! "multipleOf") (.num t)
  | items (xs : List Json) : Refused v3 (key! "items") (.arr xs)
  | fraction (k : Str) (hk : k ∈ [key! "maxLength", key! "minLength", key! "maxItems", key! "minItems",
      key! "maxProperties", key! "minProperties"]) (n m : Nat) :
      Refused v3 k (.num (Nat.toDigits 10 n ++ '.' :: List.replicate (m + 1) '0'))
  | schema (h3 : v3 = true) (k : Str) (hk : k ∈ [key! "additionalItems", key! "propertyNames", key! "contains"])
      (ms : List (Str × Json)) : Refused v3 k (.obj ms)

theorem parseUint_fraction (n m : Nat) :
    parseUint (Nat.toDigits 10 n ++ '.' :: List.replicate (m + 1) '0') = none := by
  have h : natOf 0 (Nat.toDigits 10 n ++ '.' :: List.replicate (m + 1) '0') = none := by
    rw [natOf_append, natOf_toDigits]
    rfl
  unfold parseUint
  split
  · rfl
  · rw [h]

theorem refused_field3 {k : Str} {j : Json} (h : Refused true k j) :
    ∃ f, findField k (fields3 .schema) = some f ∧ decode fields3 j f.2 = none := by
  cases h with
  | types xs => exact ⟨(_, .str), rfl, by rw [decode]; all_goals nofun⟩
  | multipleOf t => exact ⟨(_, .list .str), rfl, by rw [decode]; all_goals nofun⟩
  | items xs => exact ⟨(_, .struct .schema), rfl, by rw [decode]; all_goals nofun⟩
  | fraction k hk n m =>
    have key : findField k (fields3 .schema) = some (k, .uint) := by
      simp only [List.mem_cons, List.not_mem_nil, or_false] at hk
      rcases hk with rfl | rfl | rfl | rfl | rfl | rfl <;> rfl
    exact ⟨_, key, by rw [decode, parseUint_fraction]; rfl⟩
  | schema _ k hk ms =>
    simp only [List.mem_cons, List.not_mem_nil, or_false] at hk
    rcases hk with rfl | rfl | rfl
    · exact ⟨(_, .list (.struct .schema)), rfl, by rw [decode]; all_goals nofun⟩
    · exact ⟨(_, .list .str), rfl, by rw [decode]; all_goals nofun⟩
    · exact ⟨(_, .list (.struct .schema)), rfl, by rw [decode]; all_goals nofun⟩

theorem refused_field2 {k : Str} {j : Json} (h : Refused false k j) :
    ∃ f, findField k (fields2 .schema) = some f ∧ decode fields2 j f.2 = none := by
  cases h with
  | types xs => exact ⟨(_, .str), rfl, by rw [decode]; all_goals nofun⟩
  | multipleOf t => exact ⟨(_, .list .str), rfl, by rw [decode]; all_goals nofun⟩
  | items xs => exact ⟨(_, .struct .schema), rfl, by rw [decode]; all_goals nofun⟩
  | fraction k hk n m =>
    have key : findField k (fields2 .schema) = some (k, .uint) := by
      simp only [List.mem_cons, List.not_mem_nil, or_false] at hk
      rcases hk with rfl | rfl | rfl | rfl | rfl | rfl <;> rfl
    exact ⟨_, key, by rw [decode, parseUint_fraction]; rfl⟩
  | schema h3 => cases h3

/-- A document with such a member in any schema is refused. -/
theorem C110_violated_schema :
    (∀ doc ms k j, Inside fields3 (.struct .root) doc (.struct .schema) (.obj ms) → (k, j) ∈ ms →
      Refused true k j → decodes .v3 doc = false) ∧
    (∀ doc ms k j, Inside fields2 (.struct .root) doc (.struct .schema) (.obj ms) → (k, j) ∈ ms →
      Refused false k j → decodes .v2 doc = false) := by
  constructor
  · intro doc ms k j hi hm hr
    obtain ⟨f, hf, hd⟩ := refused_field3 hr
    exact decodes3_of_inside hi (by rw [decode, decodeFields_none hm hf hd]; rfl)
  · intro doc ms k j hi hm hr
    obtain ⟨f, hf, hd⟩ := refused_field2 hr
    exact decodes2_of_inside hi (by rw [decode, decodeFields_none hm hf hd]; rfl)

/-- A document of version 3 with the security of a server, which AsyncAPI has as a list, is refused. -/
theorem C110_violated_security (doc : Json) (ms : List (Str × Json)) (xs : List Json)
    (hi : Inside fields3 (.struct .root) doc (.struct .server) (.obj ms))
    (hm : (key! "security", .arr xs) ∈ ms) : decodes .v3 doc = false :=
  decodes3_of_inside hi (by
    rw [decode, decodeFields_none hm (f := (key! "security", .struct .security)) rfl
      (by rw [decode]; all_goals nofun)]
    rfl)

/-- A document of version 3 with an example of a payload that is no object is refused. -/
theorem C110_violated_example (doc : Json) (ms : List (Str × Json)) (j : Json)
    (hi : Inside fields3 (.struct .root) doc (.struct .messageExample) (.obj ms))
    (hm : (key! "payload", j) ∈ ms) (hn : j ≠ .null) (hj : ∀ ps, j ≠ .obj ps) : decodes .v3 doc = false :=
  decodes3_of_inside hi (by
    rw [decode, decodeFields_none hm (f := (key! "payload", .dict .any)) rfl (by
      cases j with
      | null => exact absurd rfl hn
      | obj ps => exact absurd rfl (hj ps)
      | _ => rw [decode]; all_goals nofun)]
    rfl)

/-- Keywords that are skipped: whatever their value, the rest is decoded as if they were absent. Among them
are the description of an operation, the flow `clientCredentials` and the schema of another format in
version 3; references of channels and of correlation identifiers, traits, content types, the schemas of
parameters and `components.channels` in version 2. -/
theorem C110_violated_ignored :
    (∀ s k, (s, k) ∈ ignored3 → (∃ a, (k, a) ∈ std3 s) ∧ ∀ as bs j,
      decode fields3 (.obj (as ++ (k, j) :: bs)) (.struct (go3 s)) =
        decode fields3 (.obj (as ++ bs)) (.struct (go3 s))) ∧
    (∀ s k, (s, k) ∈ ignored2 → (∃ a, (k, a) ∈ std2 s) ∧ ∀ as bs j,
      decode fields2 (.obj (as ++ (k, j) :: bs)) (.struct (go2 s)) =
        decode fields2 (.obj (as ++ bs)) (.struct (go2 s))) := by
  have key3 : ignored3.all (fun i => (findField i.2 (fields3 (go3 i.1))).isNone &&
      (std3 i.1).any (fun f => decide (f.1 = i.2))) = true := by decide +kernel
  have key2 : ignored2.all (fun i => (findField i.2 (fields2 (go2 i.1))).isNone &&
      (std2 i.1).any (fun f => decide (f.1 = i.2))) = true := by decide +kernel
  simp only [List.all_eq_true, Bool.and_eq_true, Option.isNone_iff_eq_none, List.any_eq_true,
    decide_eq_true_eq] at key3 key2
  constructor
  · intro s k hm
    obtain ⟨hn, f, hf, e⟩ := key3 _ hm
    refine ⟨⟨f.2, by have e : f.1 = k := e; rw [← e]; exact hf⟩, fun as bs j => ?_⟩
    rw [decode, decode, decodeFields_skip as bs j hn]
  · intro s k hm
    obtain ⟨hn, f, hf, e⟩ := key2 _ hm
    refine ⟨⟨f.2, by have e : f.1 = k := e; rw [← e]; exact hf⟩, fun as bs j => ?_⟩
    rw [decode, decode, decodeFields_skip as bs j hn]

/-- A whole number without sign or leading zeros is read as itself below 2^64, and refused from there on: nothing wraps
around. -/
theorem C110_integers {ν : Type} (F : ν → List (Str × Ty ν)) (n : Nat) :
    decode F (.num (Nat.toDigits 10 n)) .uint = if n < 2 ^ 64 then some (.uint n) else none := by
  by_cases h : n < 2 ^ 64
  · rw [decode, parseUint_toDigits h, if_pos h]; rfl
  · have e : parseUint (Nat.toDigits 10 n) = none := by
      have hn := natOf_toDigits n
      cases e : Nat.toDigits 10 n with
      | nil => exact absurd e Nat.toDigits_ne_nil
      | cons c s =>
        rw [e] at hn
        simp only [parseUint, hn]
        rw [if_neg h]
    rw [decode, e, if_neg h]; rfl

example : decode fields3 (.num (key! "18446744073709551616")) .uint = none := by decide +kernel

/-- Keywords are case-sensitive in AsyncAPI, but a member whose name differs in case is read as the keyword;
the long s and the Kelvin sign are taken for letters. -/
theorem C110_violated_case (s : Str) :
    decode fields3 (.obj [(key! "TYPE", .str s)]) (.struct .schema) = some (.struct [(key! "type", .str s)]) ∧
    decode fields2 (.obj [(key! "TYPE", .str s)]) (.struct .schema) = some (.struct [(key! "type", .str s)]) ∧
    decode fields3 (.obj [(key! "deſcription", .str s)]) (.struct .schema) =
      some (.struct [(key! "description", .str s)]) ∧
    findField (key! "\u212afK") [(key! "kfk", (.str : Ty T3))] = some (key! "kfk", .str) :=
  ⟨rfl, rfl, rfl, rfl⟩

/-! ## Examples -/

/-- A document with a schema in `components`. -/
def docWith (sch : Json) : Json :=
  .obj [(key! "asyncapi", .str (key! "3.0.0")),
    (key! "info", .obj [(key! "title", .str (key! "T")), (key! "version", .str (key! "1"))]),
    (key! "servers", .obj [(key! "s", .obj [(key! "host", .str (key! "h")),
      (key! "tags", .arr [.obj [(key! "name", .str (key! "n"))]])])]),
    (key! "channels", .obj [(key! "c", .obj [(key! "address", .null),
      (key! "messages", .obj [(key! "m", .obj [(key! "payload", .obj [(key! "$ref", .str (key! "#/x"))]),
        (key! "correlationId", .obj [(key! "location", .str (key! "$message.header#/id"))]),
        (key! "x-other", .bool true)])])])]),
    (key! "components", .obj [(key! "schemas", .obj [(key! "S", sch)])])]

/-- A schema of every kind of keyword. -/
def sch : Json :=
  .obj [(key! "type", .str (key! "object")), (key! "required", .arr [.str (key! "a")]),
    (key! "maxProperties", .num (key! "12")), (key! "minimum", .num (key! "-1.5")),
    (key! "properties", .obj [(key! "a", .obj [(key! "enum", .arr [.num (key! "1"), .str (key! "b")])]),
      (key! "A", .obj [])]),
    (key! "additionalProperties", .obj [(key! "type", .str (key! "string"))]),
    (key! "x-omitempty", .bool true)]

/-- The hypothesis of `C110_v3_partial`, `C110_v3_standard`, `C110_v3_loaded_partial`. -/
example : Conforms read3 (.obj .root) (docWith sch) := conforms_of_check (n := 10) (by decide +kernel)

/-- Places and what is found there. -/
example : ∃ v, decode fields3 (docWith sch) (.struct .root) = some v ∧
    valAt v [.key (key! "components"), .key (key! "schemas"), .key (key! "S"), .key (key! "maxProperties")]
      = some (.uint 12) ∧
    valAt v [.key (key! "channels"), .key (key! "c"), .key (key! "messages"), .key (key! "m"),
      .key (key! "correlationId"), .key (key! "location")] = some (.str (key! "$message.header#/id")) :=
  ⟨_, rfl, rfl, rfl⟩

/-- A document of AsyncAPI 3.0.0 that is refused: `additionalProperties: false`. -/
example : Conforms std3 (.obj .root) (docWith (.obj [(key! "additionalProperties", .bool false)])) ∧
    decodes .v3 (docWith (.obj [(key! "additionalProperties", .bool false)])) = false :=
  ⟨conforms_of_check (n := 10) (by decide +kernel), by decide +kernel⟩

/-- It is a case of `C110_violated_boolean`. -/
example : Inside fields3 (.struct .root) (docWith (.obj [(key! "additionalProperties", .bool false)]))
    (.struct .schema) (.bool false) :=
  .struct T3.root _ (key! "components", .obj [(key! "schemas", .obj [(key! "S", .obj [(key! "additionalProperties",
      .bool false)])])]) (key! "components", .struct T3.components) _ _
    (List.mem_cons_of_mem _ (List.mem_cons_of_mem _ (List.mem_cons_of_mem _ (List.mem_cons_of_mem _
      List.mem_cons_self)))) rfl
    (.struct T3.components _ _ (key! "schemas", .dict (.struct T3.schema)) _ _ List.mem_cons_self rfl
      (.dict _ _ _ _ _ List.mem_cons_self
        (.struct T3.schema _ _ (key! "additionalProperties", .struct T3.schema) _ _ List.mem_cons_self rfl (.refl _ _))))

/-- Cases of `C110_violated_schema` that AsyncAPI 3.0.0 allows. -/
example : ∀ m ∈ [(key! "type", Json.arr [.str (key! "string"), .str (key! "null")]),
      (key! "multipleOf", .num (key! "5")), (key! "items", .arr [.obj []]),
      (key! "maxLength", .num (key! "5.0")), (key! "additionalItems", .obj []), (key! "propertyNames", .obj []),
      (key! "contains", .obj [])],
    conformsB std3 10 (.obj .root) (docWith (.obj [m])) = true ∧ decodes .v3 (docWith (.obj [m])) = false := by
  intro m hm
  simp only [List.mem_cons, List.not_mem_nil, or_false] at hm
  rcases hm with rfl | rfl | rfl | rfl | rfl | rfl | rfl <;> exact ⟨by decide +kernel, by decide +kernel⟩

/-- Cases of `C110_violated_security` and `C110_violated_example`. -/
example : (let doc := Json.obj [(key! "servers", .obj [(key! "s", .obj [(key! "security",
      .arr [.obj [(key! "type", .str (key! "plain"))]])])])]
    conformsB std3 10 (.obj .root) doc = true ∧ decodes .v3 doc = false) ∧
    (let doc := Json.obj [(key! "components", .obj [(key! "messages", .obj [(key! "m", .obj [(key! "examples",
      .arr [.obj [(key! "payload", .str (key! "hello"))]])])])])]
    conformsB std3 10 (.obj .root) doc = true ∧ decodes .v3 doc = false) :=
  ⟨⟨by decide +kernel, by decide +kernel⟩, ⟨by decide +kernel, by decide +kernel⟩⟩

/-- A document of version 2 that is read (the hypothesis of `C110_v2_partial` and `C110_v2_standard`), and one of
AsyncAPI 2.6.0 that is refused. -/
example : (let doc := fun s => Json.obj [(key! "asyncapi", .str (key! "2.6.0")),
      (key! "channels", .obj [(key! "c", .obj [(key! "publish", .obj [(key! "message",
        .obj [(key! "payload", s)])])])])]
    Conforms read2 (.obj .root) (doc (.obj [(key! "type", .str (key! "string"))])) ∧
    Conforms std2 (.obj .root) (doc (.obj [(key! "multipleOf", .num (key! "5"))])) ∧
    decodes .v2 (doc (.obj [(key! "multipleOf", .num (key! "5"))])) = false) :=
  ⟨conforms_of_check (n := 10) (by decide +kernel), conforms_of_check (n := 10) (by decide +kernel),
   by decide +kernel⟩

end Verif.Decode
