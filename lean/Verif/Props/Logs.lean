import Verif.Model.Logs
import Verif.Proofs.Json

/-!
# C58: every log field is found in the output
-/

namespace Verif.Logs

/-! ## Specification -/

/-- The text found at a path of keys in a JSON object: members by name, the first of a name. -/
def leafAt : List Str → List (Str × Json) → Option Str
  | [], _ => none
  | [k], m =>
    match GoMap.get m k with
    | some (.str s) => some s
    | _ => none
  | k :: k2 :: ks, m =>
    match GoMap.get m k with
    | some (.obj sm) => leafAt (k2 :: ks) sm
    | _ => none

/-- The path of a dotted key. -/
def path (key : Str) : List Str := Str.split '.' key

/-- One path is a beginning of the other: both cannot hold a text in one tree. -/
def Clash (p q : List Str) : Prop := p <+: q ∨ q <+: p

instance (p q : List Str) : Decidable (Clash p q) := inferInstanceAs (Decidable (_ ∨ _))

/-! ## Proofs -/

/-- Insertion by path. -/
def insertPath : List Str → Str → Tree → Tree
  | [], _, m => m
  | [k], v, m => m.put k (.str v)
  | k :: k2 :: ks, v, m => m.put k (.obj (insertPath (k2 :: ks) v (submap m k)))

theorem insertLog_eq : ∀ (n : Nat) (key v : Str) (m : Tree), key.length ≤ n →
    insertLog key v m = insertPath (path key) v m := by
  intro n
  induction n with
  | zero =>
    intro key v m h
    have : key = [] := by cases key with
      | nil => rfl
      | cons => simp at h
    subst this
    rw [insertLog]
    rfl
  | succ n ih =>
    intro key v m h
    rw [insertLog]
    unfold path
    split
    · rename_i hs; exact absurd hs (Str.split_ne_nil _ _)
    · rename_i k hs
      rw [hs, insertPath]
      have := Str.join_split '.' key
      rw [hs] at this
      rw [← this]; rfl
    · rename_i k k2 ks hs
      rw [hs, insertPath]
      have hj := Str.join_split '.' key
      rw [hs, Str.join] at hj
      · have hl : (Str.join '.' (k2 :: ks)).length ≤ n := by
          have := congrArg List.length hj
          simp only [List.length_append, List.length_cons] at this
          omega
        rw [ih _ v _ hl]
        have hp : path (Str.join '.' (k2 :: ks)) = k2 :: ks := by
          unfold path
          apply Str.split_join _ _ (by simp)
          intro t ht
          apply Str.not_mem_split '.' key
          rw [hs]; exact List.mem_cons_of_mem _ ht
        rw [hp]
      · intro h; cases h

theorem insertLog_path (key v : Str) (m : Tree) : insertLog key v m = insertPath (path key) v m :=
  insertLog_eq _ key v m (Nat.le_refl _)

theorem leafAt_cons_put_ne (p : List Str) (k k' : Str) (j : Json) (m : Tree) (h : k' ≠ k) :
    leafAt (k :: p) (m.put k' j) = leafAt (k :: p) m := by
  cases p with
  | nil => simp only [leafAt, GoMap.get_put, if_neg h]
  | cons a p => simp only [leafAt, GoMap.get_put, if_neg h]

/-- What one insertion changes. -/
theorem leafAt_insertPath : ∀ (q p : List Str) (v : Str) (m : Tree), q ≠ [] →
    leafAt p (insertPath q v m) = if p = q then some v else if Clash p q then none else leafAt p m := by
  intro q
  induction q with
  | nil => intro p v m h; exact absurd rfl h
  | cons k q ih =>
    intro p v m _
    cases p with
    | nil => simp [leafAt]
    | cons a p =>
      by_cases hak : a = k
      · subst hak
        have hc : Clash (a :: p) (a :: q) ↔ Clash p q := by
          simp [Clash, List.cons_prefix_cons]
        have he : (a :: p = a :: q) ↔ p = q := by simp
        simp only [hc, he]
        cases q with
        | nil =>
          cases p with
          | nil => simp [insertPath, leafAt]
          | cons b p => simp [insertPath, leafAt, Clash]
        | cons b q =>
          cases p with
          | nil => simp [insertPath, leafAt, Clash]
          | cons c p =>
            rw [insertPath, leafAt, GoMap.get_put, if_pos rfl]
            simp only
            rw [ih (c :: p) v _ (by simp)]
            by_cases h1 : c :: p = b :: q
            · rw [if_pos h1, if_pos h1]
            · rw [if_neg h1, if_neg h1]
              by_cases h2 : Clash (c :: p) (b :: q)
              · rw [if_pos h2, if_pos h2]
              · rw [if_neg h2, if_neg h2]
                rw [leafAt, submap]
                cases hg : m.get a with
                | none => cases p <;> rfl
                | some j => cases j <;> first | rfl | (cases p <;> rfl)
      · have hne : ¬ a :: p = k :: q := by simp [hak]
        have hnc : ¬ Clash (a :: p) (k :: q) := by
          simp [Clash, List.cons_prefix_cons, hak, Ne.symm hak]
        rw [if_neg hne, if_neg hnc]
        cases q with
        | nil => rw [insertPath, leafAt_cons_put_ne p a k _ m (fun h => hak h.symm)]
        | cons b q => rw [insertPath, leafAt_cons_put_ne p a k _ m (fun h => hak h.symm)]

theorem path_ne_nil (k : Str) : path k ≠ [] := Str.split_ne_nil _ _

theorem structure_snoc (infos : List Info) (i : Info) :
    structureLogs (infos ++ [i]) = insertPath (path i.key) i.value (structureLogs infos) := by
  simp [structureLogs, insertLog_path]

theorem snoc_induction {α : Type} {P : List α → Prop} (nil : P []) (snoc : ∀ l a, P l → P (l ++ [a])) :
    ∀ l, P l := by
  intro l
  have : ∀ r : List α, P r.reverse := by
    intro r
    induction r with
    | nil => exact nil
    | cons a r ih => rw [List.reverse_cons]; exact snoc _ a ih
  have h := this l.reverse
  rwa [List.reverse_reverse] at h

/-- Exactly which texts are found: a path holds the value of the last field whose path clashes with it, if
that field has this very path. -/
theorem C58_exactly (infos : List Info) (p : List Str) (v : Str) :
    leafAt p (structureLogs infos) = some v ↔
      ∃ pre i post, infos = pre ++ i :: post ∧ path i.key = p ∧ i.value = v ∧
        ∀ j ∈ post, ¬ Clash p (path j.key) := by
  induction infos using snoc_induction with
  | nil =>
    constructor
    · intro h
      have : leafAt p (structureLogs []) = none := by
        match p with
        | [] => rfl
        | [_] => rfl
        | _ :: _ :: _ => rfl
      rw [this] at h; cases h
    · rintro ⟨pre, i, post, h, _⟩
      exact absurd (congrArg List.length h) (by simp)
  | snoc infos i ih =>
    rw [structure_snoc, leafAt_insertPath _ _ _ _ (path_ne_nil _)]
    constructor
    · intro h
      by_cases h1 : p = path i.key
      · rw [if_pos h1] at h
        exact ⟨infos, i, [], rfl, h1.symm, Option.some.inj h, by simp⟩
      · rw [if_neg h1] at h
        by_cases h2 : Clash p (path i.key)
        · rw [if_pos h2] at h; cases h
        · rw [if_neg h2] at h
          obtain ⟨pre, j, post, rfl, hp, hv, hn⟩ := ih.1 h
          refine ⟨pre, j, post ++ [i], by simp, hp, hv, ?_⟩
          intro x hx
          rcases List.mem_append.1 hx with hx | hx
          · exact hn x hx
          · rw [List.mem_singleton.1 hx]; exact h2
    · rintro ⟨pre, j, post, he, hp, hv, hn⟩
      rcases List.eq_nil_or_concat post with rfl | ⟨post', x, rfl⟩
      · have := List.append_inj' he rfl
        obtain ⟨_, hi⟩ := this
        have hij : i = j := by simpa using hi
        subst hij
        rw [if_pos hp.symm, hv]
      · have he' : infos ++ [i] = (pre ++ j :: post') ++ [x] := by rw [he]; simp
        obtain ⟨h1, h2⟩ := List.append_inj' he' rfl
        have hix : i = x := by simpa using h2
        subst hix
        have hnc : ¬ Clash p (path i.key) := hn i (by simp)
        have hne : ¬ p = path i.key := fun h => hnc (by rw [h]; exact Or.inl (List.prefix_refl _))
        rw [if_neg hne, if_neg hnc]
        exact ih.2 ⟨pre, j, post', h1, hp, hv, fun y hy => hn y (by simp [hy])⟩

/-- Every field given to the structuring of logs is found under its dotted path, provided no later field has
the same path, a beginning of it or a continuation of it. -/
theorem C58_found_partial (pre : List Info) (i : Info) (post : List Info)
    (h : ∀ j ∈ post, ¬ Clash (path i.key) (path j.key)) :
    leafAt (path i.key) (structureLogs (pre ++ i :: post)) = some i.value :=
  (C58_exactly _ _ _).2 ⟨pre, i, post, rfl, rfl, rfl, h⟩

example : leafAt ["a".toList, "b".toList] (structureLogs [⟨"a.b".toList, ['1']⟩, ⟨"a.c".toList, ['2']⟩, ⟨"d".toList, ['3']⟩])
    = some ['1'] :=
  C58_found_partial [] ⟨"a.b".toList, ['1']⟩ _ (by decide)

/-- A field is lost when a later field continues or shortens its path: nothing reports it. -/
theorem C58_violated (k k' : Str) (v v' : Str) (hne : path k ≠ path k') (h : Clash (path k) (path k')) :
    leafAt (path k) (structureLogs [⟨k, v⟩, ⟨k', v'⟩]) = none := by
  rw [show [⟨k, v⟩, ⟨k', v'⟩] = [⟨k, v⟩] ++ [(⟨k', v'⟩ : Info)] from rfl, structure_snoc,
    leafAt_insertPath _ _ _ _ (path_ne_nil _), if_neg hne, if_pos h]

example : leafAt (path "user".toList) (structureLogs [⟨"user".toList, ['1']⟩, ⟨"user.id".toList, ['2']⟩]) = none :=
  C58_violated _ _ _ _ (by decide) (by decide)

/-! ### The ECS logger -/

/-- The keys the logger adds itself. -/
def ecsKeys : List String :=
  ["log.level", "asyncapi.provider", "asyncapi.channel", "event.action", "event.original", "trace.id", "message",
   "@timestamp", "log.logger"]

theorem ifSet_key {k : String} {o : Option Str} {i : Info} (h : i ∈ ifSet k o) : i.key = k.toList := by
  cases o with
  | none => cases h
  | some v => simp [ifSet] at h; rw [h]

theorem direction_key {o : Option Str} {i : Info} (h : i ∈ direction o) : i.key = "event.action".toList := by
  cases o with
  | none => cases h
  | some v =>
    unfold direction at h
    simp only at h
    split at h
    · rw [List.mem_singleton.1 h]
    · split at h
      · rw [List.mem_singleton.1 h]
      · cases h

theorem ecsExtra_key {ctx : Ctx} {level msg now : Str} {j : Info} (hj : j ∈ ecsExtra ctx level msg now) :
    ∃ k ∈ ecsKeys, j.key = k.toList := by
  simp only [ecsExtra, List.mem_append, List.mem_cons, List.not_mem_nil, or_false] at hj
  rcases hj with rfl | (((((hj | hj) | hj) | hj) | hj) | rfl | rfl | rfl)
  · exact ⟨"log.level", by simp [ecsKeys], rfl⟩
  · exact ⟨"asyncapi.provider", by simp [ecsKeys], ifSet_key hj⟩
  · exact ⟨"asyncapi.channel", by simp [ecsKeys], ifSet_key hj⟩
  · exact ⟨"event.action", by simp [ecsKeys], direction_key hj⟩
  · exact ⟨"event.original", by simp [ecsKeys], ifSet_key hj⟩
  · exact ⟨"trace.id", by simp [ecsKeys], ifSet_key hj⟩
  · exact ⟨"message", by simp [ecsKeys], rfl⟩
  · exact ⟨"@timestamp", by simp [ecsKeys], rfl⟩
  · exact ⟨"log.logger", by simp [ecsKeys], rfl⟩

/-- A field of the caller is found in the ECS record unless a later field of the caller or one of the logger's
own keys clashes with it. -/
theorem C58_ecs_field (ctx : Ctx) (level msg now : Str) (pre : List Info) (i : Info) (post : List Info)
    (h : ∀ j ∈ post, ¬ Clash (path i.key) (path j.key))
    (hk : ∀ k ∈ ecsKeys, ¬ Clash (path i.key) (path k.toList)) :
    leafAt (path i.key) (structureLogs (ecsInfo ctx level msg now (pre ++ i :: post))) = some i.value := by
  refine (C58_exactly _ _ _).2 ⟨pre, i, post ++ ecsExtra ctx level msg now, ?_, rfl, rfl, ?_⟩
  · simp only [ecsInfo, List.append_assoc, List.cons_append]
  · intro j hj
    rcases List.mem_append.1 hj with hj | hj
    · exact h j hj
    · obtain ⟨k, hk', e⟩ := ecsExtra_key hj
      rw [e]; exact hk k hk'

/-- The message and the level are always found, whatever fields the caller gives. -/
theorem C58_ecs_message (ctx : Ctx) (level msg now : Str) (info : List Info) :
    leafAt [['m', 'e', 's', 's', 'a', 'g', 'e']] (structureLogs (ecsInfo ctx level msg now info)) = some msg := by
  refine (C58_exactly _ _ _).2 ⟨info ++ ⟨"log.level".toList, level⟩ :: (ifSet "asyncapi.provider" ctx.provider ++
    ifSet "asyncapi.channel" ctx.channel ++ direction ctx.direction ++
    ifSet "event.original" ctx.brokerMessage ++ ifSet "trace.id" ctx.correlationID), ⟨"message".toList, msg⟩,
    [⟨"@timestamp".toList, now⟩,
     ⟨"log.logger".toList, "github.com/lerenn/asyncapi-codegen/pkg/extensions/loggers/ecs.go".toList⟩], ?_,
    rfl, rfl, ?_⟩
  · simp only [ecsInfo, ecsExtra, List.append_assoc, List.cons_append]
  intro j hj
  simp only [List.mem_cons, List.not_mem_nil, or_false] at hj
  rcases hj with rfl | rfl
  · show ¬ Clash _ (path "@timestamp".toList); decide
  · show ¬ Clash _ (path "log.logger".toList); decide

theorem C58_ecs_level (ctx : Ctx) (level msg now : Str) (info : List Info) :
    leafAt [['l', 'o', 'g'], ['l', 'e', 'v', 'e', 'l']] (structureLogs (ecsInfo ctx level msg now info)) =
      some level := by
  refine (C58_exactly _ _ _).2 ⟨info, ⟨"log.level".toList, level⟩, ifSet "asyncapi.provider" ctx.provider ++
    ifSet "asyncapi.channel" ctx.channel ++ direction ctx.direction ++
    ifSet "event.original" ctx.brokerMessage ++ ifSet "trace.id" ctx.correlationID ++
    [⟨"message".toList, msg⟩, ⟨"@timestamp".toList, now⟩,
     ⟨"log.logger".toList, "github.com/lerenn/asyncapi-codegen/pkg/extensions/loggers/ecs.go".toList⟩], rfl,
    rfl, rfl, ?_⟩
  intro j hj
  simp only [List.mem_append, List.mem_cons, List.not_mem_nil, or_false] at hj
  rcases hj with ((((hj | hj) | hj) | hj) | hj) | rfl | rfl | rfl
  · rw [ifSet_key hj]; decide
  · rw [ifSet_key hj]; decide
  · rw [direction_key hj]; decide
  · rw [ifSet_key hj]; decide
  · rw [ifSet_key hj]; decide
  · show ¬ Clash _ (path "message".toList); decide
  · show ¬ Clash _ (path "@timestamp".toList); decide
  · show ¬ Clash _ (path "log.logger".toList); decide

/-- What the record should tell about the context. -/
def tells (ctx : Ctx) : List (String × Option Str) :=
  [("asyncapi.provider", ctx.provider), ("asyncapi.channel", ctx.channel), ("event.original", ctx.brokerMessage),
   ("trace.id", ctx.correlationID)]

/-- The action of a direction. -/
inductive Action : Str → Str → Prop
  | publication : Action "publication".toList "published-message".toList
  | reception : Action "reception".toList "received-message".toList

theorem extra_found (ctx : Ctx) (level msg now : Str) (info : List Info) (key : String) (v : Str)
    (hm : ⟨key.toList, v⟩ ∈ ecsExtra ctx level msg now)
    (hk : ∀ k ∈ ecsKeys, k ≠ key → ¬ Clash (path key.toList) (path k.toList))
    (hu : ∀ j ∈ ecsExtra ctx level msg now, j.key = key.toList → j.value = v) :
    leafAt (path key.toList) (structureLogs (ecsInfo ctx level msg now info)) = some v := by
  have last : ∀ l : List Info, (∀ j ∈ l, ¬ Clash (path key.toList) (path j.key) ∨ (j.key = key.toList ∧ j.value = v)) →
      ⟨key.toList, v⟩ ∈ l → ∃ pre i post, l = pre ++ i :: post ∧ i.key = key.toList ∧ i.value = v ∧
        ∀ j ∈ post, ¬ Clash (path key.toList) (path j.key) := by
    intro l
    induction l with
    | nil => intro _ h; cases h
    | cons x l ih =>
      intro hl hx
      by_cases h : ∃ j ∈ l, j.key = key.toList ∧ j.value = v
      · obtain ⟨j, hj, h1, h2⟩ := h
        have : j = ⟨key.toList, v⟩ := by cases j; cases h1; cases h2; rfl
        obtain ⟨pre, i, post, e, g⟩ := ih (fun j hj => hl j (List.mem_cons_of_mem _ hj)) (this ▸ hj)
        exact ⟨x :: pre, i, post, by rw [e]; rfl, g⟩
      · refine ⟨[], x, l, rfl, ?_⟩
        have hx' : x = ⟨key.toList, v⟩ := by
          rcases List.mem_cons.1 hx with h' | h'
          · exact h'.symm
          · exact absurd ⟨_, h', rfl, rfl⟩ h
        subst hx'
        refine ⟨rfl, rfl, fun j hj => ?_⟩
        rcases hl j (List.mem_cons_of_mem _ hj) with h' | h'
        · exact h'
        · exact absurd ⟨j, hj, h'⟩ h
  obtain ⟨pre, i, post, e, h1, h2, h3⟩ := last (ecsExtra ctx level msg now) (fun j hj => by
    obtain ⟨k, hk', ek⟩ := ecsExtra_key hj
    by_cases h : k = key
    · subst h; exact Or.inr ⟨ek, hu j hj ek⟩
    · rw [ek]; exact Or.inl (hk k hk' h)) hm
  refine (C58_exactly _ _ _).2 ⟨info ++ pre, i, post, ?_, ?_, h2, h3⟩
  · rw [ecsInfo, e, List.append_assoc]
  · rw [h1]

/-- What the context holds is always found, whatever fields the caller gives. -/
theorem C58_ecs_context (ctx : Ctx) (level msg now : Str) (info : List Info) (e : String × Option Str)
    (he : e ∈ tells ctx) (v : Str) (hv : e.2 = some v) :
    leafAt (path e.1.toList) (structureLogs (ecsInfo ctx level msg now info)) = some v := by
  simp only [tells, List.mem_cons, List.not_mem_nil, or_false] at he
  have uniq : ∀ (key : String) (o : Option Str), o = some v →
      (∀ j ∈ ifSet key o, j.value = v) := by
    intro key o ho j hj
    subst ho
    simp only [ifSet, List.mem_singleton] at hj
    rw [hj]
  rcases he with rfl | rfl | rfl | rfl <;> simp only at hv
  all_goals
    dsimp only
    refine extra_found ctx level msg now info _ v ?_ (by decide) ?_
    · simp [ecsExtra, ifSet, hv]
    · intro j hj hk
      simp only [ecsExtra, List.mem_append, List.mem_cons, List.not_mem_nil, or_false] at hj
      rcases hj with rfl | (((((hj | hj) | hj) | hj) | hj) | rfl | rfl | rfl) <;>
        first
        | exact uniq _ _ hv j hj
        | (rw [ifSet_key hj] at hk; exact absurd hk (by decide))
        | (rw [direction_key hj] at hk; exact absurd hk (by decide))
        | (dsimp only at hk; exact absurd hk (by decide))

/-- So is the action of the direction. -/
theorem C58_ecs_action (ctx : Ctx) (level msg now : Str) (info : List Info) (d a : Str) (hd : ctx.direction = some d)
    (ha : Action d a) :
    leafAt [['e', 'v', 'e', 'n', 't'], ['a', 'c', 't', 'i', 'o', 'n']]
      (structureLogs (ecsInfo ctx level msg now info)) = some a := by
  have hdir : direction ctx.direction = [⟨"event.action".toList, a⟩] := by
    rw [hd]
    cases ha <;> decide
  have := extra_found ctx level msg now info "event.action" a ?_ (by decide) ?_
  · exact this
  · simp only [ecsExtra, hdir]; simp
  · intro j hj hk
    simp only [ecsExtra, List.mem_append, List.mem_cons, List.not_mem_nil, or_false] at hj
    rcases hj with rfl | (((((hj | hj) | hj) | hj) | hj) | rfl | rfl | rfl) <;>
      first
      | (rw [hdir, List.mem_singleton] at hj; rw [hj])
      | (rw [ifSet_key hj] at hk; exact absurd hk (by decide))
      | (dsimp only at hk; exact absurd hk (by decide))

/-- Non-vacuity: a publication. -/
example : (tells ⟨some "kafka".toList, none, some "publication".toList, none, none⟩).any (fun e => e.2.isSome) = true ∧
    Action "publication".toList "published-message".toList := ⟨by decide, .publication⟩

/-- A field named `log`, `event`, … of the caller is always lost. -/
theorem C58_violated_ecs (ctx : Ctx) (level msg now : Str) (info : List Info) :
    leafAt [['l', 'o', 'g']] (structureLogs (ecsInfo ctx level msg now info)) = none := by
  cases h : leafAt [['l', 'o', 'g']] (structureLogs (ecsInfo ctx level msg now info)) with
  | none => rfl
  | some v =>
    exfalso
    have h' : ∃ l x, ecsInfo ctx level msg now info = l ++ [x] ∧ x.key = "log.logger".toList := by
      refine ⟨info ++ ⟨"log.level".toList, level⟩ :: (ifSet "asyncapi.provider" ctx.provider ++
        ifSet "asyncapi.channel" ctx.channel ++ direction ctx.direction ++
        ifSet "event.original" ctx.brokerMessage ++ ifSet "trace.id" ctx.correlationID ++
        [⟨"message".toList, msg⟩, ⟨"@timestamp".toList, now⟩]),
        ⟨"log.logger".toList, "github.com/lerenn/asyncapi-codegen/pkg/extensions/loggers/ecs.go".toList⟩, ?_, rfl⟩
      simp only [ecsInfo, ecsExtra, List.append_assoc, List.cons_append, List.nil_append]
    obtain ⟨l, x, hl, hx⟩ := h'
    rw [hl, structure_snoc, leafAt_insertPath _ _ _ _ (path_ne_nil _), hx] at h
    have h1 : ¬ [['l', 'o', 'g']] = path "log.logger".toList := by decide
    have h2 : Clash [['l', 'o', 'g']] (path "log.logger".toList) := by decide
    rw [if_neg h1, if_pos h2] at h
    cases h

/-! ### The text of the record -/

/-- Texts and objects with distinct member names. -/
inductive Good : Json → Prop
  | str (s : Str) : Good (.str s)
  | obj (ms : List (Str × Json)) (hw : GoMap.WF ms) (h : ∀ e ∈ ms, Good e.2) : Good (.obj ms)

theorem good_put {m : Tree} {k : Str} {j : Json} (h : Good (.obj m)) (hj : Good j) : Good (.obj (m.put k j)) := by
  cases h with
  | obj _ hw h =>
    refine .obj _ (GoMap.wf_put hw k j) ?_
    intro e he
    unfold GoMap.put GoMap.del at he
    rcases List.mem_cons.1 he with rfl | he
    · exact hj
    · exact h e (List.mem_filter.1 he).1

theorem good_nil : Good (.obj []) := .obj [] GoMap.wf_nil (by intro e he; cases he)

theorem good_submap {m : Tree} (h : Good (.obj m)) (k : Str) : Good (.obj (submap m k)) := by
  unfold submap
  split
  · rename_i sm hg
    cases h with
    | obj _ hw h => exact h _ (GoMap.mem_of_get hg)
  · exact good_nil

theorem good_insertPath : ∀ (q : List Str) (v : Str) (m : Tree), Good (.obj m) → Good (.obj (insertPath q v m)) := by
  intro q
  induction q with
  | nil => intro v m h; exact h
  | cons k q ih =>
    intro v m h
    cases q with
    | nil => rw [insertPath]; exact good_put h (.str v)
    | cons b q => rw [insertPath]; exact good_put h (ih v _ (good_submap h k))

theorem good_structure (infos : List Info) : Good (.obj (structureLogs infos)) := by
  induction infos using snoc_induction with
  | nil => exact good_nil
  | snoc infos i ih => rw [structure_snoc]; exact good_insertPath _ _ _ ih

theorem insertSorted_perm (e : Str × Json) (es : List (Str × Json)) : (insertSorted e es).Perm (e :: es) := by
  induction es with
  | nil => exact List.Perm.refl _
  | cons x es ih =>
    rw [insertSorted]
    split
    · exact List.Perm.refl _
    · exact (List.Perm.cons x ih).trans (List.Perm.swap e x es)

theorem sortedMembers_perm (ms : List (Str × Json)) : (sortedMembers ms).Perm (ms.map (fun e => (e.1, sorted e.2))) := by
  induction ms with
  | nil => simp [sortedMembers]
  | cons e ms ih =>
    obtain ⟨k, v⟩ := e
    rw [sortedMembers]
    exact (insertSorted_perm _ _).trans (List.Perm.cons _ ih)

theorem get_sortedMembers {ms : List (Str × Json)} (hw : GoMap.WF ms) (k : Str) :
    GoMap.get (sortedMembers ms) k = (GoMap.get ms k).map sorted := by
  have hp := sortedMembers_perm ms
  have hw' : GoMap.WF (ms.map (fun e => (e.1, sorted e.2))) := GoMap.wf_mapVals sorted ms hw
  rw [← GoMap.get_perm hp.symm hw' k]
  exact GoMap.get_mapVals sorted ms k

theorem leafAt_sorted : ∀ (p : List Str) (ms : List (Str × Json)), Good (.obj ms) →
    leafAt p (sortedMembers ms) = leafAt p ms := by
  intro p
  induction p with
  | nil => intro ms _; rfl
  | cons k p ih =>
    intro ms h
    cases h with
    | obj _ hw h =>
      cases p with
      | nil =>
        rw [leafAt, leafAt, get_sortedMembers hw]
        cases hg : GoMap.get ms k with
        | none => rfl
        | some j => cases j <;> simp [sorted]
      | cons b p =>
        rw [leafAt, leafAt, get_sortedMembers hw]
        cases hg : GoMap.get ms k with
        | none => rfl
        | some j =>
          cases j with
          | obj sm =>
            simp only [Option.map_some, sorted]
            exact ih sm (h _ (GoMap.mem_of_get hg))
          | _ => simp [sorted]

theorem validMembers_iff (ms : List (Str × Json)) : Json.ValidMembers ms ↔ ∀ e ∈ ms, Json.Valid e.2 := by
  induction ms with
  | nil => simp [Json.ValidMembers]
  | cons e ms ih => obtain ⟨k, v⟩ := e; simp [Json.ValidMembers, ih]

theorem good_sorted_valid {j : Json} (h : Good j) : Json.Valid (sorted j) := by
  induction h with
  | str s => simp [sorted, Json.Valid]
  | obj ms hw _ ih =>
    simp only [sorted, Json.Valid]
    rw [validMembers_iff]
    intro e he
    have := (sortedMembers_perm ms).mem_iff.1 he
    obtain ⟨x, hx, rfl⟩ := List.mem_map.1 this
    exact ih x hx

/-- One key is before another, as strings are ordered in Go, or the same. -/
def Before (a b : Str) : Prop :=
  (∃ t, b = a ++ t) ∨ ∃ p c d s t, a = p ++ c :: s ∧ b = p ++ d :: t ∧ c.toNat < d.toNat

theorem before_of_strLe : ∀ a b : Str, strLe a b = true → Before a b
  | [], b, _ => .inl ⟨b, rfl⟩
  | _ :: _, [], h => by cases h
  | a :: as, b :: bs, h => by
    rw [strLe] at h
    by_cases e : a = b
    · subst e
      rw [if_pos rfl] at h
      rcases before_of_strLe as bs h with ⟨t, rfl⟩ | ⟨p, c, d, s, t, rfl, rfl, hlt⟩
      · exact .inl ⟨t, rfl⟩
      · exact .inr ⟨a :: p, c, d, s, t, rfl, rfl, hlt⟩
    · rw [if_neg e] at h
      exact .inr ⟨[], a, b, as, bs, rfl, rfl, of_decide_eq_true h⟩

theorem strLe_total : ∀ a b : Str, strLe a b = false → strLe b a = true
  | [], b, h => by cases h
  | _ :: _, [], _ => rfl
  | a :: as, b :: bs, h => by
    rw [strLe] at h ⊢
    by_cases e : a = b
    · subst e
      rw [if_pos rfl] at h ⊢
      exact strLe_total as bs h
    · rw [if_neg e] at h
      rw [if_neg (Ne.symm e)]
      have hne : a.toNat ≠ b.toNat := fun h' => e (Char.toNat_inj.1 h')
      have := of_decide_eq_false h
      exact decide_eq_true (by omega)

theorem strLe_trans : ∀ a b c : Str, strLe a b = true → strLe b c = true → strLe a c = true
  | [], _, _, _, _ => rfl
  | _ :: _, [], _, h, _ => by cases h
  | _ :: _, _ :: _, [], _, h => by cases h
  | a :: as, b :: bs, c :: cs, h, h' => by
    rw [strLe] at h h' ⊢
    by_cases e : a = b
    · subst e
      rw [if_pos rfl] at h
      by_cases e' : a = c
      · subst e'
        rw [if_pos rfl] at h' ⊢
        exact strLe_trans as bs cs h h'
      · rw [if_neg e'] at h' ⊢
        exact h'
    · rw [if_neg e] at h
      by_cases e' : b = c
      · subst e'
        rw [if_neg e]
        exact h
      · rw [if_neg e'] at h'
        have h1 := of_decide_eq_true h
        have h2 := of_decide_eq_true h'
        have hne : ¬ a = c := by
          rintro rfl
          omega
        rw [if_neg hne]
        exact decide_eq_true (by omega)

theorem insertSorted_mem (e x : Str × Json) (es : List (Str × Json)) : x ∈ insertSorted e es ↔ x = e ∨ x ∈ es := by
  induction es with
  | nil => simp [insertSorted]
  | cons e' es ih =>
    rw [insertSorted]
    split
    · simp
    · simp only [List.mem_cons, ih]
      constructor
      · rintro (h | h | h)
        · exact .inr (.inl h)
        · exact .inl h
        · exact .inr (.inr h)
      · rintro (h | h | h)
        · exact .inr (.inl h)
        · exact .inl h
        · exact .inr (.inr h)

theorem insertSorted_pairwise (e : Str × Json) (es : List (Str × Json))
    (h : es.Pairwise (fun a b => strLe a.1 b.1 = true)) :
    (insertSorted e es).Pairwise (fun a b => strLe a.1 b.1 = true) := by
  induction es with
  | nil => simp [insertSorted]
  | cons e' es ih =>
    rw [List.pairwise_cons] at h
    rw [insertSorted]
    split
    · rename_i hle
      rw [List.pairwise_cons, List.pairwise_cons]
      refine ⟨fun b hb => ?_, h⟩
      rcases List.mem_cons.1 hb with rfl | hb
      · exact hle
      · exact strLe_trans _ _ _ hle (h.1 b hb)
    · rename_i hle
      rw [List.pairwise_cons]
      refine ⟨fun b hb => ?_, ih h.2⟩
      rcases (insertSorted_mem e b es).1 hb with rfl | hb
      · exact strLe_total _ _ (by simpa using hle)
      · exact h.1 b hb

/-- **C58.** Equal entries give equal lines: the keys of every object are written in the order of strings. -/
theorem C58_sorted (ms : List (Str × Json)) : (sortedMembers ms).Pairwise (fun a b => Before a.1 b.1) := by
  have key : (sortedMembers ms).Pairwise (fun a b => strLe a.1 b.1 = true) := by
    induction ms with
    | nil => simp [sortedMembers]
    | cons m ms ih =>
      obtain ⟨k, v⟩ := m
      rw [sortedMembers]
      exact insertSorted_pairwise _ _ ih
  exact key.imp (fun h => before_of_strLe _ _ h)

example : sortedMembers [(['b', 'c'], .null), (['b'], .null), (['a'], .null), (['b', 'a'], .null)] =
    [(['a'], .null), (['b'], .null), (['b', 'a'], .null), (['b', 'c'], .null)] := rfl

/-- The printed record is one JSON text, whatever keys and values are logged, and reading it back finds, at
every path, what the structured record holds there. -/
theorem C58_printed (ctx : Ctx) (level msg now : Str) (info : List Info) :
    ∃ ms, Json.parse (formatECS ctx level msg now info) = some (.obj ms) ∧
      ∀ p, leafAt p ms = leafAt p (structureLogs (ecsInfo ctx level msg now info)) := by
  have hg := good_structure (ecsInfo ctx level msg now info)
  refine ⟨sortedMembers (structureLogs (ecsInfo ctx level msg now info)), ?_, fun p => leafAt_sorted p _ hg⟩
  have := Json.parse_print _ (good_sorted_valid hg)
  rw [formatECS, this, sorted]

end Verif.Logs
