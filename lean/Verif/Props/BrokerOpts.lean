import Verif.Model.BrokerOpts

/-! # C123: options of the broker controllers -/

namespace Verif.BrokerOpts

/-! ## The last option of a kind -/

/-- The last option that says something about a setting. -/
def last {α β : Type} (f : α → Option β) (os : List α) : Option β := os.reverse.findSome? f

/-- What the last option says, or the default. -/
def orDefault {β : Type} (d : β) : Option β → β
  | some b => b
  | none => d

theorem last_cons {α β : Type} (f : α → Option β) (o : α) (os : List α) : last f (o :: os) = (last f os).or (f o) := by
  unfold last
  rw [List.reverse_cons, List.findSome?_append]
  simp only [List.findSome?_cons, List.findSome?_nil]
  cases os.reverse.findSome? f <;> cases f o <;> rfl

/-- A setting after the options. -/
theorem setting {Cfg Opt β : Type} (apply : Cfg → Opt → Cfg) (g : Cfg → β) (f : Opt → Option β)
    (h : ∀ c o, g (apply c o) = orDefault (g c) (f o)) (os : List Opt) : ∀ c, g (os.foldl apply c) = orDefault (g c) (last f os) := by
  induction os with
  | nil => intro c; rfl
  | cons o os ih =>
    intro c
    rw [List.foldl_cons, ih, h, last_cons]
    cases last f os <;> cases f o <;> rfl

/-! ## Kafka -/

namespace Kafka

def asGroup : Opt → Option Str | .group g => some g | _ => none
def asPartition : Opt → Option Int | .partition p => some p | _ => none
def asMaxBytes : Opt → Option Int | .maxBytes n => some n | _ => none
def asLogger : Opt → Option Bool | .logger b => some b | _ => none
def asAutoCommit : Opt → Option Bool | .autoCommit b => some b | _ => none
def asTest : Opt → Option Bool | .connectionTest b => some b | _ => none

/-- The settings a list of options asks for. -/
def wanted (hosts : List Str) (os : List Opt) : Cfg where
  hosts := hosts
  group := orDefault [] (last asGroup os)
  partition := orDefault 0 (last asPartition os)
  maxBytes := orDefault 10000000 (last asMaxBytes os)
  logger := orDefault true (last asLogger os)
  autoCommit := orDefault true (last asAutoCommit os)
  connectionTest := orDefault true (last asTest os)

theorem configure_wanted (hosts : List Str) (os : List Opt) : configure hosts os = wanted hosts os := by
  have h0 : (configure hosts os).hosts = hosts := by
    have : ∀ (os : List Opt) c, (os.foldl Opt.apply c).hosts = c.hosts := by
      intro os
      induction os with
      | nil => intro c; rfl
      | cons o os ih => intro c; rw [List.foldl_cons, ih]; cases o <;> rfl
    exact this os _
  have h1 := setting Opt.apply Cfg.group asGroup (fun c o => by cases o <;> rfl) os (defaults hosts)
  have h2 := setting Opt.apply Cfg.partition asPartition (fun c o => by cases o <;> rfl) os (defaults hosts)
  have h3 := setting Opt.apply Cfg.maxBytes asMaxBytes (fun c o => by cases o <;> rfl) os (defaults hosts)
  have h4 := setting Opt.apply Cfg.logger asLogger (fun c o => by cases o <;> rfl) os (defaults hosts)
  have h5 := setting Opt.apply Cfg.autoCommit asAutoCommit (fun c o => by cases o <;> rfl) os (defaults hosts)
  have h6 := setting Opt.apply Cfg.connectionTest asTest (fun c o => by cases o <;> rfl) os (defaults hosts)
  unfold wanted
  unfold configure at *
  generalize os.foldl Opt.apply (defaults hosts) = c at *
  cases c
  simp only at h0 h1 h2 h3 h4 h5 h6
  subst h0 h1 h2 h3 h4 h5 h6
  rfl

/-- Settings with which a reader can be made for a topic. -/
def Usable (c : Cfg) (topic : Str) : Prop :=
  topic ≠ [] ∧ 0 ≤ c.partition ∧ c.partition < 2147483647 ∧ 0 ≤ c.maxBytes ∧ (c.group = [] ∨ c.partition = 0)

theorem valid_iff (hosts : List Str) (topic : Str) (c : Cfg) (h : hosts ≠ []) :
    (ReaderConfig.mk hosts topic c.partition c.maxBytes c.group).valid = true ↔ Usable c topic := by
  unfold ReaderConfig.valid Usable
  dsimp only
  rw [if_neg h]
  by_cases h1 : c.partition < 0 ∨ 2147483647 ≤ c.partition
  · rw [if_pos h1]
    constructor
    · intro h; cases h
    · rintro ⟨-, a, b, -⟩; omega
  rw [if_neg h1]
  by_cases h2 : c.maxBytes < 0
  · rw [if_pos h2]
    constructor
    · intro h; cases h
    · rintro ⟨-, -, -, a, -⟩; omega
  rw [if_neg h2]
  by_cases h3 : c.group = []
  · rw [if_neg (by simpa using h3)]
    simp only [decide_eq_true_eq, h3, true_or, and_true]
    exact ⟨fun h => ⟨h, by omega, by omega, by omega⟩, fun h => h.1⟩
  · rw [if_pos h3]
    by_cases h4 : c.partition = 0
    · rw [if_neg (by simpa using h4)]
      simp only [decide_eq_true_eq, h4, or_true, and_true]
      exact ⟨fun h => ⟨h, by omega, by omega, by omega⟩, fun h => h.1⟩
    · rw [if_pos h4]
      simp [h3, h4]

end Kafka

open Kafka in
/-- **C123** (Kafka, settings): a controller has the settings of the last option of each kind, whatever the order of the
options; making it crashes exactly if it has no host and its connection is tested. -/
theorem C123_kafka_partial (srv : Server) (hosts : List Str) (os : List Opt) :
    (∀ c, newController srv hosts os = .ok c → c = wanted hosts os) ∧
    (newController srv hosts os = .panic ↔ hosts = [] ∧ (wanted hosts os).connectionTest = true) ∧
    (newController srv hosts os = .error ↔ (wanted hosts os).connectionTest = true ∧
      ∃ h rest, hosts = h :: rest ∧ ¬ (srv.dials h = true ∧ srv.lists h = true)) := by
  unfold newController
  rw [configure_wanted]
  have hh : (wanted hosts os).hosts = hosts := rfl
  dsimp only
  cases ht : (wanted hosts os).connectionTest with
  | false =>
    refine ⟨fun c h => ?_, ?_, ?_⟩
    · rw [if_neg (by simp)] at h; cases h; rfl
    · simp
    · simp
  | true =>
    rw [if_pos rfl, hh]
    cases hosts with
    | nil => exact ⟨nofun, by simp, by simp⟩
    | cons h rest =>
      dsimp only
      cases hd : srv.dials h <;> cases hl : srv.lists h <;> simp [hd, hl]

open Kafka in
/-- **C123** (Kafka, subscriptions): subscribing crashes exactly if there is no host, or the topic is there and the settings
cannot be used: a partition next to a group, a partition or a size below zero, a partition of 2^31-1 or more, an empty
topic. Otherwise it gives a reader with these settings, or reports the error of the server. Missing for the full claim: the
crashes. -/
theorem C123_kafka_subscribe_partial (srv : Server) (hosts : List Str) (os : List Opt) (topic : Str) :
    let c := wanted hosts os
    (subscribe srv (configure hosts os) topic = .panic ↔ hosts = [] ∨
      ∃ h rest, hosts = h :: rest ∧ srv.dials h = true ∧ srv.topic h topic = true ∧ ¬ Usable c topic) ∧
    (∀ r, subscribe srv (configure hosts os) topic = .ok r ↔ r = ⟨hosts, topic, c.partition, c.maxBytes, c.group⟩ ∧ Usable c topic ∧
      ∃ h rest, hosts = h :: rest ∧ srv.dials h = true ∧ srv.topic h topic = true) := by
  rw [configure_wanted]
  have hh : (wanted hosts os).hosts = hosts := rfl
  unfold subscribe checkTopic
  rw [hh]
  cases hosts with
  | nil => simp
  | cons h rest =>
    have hv := valid_iff (h :: rest) topic (wanted (h :: rest) os) (by simp)
    dsimp only
    cases hd : srv.dials h <;> cases hl : srv.topic h topic
    · simp [hd]
    · simp [hd]
    · simp [hd, hl]
    · simp only [Bool.not_true, Bool.false_eq_true, if_false]
      unfold newReader
      by_cases hu : Usable (wanted (h :: rest) os) topic
      · rw [if_pos (hv.2 hu)]
        refine ⟨⟨nofun, ?_⟩, fun r => ⟨fun e => ?_, fun e => by rw [e.1]⟩⟩
        · rintro (e | ⟨_, _, _, _, _, e⟩)
          · cases e
          · exact absurd hu e
        · cases e; exact ⟨rfl, hu, h, rest, rfl, hd, hl⟩
      · rw [if_neg (fun e => hu (hv.1 e))]
        exact ⟨⟨fun _ => .inr ⟨h, rest, rfl, hd, hl, hu⟩, fun _ => rfl⟩, fun r => ⟨nofun, fun e => absurd e.2.1 hu⟩⟩

/-- A server that answers. -/
def kafka1 : Kafka.Server := ⟨fun _ => true, fun _ => true, fun _ _ => true⟩

/-- Options given twice and in another order. -/
example : Kafka.newController kafka1 ["h".toList] [.group "a".toList, .maxBytes 5, .group "b".toList] =
    Kafka.newController kafka1 ["h".toList] [.maxBytes 7, .group "b".toList, .maxBytes 5] ∧
    (Kafka.wanted ["h".toList] [.group "a".toList, .maxBytes 5, .group "b".toList]).group = "b".toList := by decide

example : Kafka.subscribe kafka1 (Kafka.configure ["h".toList] [.partition 3]) "t".toList =
    .ok ⟨["h".toList], "t".toList, 3, 10000000, []⟩ := by decide

/-- **C123 is violated**: with a group and a partition other than zero, both of which the documentation offers, every
subscription crashes the process, in any order of the options and whatever else is given. -/
theorem C123_violated_partition (os : List Kafka.Opt) (g : Str) (p : Int) (hg : Kafka.Opt.group g ∈ os) (hp : Kafka.Opt.partition p ∈ os)
    (g0 : ∀ g', Kafka.Opt.group g' ∈ os → g' ≠ []) (p0 : ∀ p', Kafka.Opt.partition p' ∈ os → p' ≠ 0) (h : Str) (rest : List Str)
    (topic : Str) : Kafka.subscribe kafka1 (Kafka.configure (h :: rest) os) topic = .panic := by
  have key := (C123_kafka_subscribe_partial kafka1 (h :: rest) os topic).1
  refine key.2 (.inr ⟨h, rest, rfl, rfl, rfl, ?_⟩)
  rintro ⟨-, -, -, -, hu⟩
  have mem : ∀ {β : Type} (f : Kafka.Opt → Option β) (o : Kafka.Opt) (b : β), o ∈ os → f o = some b →
      ∃ o' ∈ os, ∃ b', f o' = some b' ∧ last f os = some b' := by
    intro β f o b ho hf
    have : last f os ≠ none := by
      unfold last
      rw [Ne, List.findSome?_eq_none_iff]
      intro h
      have := h o (List.mem_reverse.2 ho)
      rw [hf] at this
      cases this
    obtain ⟨b', hb⟩ := Option.ne_none_iff_exists'.1 this
    obtain ⟨o', ho', hf'⟩ := List.exists_of_findSome?_eq_some hb
    exact ⟨o', List.mem_reverse.1 ho', b', hf', hb⟩
  rcases hu with hu | hu
  · obtain ⟨o, ho, g', hf, hl⟩ := mem Kafka.asGroup _ _ hg rfl
    cases o <;> simp only [Kafka.asGroup, reduceCtorEq, Option.some.injEq] at hf
    subst hf
    have e : (Kafka.wanted (h :: rest) os).group = orDefault [] (last Kafka.asGroup os) := rfl
    rw [hl] at e
    exact g0 _ ho (e.symm.trans hu)
  · obtain ⟨o, ho, p', hf, hl⟩ := mem Kafka.asPartition _ _ hp rfl
    cases o <;> simp only [Kafka.asPartition, reduceCtorEq, Option.some.injEq] at hf
    subst hf
    have e : (Kafka.wanted (h :: rest) os).partition = orDefault 0 (last Kafka.asPartition os) := rfl
    rw [hl] at e
    exact p0 _ ho (e.symm.trans hu)

example : Kafka.Opt.group "g".toList ∈ [Kafka.Opt.partition 1, .group "g".toList, .autoCommit false] ∧
    Kafka.Opt.partition 1 ∈ [Kafka.Opt.partition 1, .group "g".toList, .autoCommit false] := by decide

/-- **C123 is violated**: without hosts, making a controller crashes; if its connection is not tested, subscribing does. -/
theorem C123_violated_hosts (srv : Kafka.Server) (topic : Str) :
    Kafka.newController srv [] [] = .panic ∧
    ∃ c, Kafka.newController srv [] [.connectionTest false] = .ok c ∧ Kafka.subscribe srv c topic = .panic :=
  ⟨rfl, _, rfl, rfl⟩

/-! ## JetStream -/

namespace JetStream

def asStreamConfig : Opt → Option (Str × Nat) | .streamConfig n r => some (n, r) | _ => none
def asStream : Opt → Option Str | .stream n => some n | _ => none
def asConsumerConfig : Opt → Option (Str × Nat) | .consumerConfig n r => some (n, r) | _ => none
def asConsumer : Opt → Option Str | .consumer n => some n | _ => none
def asDelay : Opt → Option Int | .nakDelay d => some d | _ => none

theorem configure_eq (os : List Opt) : configure os = Cfg.mk (orDefault [] (last asStream os))
    (orDefault [] (last asConsumer os)) (last asStreamConfig os) (last asConsumerConfig os)
    (orDefault 5000000000 (last asDelay os)) := by
  have od : ∀ {β : Type} (o : Option β), orDefault none (o.map some) = o := by intro β o; cases o <;> rfl
  have lm : ∀ {β : Type} (f : Opt → Option β), last (fun o => (f o).map some) os = (last f os).map some := by
    intro β f
    induction os with
    | nil => rfl
    | cons o os ih =>
      rw [last_cons, last_cons, ih]
      cases last f os <;> cases f o <;> rfl
  have h1 := setting Opt.apply Cfg.streamName asStream (fun c o => by cases o <;> rfl) os {}
  have h2 := setting Opt.apply Cfg.consumerName asConsumer (fun c o => by cases o <;> rfl) os {}
  have h3 := setting Opt.apply Cfg.streamConfig (fun o => (asStreamConfig o).map some) (fun c o => by cases o <;> rfl) os {}
  have h4 := setting Opt.apply Cfg.consumerConfig (fun o => (asConsumerConfig o).map some) (fun c o => by cases o <;> rfl) os {}
  have h5 := setting Opt.apply Cfg.nakDelay asDelay (fun c o => by cases o <;> rfl) os {}
  rw [lm] at h3 h4
  change _ = orDefault none _ at h3
  change _ = orDefault none _ at h4
  rw [od] at h3 h4
  unfold configure at *
  generalize os.foldl Opt.apply {} = c at *
  cases c
  simp only at h1 h2 h3 h4 h5
  subst h1 h2 h3 h4 h5
  rfl

/-- The stream is there: it was created, or existed and was updated. -/
def Kept (srv : Server) (k : Str × Nat) : Prop :=
  k.1 ≠ [] ∧ (srv.createStream k = .ok ∨ (srv.createStream k = .inUse ∧ srv.updateStream k = true))

/-- The stream a controller works with. -/
def streamOf (os : List Opt) : Str :=
  match last asStreamConfig os with
  | some k => k.1
  | none => orDefault [] (last asStream os)

/-- The consumer a controller works with. -/
def consumerOf (os : List Opt) : Str :=
  match last asConsumerConfig os with
  | some k => k.1
  | none => orDefault [] (last asConsumer os)

end JetStream

open JetStream in
/-- **C123** (JetStream): making a controller never crashes. It succeeds exactly if the last configuration of a stream, if
any, has a name and is created or updated, and the last configuration of a consumer, if any, has a name and is accepted for
the stream of the controller. The controller then uses the stream and the consumer of these configurations, or else the last
names given, and the last delay; whatever the order of the options. -/
theorem C123_jetstream (srv : Server) (os : List Opt) :
    (newController srv os).2 ≠ .panic ∧
    ((∃ c, (newController srv os).2 = .ok c) ↔ (∀ k, last asStreamConfig os = some k → Kept srv k) ∧
      (∀ k, last asConsumerConfig os = some k → k.1 ≠ [] ∧ srv.consumer (streamOf os) k = true)) ∧
    (∀ c, (newController srv os).2 = .ok c → c.streamName = streamOf os ∧ c.consumerName = consumerOf os ∧
      c.nakDelay = orDefault 5000000000 (last asDelay os)) := by
  unfold newController streamOf consumerOf
  rw [configure_eq]
  dsimp only
  have reg : ∀ k, ((registerStream srv k).2 = some k.1 ∧ Kept srv k) ∨ ((registerStream srv k).2 = none ∧ ¬ Kept srv k) := by
    intro k
    unfold registerStream Kept
    by_cases h : k.1 = []
    · rw [if_pos h]; exact .inr ⟨rfl, fun e => e.1 h⟩
    · rw [if_neg h]
      cases hc : srv.createStream k
      · exact .inl ⟨rfl, h, .inl rfl⟩
      · cases hu : srv.updateStream k
        · exact .inr ⟨by simp, by simp⟩
        · exact .inl ⟨by simp, h, .inr ⟨rfl, rfl⟩⟩
      · exact .inr ⟨rfl, by simp⟩
  have regc : ∀ s k, ((registerConsumer srv s k).2 = some k.1 ∧ k.1 ≠ [] ∧ srv.consumer s k = true) ∨
      ((registerConsumer srv s k).2 = none ∧ ¬ (k.1 ≠ [] ∧ srv.consumer s k = true)) := by
    intro s k
    unfold registerConsumer
    by_cases h : k.1 = []
    · rw [if_pos h]; exact .inr ⟨rfl, fun e => e.1 h⟩
    · rw [if_neg h]
      cases hc : srv.consumer s k
      · exact .inr ⟨by simp, by simp⟩
      · exact .inl ⟨by simp, h, rfl⟩
  cases hs : last asStreamConfig os with
  | none =>
    dsimp only
    cases hc : last asConsumerConfig os with
    | none => exact ⟨by simp, by simp, fun c hc => by cases hc; exact ⟨rfl, rfl, rfl⟩⟩
    | some k =>
      dsimp only
      rcases regc (orDefault [] (last asStream os)) k with ⟨e, h1, h2⟩ | ⟨e, h⟩
      · rw [e]
        refine ⟨by simp, ⟨fun _ => ⟨nofun, fun k' hk => by cases hk; exact ⟨h1, h2⟩⟩, fun _ => ⟨_, rfl⟩⟩, fun c hc => ?_⟩
        cases hc; exact ⟨rfl, rfl, rfl⟩
      · rw [e]
        exact ⟨by simp, ⟨(fun ⟨c, hc⟩ => by cases hc), fun hh => absurd (hh.2 k rfl) h⟩, nofun⟩
  | some ks =>
    dsimp only
    rcases reg ks with ⟨es, hk⟩ | ⟨es, hk⟩
    · rw [es]
      dsimp only
      cases hc : last asConsumerConfig os with
      | none =>
        refine ⟨by simp, ⟨fun _ => ⟨fun k' hk' => by cases hk'; exact hk, nofun⟩, fun _ => ⟨_, rfl⟩⟩, fun c hc => ?_⟩
        cases hc; exact ⟨rfl, rfl, rfl⟩
      | some k =>
        dsimp only
        rcases regc ks.1 k with ⟨e, h1, h2⟩ | ⟨e, h⟩
        · rw [e]
          refine ⟨by simp, ⟨fun _ => ⟨fun k' hk' => by cases hk'; exact hk, fun k' hk => by cases hk; exact ⟨h1, h2⟩⟩,
            fun _ => ⟨_, rfl⟩⟩, fun c hc => ?_⟩
          cases hc; exact ⟨rfl, rfl, rfl⟩
        · rw [e]
          exact ⟨by simp, ⟨(fun ⟨c, hc⟩ => by cases hc), fun hh => absurd (hh.2 k rfl) h⟩, nofun⟩
    · rw [es]
      exact ⟨by simp, ⟨(fun ⟨c, hc⟩ => by cases hc), fun hh => absurd (hh.1 ks rfl) hk⟩, nofun⟩

open JetStream in
/-- **C123** (JetStream, requests): making a controller asks the server only for the last configurations given, each at most
once; a stream is updated only if it is in use already, and a consumer is made only for the stream of the controller, if
the configured stream is there. -/
theorem C123_jetstream_requests (srv : Server) (os : List Opt) :
    (newController srv os).1.Nodup ∧
    (∀ k, .createStream k ∈ (newController srv os).1 ↔ last asStreamConfig os = some k ∧ k.1 ≠ []) ∧
    (∀ k, .updateStream k ∈ (newController srv os).1 ↔ last asStreamConfig os = some k ∧ k.1 ≠ [] ∧ srv.createStream k = .inUse) ∧
    (∀ s k, .consumer s k ∈ (newController srv os).1 ↔ last asConsumerConfig os = some k ∧ k.1 ≠ [] ∧ s = streamOf os ∧
      ∀ k', last asStreamConfig os = some k' → Kept srv k') := by
  classical
  have hreq : (newController srv os).1 = (match last asStreamConfig os with
        | none => []
        | some k => if k.1 = [] then [] else .createStream k :: if srv.createStream k = .inUse then [.updateStream k] else []) ++
      match last asConsumerConfig os with
        | none => []
        | some k => if k.1 ≠ [] ∧ ∀ k', last asStreamConfig os = some k' → Kept srv k' then [.consumer (streamOf os) k] else [] := by
    unfold newController streamOf
    rw [configure_eq]
    dsimp only
    cases hs : last asStreamConfig os with
    | none =>
      cases hc : last asConsumerConfig os with
      | none => rfl
      | some k =>
        dsimp only
        unfold registerConsumer
        by_cases h : k.1 = []
        · simp [h]
        · cases hk : srv.consumer (orDefault [] (last asStream os)) k <;> simp [h]
    | some ks =>
      dsimp only
      unfold registerStream Kept
      by_cases h : ks.1 = []
      · cases hc : last asConsumerConfig os <;> simp [h]
      · rw [if_neg h, if_neg h]
        cases hcr : srv.createStream ks with
        | error => cases hc : last asConsumerConfig os <;> simp [hcr]
        | ok =>
          cases hc : last asConsumerConfig os with
          | none => simp
          | some k =>
            dsimp only
            unfold registerConsumer
            by_cases h' : k.1 = []
            · simp [h']
            · cases hk : srv.consumer ks.1 k <;> simp [h, h', hcr]
        | inUse =>
          cases hu : srv.updateStream ks with
          | false => cases hc : last asConsumerConfig os <;> simp [hcr, hu]
          | true =>
            cases hc : last asConsumerConfig os with
            | none => simp
            | some k =>
              dsimp only
              unfold registerConsumer
              by_cases h' : k.1 = []
              · simp [h']
              · cases hk : srv.consumer ks.1 k <;> simp [h, h', hk, hcr, hu]
  rw [hreq]
  clear hreq
  have hS : ∀ k, ∀ x ∈ (if k.1 = [] then [] else .createStream k :: if srv.createStream k = .inUse then [.updateStream k] else [] : List Call),
      x = .createStream k ∨ x = .updateStream k := by
    intro k x hx
    split at hx
    · cases hx
    · split at hx <;> simp at hx
      · exact hx
      · exact .inl hx
  refine ⟨?_, fun k => ?_, fun k => ?_, fun s k => ?_⟩
  · rw [List.nodup_append]
    refine ⟨?_, ?_, ?_⟩
    · cases last asStreamConfig os with
      | none => exact List.nodup_nil
      | some k => dsimp only; split; · simp
                  split <;> simp
    · cases last asConsumerConfig os with
      | none => exact List.nodup_nil
      | some k => dsimp only; split <;> simp
    · intro x hx y hy e
      subst e
      cases hs : last asStreamConfig os with
      | none => rw [hs] at hx; cases hx
      | some k =>
        rw [hs] at hx
        cases hc : last asConsumerConfig os with
        | none => rw [hc] at hy; cases hy
        | some k' =>
          rw [hc] at hy
          dsimp only at hy
          split at hy
          · rcases hS k x hx with rfl | rfl <;> simp at hy
          · cases hy
  · have hn : Call.createStream k ∉ (match last asConsumerConfig os with
        | none => []
        | some k => if k.1 ≠ [] ∧ ∀ k', last asStreamConfig os = some k' → Kept srv k' then [Call.consumer (streamOf os) k] else []) := by
      cases last asConsumerConfig os with
      | none => simp
      | some k => dsimp only; split <;> simp
    rw [List.mem_append, or_iff_left hn]
    cases last asStreamConfig os with
    | none => simp
    | some k' =>
      dsimp only
      by_cases h : k'.1 = []
      · rw [if_pos h]
        exact ⟨nofun, fun e => by cases e.1; exact absurd h e.2⟩
      · rw [if_neg h]
        constructor
        · intro e
          rcases List.mem_cons.1 e with e | e
          · cases e; exact ⟨rfl, h⟩
          · split at e <;> simp at e
        · rintro ⟨e, -⟩; cases e; exact List.mem_cons_self ..
  · have hn : Call.updateStream k ∉ (match last asConsumerConfig os with
        | none => []
        | some k => if k.1 ≠ [] ∧ ∀ k', last asStreamConfig os = some k' → Kept srv k' then [Call.consumer (streamOf os) k] else []) := by
      cases last asConsumerConfig os with
      | none => simp
      | some k => dsimp only; split <;> simp
    rw [List.mem_append, or_iff_left hn]
    cases last asStreamConfig os with
    | none => simp
    | some k' =>
      dsimp only
      by_cases h : k'.1 = []
      · rw [if_pos h]
        exact ⟨nofun, fun e => by cases e.1; exact absurd h e.2.1⟩
      · rw [if_neg h]
        constructor
        · intro e
          rcases List.mem_cons.1 e with e | e
          · cases e
          · split at e
            · next hi => simp at e; cases e; exact ⟨rfl, h, hi⟩
            · cases e
        · rintro ⟨e, -, hi⟩; cases e; rw [if_pos hi]; simp
  · have hn : Call.consumer s k ∉ (match last asStreamConfig os with
        | none => []
        | some k => if k.1 = [] then [] else Call.createStream k :: if srv.createStream k = Created.inUse then [Call.updateStream k] else []) := by
      cases last asStreamConfig os with
      | none => simp
      | some k' => intro hx; rcases hS k' _ hx with e | e <;> cases e
    rw [List.mem_append, or_iff_right hn]
    cases last asConsumerConfig os with
    | none => simp
    | some k' =>
      dsimp only
      by_cases h : k'.1 ≠ [] ∧ ∀ k', last asStreamConfig os = some k' → Kept srv k'
      · rw [if_pos h]
        constructor
        · intro e; simp at e; cases e.1; cases e.2; exact ⟨rfl, h.1, rfl, h.2⟩
        · rintro ⟨e, -, rfl, -⟩; cases e; simp
      · rw [if_neg h]
        exact ⟨nofun, fun e => by cases e.1; exact absurd ⟨e.2.1, e.2.2.2⟩ h⟩

/-- A server with a stream `orders`. -/
def jet1 : JetStream.Server := ⟨fun _ => .inUse, fun _ => true, fun s _ => s = "orders".toList⟩

/-- The name of a configuration is used whether it comes before or after another name; the consumer is made for it. -/
example : JetStream.newController jet1 [.consumerConfig "c".toList 0, .streamConfig "orders".toList 1, .stream "other".toList] =
    ([.createStream ("orders".toList, 1), .updateStream ("orders".toList, 1), .consumer "orders".toList ("c".toList, 0)],
      .ok { streamName := "orders".toList, consumerName := "c".toList, streamConfig := some ("orders".toList, 1),
            consumerConfig := some ("c".toList, 0) }) ∧
    (JetStream.newController jet1 [.consumerConfig "c".toList 0]).2 = .error := by decide

end Verif.BrokerOpts
