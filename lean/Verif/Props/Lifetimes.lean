import Verif.Spec.Lifetimes
import Verif.Proofs.Versioning

/-!
# C116: contexts of subscriptions
-/

namespace Verif.Lifetimes
open Versioning (Cfg Out)

/-- The wrapper is as the directory says, and the loops that have returned are those of channels no longer used. -/
structure Inv (s : St) (l : Spec.Life) : Prop where
  w : Versioning.Inv s.w l.d
  ended : s.ended = l.ended
  opener : ∀ ch, l.d.used ch = true → s.opener.get ch = l.first.get ch
  stopped : ∀ ch ∈ s.stopped, l.d.used ch = false

theorem used_cancel (d : Versioning.Spec.Dir) (ch ch' : String) (v : Bytes)
    (h : ({ d with reg := d.reg.del (ch, v) } : Versioning.Spec.Dir).used ch' = true) : d.used ch' = true := by
  rw [Versioning.used_iff] at h ⊢
  obtain ⟨w, id, hg⟩ := h
  rw [GoMap.get_del] at hg
  split at hg
  · cases hg
  · exact ⟨w, id, hg⟩

theorem used_deliver (cfg : Cfg) (d : Versioning.Spec.Dir) (ch : String) (m : BrokerMessage) (ch' : String) :
    (Versioning.Spec.deliver cfg d ch m).used ch' = d.used ch' := by
  unfold Versioning.Spec.deliver
  split
  · rfl
  · split <;> rfl

theorem used_subscribe (d : Versioning.Spec.Dir) (ch : String) (ver : Option Bytes) (ok : Bool) (ch' : String)
    (hne : ch' ≠ ch) : (Versioning.Spec.subscribe d ch ver ok).1.used ch' = d.used ch' := by
  unfold Versioning.Spec.subscribe
  cases ver with
  | none => rfl
  | some v =>
    simp only
    split
    · rfl
    · split
      · rfl
      · split
        · rfl
        · rw [Bool.eq_iff_iff, Versioning.used_iff, Versioning.used_iff]
          constructor <;> rintro ⟨w, id, hg⟩ <;> refine ⟨w, id, ?_⟩
          · rwa [GoMap.get_put_of_ne _ _ (fun e => hne (congrArg Prod.fst e).symm)] at hg
          · rwa [GoMap.get_put_of_ne _ _ (fun e => hne (congrArg Prod.fst e).symm)]

theorem inv_step (bound : Bool) (cfg : Cfg) (s : St) (l : Spec.Life) (h : Inv s l) (o : Op)
    (hk : match o with
      | .deliver ch m => l.d.used ch = true → ∀ v, Versioning.Spec.IsVersion cfg m v → (l.d.reg.get (ch, v)).isSome
      | _ => True)
    (hl : bound = true → ∀ ch c, l.d.used ch = true → l.first.get ch = some c → c ∉ l.ended) :
    (step bound cfg s o).2 = (Spec.step cfg l o).2 ∧ Inv (step bound cfg s o).1 (Spec.step cfg l o).1 := by
  cases o with
  | subscribe ch ver ctx ok =>
    obtain ⟨h1, h2⟩ := Versioning.inv_subscribe h.w ch ver ok
    have hu := h.w.used ch
    have hu' := h2.used ch
    have hc : ((s.w.channels.get ch).isNone && ((Versioning.subscribe s.w ch ver ok).1.channels.get ch).isSome) =
        (!l.d.used ch && (Versioning.Spec.subscribe l.d ch ver ok).1.used ch) := by
      rw [hu, hu']
      cases s.w.channels.get ch <;> rfl
    simp only [step, subscribe, Spec.step]
    rw [hc]
    cases hb : (!l.d.used ch && (Versioning.Spec.subscribe l.d ch ver ok).1.used ch) with
    | true =>
      simp only [if_true]
      refine ⟨h1, h2, h.ended, ?_, ?_⟩
      · intro ch' hch'
        by_cases e : ch' = ch
        · subst e
          rw [GoMap.get_put_self, GoMap.get_put_self]
        · rw [GoMap.get_put_of_ne _ _ (fun x => e x.symm), GoMap.get_put_of_ne _ _ (fun x => e x.symm)]
          exact h.opener ch' (by rwa [used_subscribe _ _ _ _ _ e] at hch')
      · intro ch' hch'
        rw [List.mem_filter] at hch'
        have e : ch' ≠ ch := by simpa using hch'.2
        simp only
        rw [used_subscribe _ _ _ _ _ e]
        exact h.stopped ch' hch'.1
    | false =>
      simp only [Bool.false_eq_true, if_false]
      have key : ∀ ch', (Versioning.Spec.subscribe l.d ch ver ok).1.used ch' = true → l.d.used ch' = true := by
        intro ch' hch'
        by_cases e : ch' = ch
        · subst e
          rw [hch'] at hb
          simpa using hb
        · rwa [used_subscribe _ _ _ _ _ e] at hch'
      refine ⟨h1, h2, h.ended, fun ch' hch' => h.opener ch' (key ch' hch'), fun ch' hch' => ?_⟩
      have := h.stopped ch' hch'
      cases hx : (Versioning.Spec.subscribe l.d ch ver ok).1.used ch' with
      | false => rfl
      | true => rw [key ch' hx] at this; cases this
  | cancel ch v =>
    obtain ⟨h1, h2⟩ := Versioning.inv_cancel h.w ch v
    refine ⟨h1, h2, h.ended, fun ch' hch' => h.opener ch' (used_cancel _ _ _ _ hch'), fun ch' hch' => ?_⟩
    have := h.stopped ch' hch'
    simp only [Spec.step]
    cases hx : ({ l.d with reg := l.d.reg.del (ch, v) } : Versioning.Spec.Dir).used ch' with
    | false => rfl
    | true => rw [used_cancel _ _ _ _ hx] at this; cases this
  | deliver ch m =>
    have h2 := Versioning.inv_deliver h.w cfg ch m hk
    simp only [step, Spec.step]
    by_cases hs : ch ∈ s.stopped
    · rw [if_pos hs]
      have hu := h.stopped ch hs
      have hn : ∀ v, l.d.reg.get (ch, v) = none := by
        intro v
        cases hg : l.d.reg.get (ch, v) with
        | none => rfl
        | some id =>
          have := (Versioning.used_iff l.d ch).2 ⟨v, id, hg⟩
          rw [hu] at this; cases this
      have hd : Versioning.Spec.deliver cfg l.d ch m = l.d := by
        unfold Versioning.Spec.deliver
        split
        · rfl
        · rw [hn]
      rw [hd]
      exact ⟨rfl, h⟩
    · rw [if_neg hs]
      refine ⟨rfl, h2, h.ended, fun ch' hch' => ?_, fun ch' hch' => ?_⟩
      · simp only [used_deliver] at hch'
        exact h.opener ch' hch'
      · simp only [used_deliver]
        exact h.stopped ch' hch'
  | endCtx c =>
    exact ⟨rfl, h.w, congrArg _ h.ended, h.opener, h.stopped⟩
  | observe ch =>
    simp only [step, Spec.step]
    split
    · exact ⟨rfl, h⟩
    · rename_i c hc
      split
      · rename_i hb
        simp only [Bool.and_eq_true, decide_eq_true_eq] at hb
        refine ⟨rfl, h.w, h.ended, h.opener, fun ch' hch' => ?_⟩
        rcases List.mem_cons.1 hch' with rfl | hch'
        · cases hx : l.d.used ch' with
          | false => rfl
          | true =>
            exact absurd (h.ended ▸ hb.2) (hl hb.1 ch' c hx (by rw [← h.opener ch' hx, hc]))
        · exact h.stopped ch' hch'
      · exact ⟨rfl, h⟩

theorem inv_run (bound : Bool) (cfg : Cfg) : ∀ (os : List Op) (s : St) (l : Spec.Life), Inv s l → Spec.Known cfg l os →
    (bound = true → Spec.Lasting cfg l os) →
    (run bound cfg s os).2 = (Spec.run cfg l os).2 ∧ Inv (run bound cfg s os).1 (Spec.run cfg l os).1
  | [], _, _, h, _, _ => ⟨rfl, h⟩
  | o :: os, s, l, h, hk, hl => by
    obtain ⟨h1, h2⟩ := inv_step bound cfg s l h o hk.1 (fun hb => (hl hb).1)
    obtain ⟨h3, h4⟩ := inv_run bound cfg os _ _ h2 hk.2 (fun hb => (hl hb).2)
    simp only [run, Spec.run]
    exact ⟨by rw [h1, h3], h4⟩

theorem inv_init : Inv {} {} := ⟨Versioning.inv_init, rfl, fun _ _ => rfl, nofun⟩

/-- **C116, NATS and JetStream.** The ends of contexts change nothing: calls return, and messages reach the subscription of
their version, as the directory says. -/
theorem C116_nats (cfg : Cfg) (os : List Op) (hk : Spec.Known cfg {} os) :
    (run false cfg {} os).2 = (Spec.run cfg {} os).2 ∧
    (run false cfg {} os).1.w.inbox = (Spec.run cfg {} os).1.d.inbox := by
  obtain ⟨h1, h2⟩ := inv_run false cfg os {} {} inv_init hk nofun
  exact ⟨h1, h2.w.inbox⟩

/-- **C116, Kafka (partial).** Subscriptions receive what the directory says as long as the context of the subscription that
was the first on their channel lasts. Missing for the full claim: that their own contexts are enough, which is false. -/
theorem C116_kafka_partial (cfg : Cfg) (os : List Op) (hk : Spec.Known cfg {} os) (hl : Spec.Lasting cfg {} os) :
    (run true cfg {} os).2 = (Spec.run cfg {} os).2 ∧
    (run true cfg {} os).1.w.inbox = (Spec.run cfg {} os).1.d.inbox := by
  obtain ⟨h1, h2⟩ := inv_run true cfg os {} {} inv_init hk (fun _ => hl)
  exact ⟨h1, h2.w.inbox⟩

/-! ## The context of somebody else -/

/-- A channel that has lost its reading loop and on which a version is subscribed. -/
def Lost (ch : String) (v : Bytes) (s : St) : Prop :=
  ch ∈ s.stopped ∧ ∃ bs id, s.w.channels.get ch = some bs ∧ bs.versions.get v = some id

theorem has_subscribe (s : Versioning.St) (ch ch' : String) (v : Bytes) (ver : Option Bytes) (ok : Bool)
    (h : ∃ bs id, s.channels.get ch = some bs ∧ bs.versions.get v = some id) :
    ∃ bs id, (Versioning.subscribe s ch' ver ok).1.channels.get ch = some bs ∧ bs.versions.get v = some id := by
  obtain ⟨bs, id, h1, h2⟩ := h
  unfold Versioning.subscribe
  split
  · exact ⟨bs, id, h1, h2⟩
  · split
    · exact ⟨bs, id, h1, h2⟩
    · split
      · exact ⟨bs, id, h1, h2⟩
      · split
        · rename_i hn
          split
          · refine ⟨bs, id, ?_, h2⟩
            have hne : ch' ≠ ch := by
              intro e
              rw [e, h1] at hn
              cases hn
            simp only
            rw [GoMap.get_put_of_ne _ _ hne, h1]
          · exact ⟨bs, id, h1, h2⟩
        · rename_i w _ _ _ bs' hb
          split
          · exact ⟨bs, id, h1, h2⟩
          · split
            · exact ⟨bs, id, h1, h2⟩
            · rename_i hw
              by_cases e : ch' = ch
              · subst e
                rw [h1] at hb
                cases hb
                refine ⟨_, id, GoMap.get_put_self _ _ _, ?_⟩
                have hne : w ≠ v := by
                  intro e
                  rw [e, h2] at hw
                  cases hw
                simp only
                rw [GoMap.get_put_of_ne _ _ hne, h2]
              · refine ⟨bs, id, ?_, h2⟩
                simp only
                rw [GoMap.get_put_of_ne _ _ e, h1]

theorem has_cancel (s : Versioning.St) (ch ch' : String) (v v' : Bytes) (hne : ¬ (ch' = ch ∧ v' = v))
    (h : ∃ bs id, s.channels.get ch = some bs ∧ bs.versions.get v = some id) :
    ∃ bs id, (Versioning.cancel s ch' v').1.channels.get ch = some bs ∧ bs.versions.get v = some id := by
  obtain ⟨bs, id, h1, h2⟩ := h
  unfold Versioning.cancel
  split
  · exact ⟨bs, id, h1, h2⟩
  · rename_i bs' hb
    split
    · exact ⟨bs, id, h1, h2⟩
    · split
      · exact ⟨bs, id, h1, h2⟩
      · by_cases e : ch' = ch
        · subst e
          rw [h1] at hb
          cases hb
          have hv : v' ≠ v := fun e => hne ⟨rfl, e⟩
          have hg : (bs.versions.del v').get v = some id := by
            rw [GoMap.get_del, if_neg hv, h2]
          have hpos : (bs.versions.del v').length > 0 := by
            cases hx : bs.versions.del v' with
            | nil => rw [hx] at hg; cases hg
            | cons _ _ => simp
          simp only [if_pos hpos]
          split
          · exact ⟨_, id, GoMap.get_put_self _ _ _, hg⟩
          · exact ⟨_, id, GoMap.get_put_self _ _ _, hg⟩
        · refine ⟨bs, id, ?_, h2⟩
          simp only
          split
          · simp only [GoMap.get_put_of_ne _ _ e, h1]
          · split
            · simp only [GoMap.get_put_of_ne _ _ e, h1]
            · simp only [GoMap.get_del, if_neg e, h1]

theorem has_deliver (cfg : Cfg) (s : Versioning.St) (ch ch' : String) (v : Bytes) (m : BrokerMessage)
    (h : ∃ bs id, s.channels.get ch = some bs ∧ bs.versions.get v = some id) :
    ∃ bs id, (Versioning.deliver cfg s ch' m).channels.get ch = some bs ∧ bs.versions.get v = some id := by
  obtain ⟨bs, id, h1, h2⟩ := h
  have put : ∀ bs' : Versioning.BS, (∀ b, s.channels.get ch' = some b → bs'.versions = b.versions) →
      (∃ b, s.channels.get ch' = some b) →
      ∃ b id, (s.channels.put ch' bs').get ch = some b ∧ b.versions.get v = some id := by
    rintro bs' hb ⟨b, hb'⟩
    by_cases e : ch' = ch
    · subst e
      refine ⟨bs', id, GoMap.get_put_self _ _ _, ?_⟩
      rw [hb bs h1, h2]
    · exact ⟨bs, id, by rw [GoMap.get_put_of_ne _ _ e, h1], h2⟩
  unfold Versioning.deliver
  split
  · exact ⟨bs, id, h1, h2⟩
  · rename_i b hb
    split
    · exact ⟨bs, id, h1, h2⟩
    · split
      · exact ⟨bs, id, h1, h2⟩
      · split
        · exact put _ (fun b' hb' => by rw [hb] at hb'; cases hb'; rfl) ⟨b, hb⟩
        · split
          · exact put _ (fun b' hb' => by rw [hb] at hb'; cases hb'; rfl) ⟨b, hb⟩
          · exact ⟨bs, id, h1, h2⟩

theorem lost_step (cfg : Cfg) (ch : String) (v : Bytes) (s : St) (h : Lost ch v s) (o : Op) (ho : o ≠ .cancel ch v) :
    Lost ch v (step true cfg s o).1 := by
  obtain ⟨hs, hv⟩ := h
  cases o with
  | subscribe ch' ver ctx ok =>
    have := has_subscribe s.w ch ch' v ver ok hv
    simp only [step, subscribe]
    split
    · rename_i hc
      refine ⟨List.mem_filter.2 ⟨hs, ?_⟩, this⟩
      have : ch ≠ ch' := by
        intro e
        obtain ⟨bs, _, h1, _⟩ := hv
        rw [← e, h1] at hc
        cases hc
      simpa using this
    · exact ⟨hs, this⟩
  | cancel ch' v' =>
    exact ⟨hs, has_cancel s.w ch ch' v v' (fun e => ho (by rw [e.1, e.2])) hv⟩
  | deliver ch' m =>
    simp only [step]
    split
    · exact ⟨hs, hv⟩
    · exact ⟨hs, has_deliver cfg s.w ch ch' v m hv⟩
  | endCtx c => exact ⟨hs, hv⟩
  | observe ch' =>
    simp only [step]
    split
    · exact ⟨hs, hv⟩
    · split
      · exact ⟨List.mem_cons_of_mem _ hs, hv⟩
      · exact ⟨hs, hv⟩

theorem lost_run (cfg : Cfg) (ch : String) (v : Bytes) : ∀ (os : List Op) (s : St), Lost ch v s →
    (∀ o ∈ os, o ≠ .cancel ch v) → Lost ch v (run true cfg s os).1
  | [], _, h, _ => h
  | o :: os, s, h, ho => lost_run cfg ch v os _ (lost_step cfg ch v s h o (ho o (List.mem_cons_self ..)))
      (fun o' h' => ho o' (List.mem_cons_of_mem _ h'))

theorem run_append (bound : Bool) (cfg : Cfg) : ∀ (os os' : List Op) (s : St),
    (run bound cfg s (os ++ os')).1 = (run bound cfg (run bound cfg s os).1 os').1
  | [], _, _ => rfl
  | _ :: os, os', _ => run_append bound cfg os os' _

/-- The history of the violation: two versions subscribe to a channel, and the context of the first one ends. -/
def twoVersions (ch : String) (v1 v2 : Bytes) (c1 c2 : Nat) : List Op :=
  [.subscribe ch (some v1) c1 true, .subscribe ch (some v2) c2 true, .endCtx c1, .observe ch]

theorem twoVersions_lost (cfg : Cfg) (ch : String) (v1 v2 : Bytes) (c1 c2 : Nat) (h1 : v1 ≠ []) (h2 : v2 ≠ []) (hv : v1 ≠ v2) :
    Lost ch v1 (run true cfg {} (twoVersions ch v1 v2 c1 c2)).1 ∧
    Lost ch v2 (run true cfg {} (twoVersions ch v1 v2 c1 c2)).1 := by
  have hv' : v2 ≠ v1 := fun e => hv e.symm
  simp [twoVersions, run, step, subscribe, Versioning.subscribe, h1, h2, hv, hv', Lost, GoMap.get_put]

/-- **C116 is violated** with Kafka and versions: when the context of the first version has ended, no message reaches any
subscription of the channel, whatever is called afterwards and whatever their contexts, as long as one of the two versions
stays. -/
theorem C116_violated (cfg : Cfg) (ch : String) (v1 v2 : Bytes) (c1 c2 : Nat) (h1 : v1 ≠ []) (h2 : v2 ≠ []) (hv : v1 ≠ v2)
    (os : List Op) (ho : (∀ o ∈ os, o ≠ .cancel ch v1) ∨ (∀ o ∈ os, o ≠ .cancel ch v2)) (m : BrokerMessage) :
    (run true cfg {} (twoVersions ch v1 v2 c1 c2 ++ os ++ [.deliver ch m])).1.w.inbox =
      (run true cfg {} (twoVersions ch v1 v2 c1 c2 ++ os)).1.w.inbox := by
  obtain ⟨l1, l2⟩ := twoVersions_lost cfg ch v1 v2 c1 c2 h1 h2 hv
  have hs : ch ∈ (run true cfg {} (twoVersions ch v1 v2 c1 c2 ++ os)).1.stopped := by
    rw [run_append]
    rcases ho with ho | ho
    · exact (lost_run cfg ch v1 os _ l1 ho).1
    · exact (lost_run cfg ch v2 os _ l2 ho).1
  rw [run_append]
  simp only [run, step, if_pos hs]

/-- The same history over NATS, with the message it should get. -/
example : (run true ⟨"v", none⟩ {} (twoVersions "a" [49] [50] 0 1 ++ [.deliver "a" ⟨some [("v", [50])], none⟩])).1.w.inbox = [] ∧
    (run false ⟨"v", none⟩ {} (twoVersions "a" [49] [50] 0 1 ++ [.deliver "a" ⟨some [("v", [50])], none⟩])).1.w.inbox =
      [(1, ⟨some [("v", [50])], none⟩)] ∧
    (Spec.run ⟨"v", none⟩ {} (twoVersions "a" [49] [50] 0 1 ++ [.deliver "a" ⟨some [("v", [50])], none⟩])).1.d.inbox =
      [(1, ⟨some [("v", [50])], none⟩)] := by decide

/-- It is enough that the first version was there once: it is cancelled, its context ends later, and the other version
gets nothing. -/
theorem C116_violated_left (cfg : Cfg) (ch : String) (v1 v2 : Bytes) (c1 c2 : Nat) (h1 : v1 ≠ []) (h2 : v2 ≠ []) (hv : v1 ≠ v2)
    (m : BrokerMessage) :
    (run true cfg {} [.subscribe ch (some v1) c1 true, .subscribe ch (some v2) c2 true, .cancel ch v1, .endCtx c1,
      .observe ch, .deliver ch m]).1.w.inbox = [] := by
  have hv' : v2 ≠ v1 := fun e => hv e.symm
  simp [run, step, subscribe, Versioning.subscribe, Versioning.cancel, h1, h2, hv, hv', GoMap.put, GoMap.del]

/-- A history in which the context of the other version ends: nothing is lost. -/
def lasting : List Op :=
  [.subscribe "a" (some [49]) 0 true, .subscribe "a" (some [50]) 1 true, .endCtx 1, .observe "a",
    .deliver "a" ⟨some [("v", [50])], none⟩, .cancel "a" [49], .cancel "a" [50], .endCtx 0,
    .subscribe "a" (some [50]) 2 true, .deliver "a" ⟨some [("v", [50])], none⟩]

theorem lasting_known : Spec.Known ⟨"v", none⟩ {} lasting := by
  have one : ∀ v, Versioning.Spec.IsVersion ⟨"v", none⟩ ⟨some [("v", [50])], none⟩ v → v = [50] := by
    intro v hv
    cases hv with
    | named hh hg _ =>
      cases hh
      simpa using hg.symm
    | default hd _ => cases hd
  refine ⟨trivial, trivial, trivial, trivial, ?_, trivial, trivial, trivial, trivial, ?_, trivial⟩
  · intro _ v hv
    rw [one v hv]
    decide
  · intro _ v hv
    rw [one v hv]
    decide

theorem lasting_lasting : Spec.Lasting ⟨"v", none⟩ {} lasting := by
  have key : ∀ (l : Spec.Life), (∀ e ∈ l.first, l.d.used e.1 = true → e.2 ∉ l.ended) →
      ∀ ch c, l.d.used ch = true → l.first.get ch = some c → c ∉ l.ended :=
    fun l h ch c hu hf => h (ch, c) (GoMap.mem_of_get hf) hu
  refine ⟨key _ ?_, key _ ?_, key _ ?_, key _ ?_, key _ ?_, key _ ?_, key _ ?_, key _ ?_, key _ ?_, key _ ?_, trivial⟩ <;> decide

/-- The hypotheses of `C116_kafka_partial` are met, and two messages are delivered. -/
example : (run true ⟨"v", none⟩ {} lasting).1.w.inbox =
    [(1, ⟨some [("v", [50])], none⟩), (2, ⟨some [("v", [50])], none⟩)] := by decide

end Verif.Lifetimes
