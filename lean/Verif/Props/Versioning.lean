import Verif.Proofs.Versioning

/-! # C25–C28: the versioning wrapper -/

namespace Verif.Versioning

open Spec

/-- **C25 (partial: messages whose header map is not nil, as all generated messages).** With a version in
context, the broker gets the message with exactly that version under the version header, and every other
header and the payload unchanged; without version it gets the message unchanged. Missing: messages with a
nil header map (below). -/
theorem C25_version_tagged_partial (cfg : Cfg) (m : BrokerMessage) (h : GoMap String Bytes)
    (hm : m.headers = some h) :
    publish cfg none m = .sent m ∧
    ∀ v, ∃ m' h', publish cfg (some v) m = .sent m' ∧ m'.payload = m.payload ∧ m'.headers = some h' ∧
      h'.get cfg.headerKey = some v ∧ ∀ k, k ≠ cfg.headerKey → h'.get k = h.get k := by
  refine ⟨rfl, fun v => ⟨{ m with headers := some (h.put cfg.headerKey v) }, _, ?_, rfl, rfl, ?_, ?_⟩⟩
  · simp [publish, hm]
  · simp
  · intro k hk
    exact GoMap.get_put_of_ne _ _ (fun h => hk h.symm)

/-- **C25 is violated for a nil header map**: publishing panics. -/
theorem C25_violated_nil_headers (cfg : Cfg) (v : Bytes) (p : Option Bytes) :
    publish cfg (some v) ⟨none, p⟩ = .panicked := rfl

example : publish ⟨"application-version", none⟩ (some [49]) ⟨some [("k", [1])], some [2]⟩ =
    .sent ⟨some [("application-version", [49]), ("k", [1])], some [2]⟩ := by decide

/-- **C26.** For every history in which every version met is registered: each call returns what the
directory returns, and the deliveries, in order, are exactly those of the directory: each message once, to
the subscription of its version (or of the default version), and nobody else. -/
theorem C26_routes_like_a_directory (cfg : Cfg) (os : List Op) (hk : Known cfg {} os) :
    (run cfg init os).2 = (Spec.run cfg {} os).2 ∧
    (run cfg init os).1.inbox = (Spec.run cfg {} os).1.inbox := by
  have h := inv_run cfg os inv_init hk
  exact ⟨h.1, h.2.inbox⟩

/-- **C26**, one message: after any such history, a message whose version `v` is subscribed on its channel
is delivered once more, to that subscription. -/
theorem C26_delivered_once_to_its_version (cfg : Cfg) (os : List Op) (hk : Known cfg {} os)
    (ch : String) (m : BrokerMessage) (v : Bytes) (hv : IsVersion cfg m v) (id : Nat)
    (hreg : (Spec.run cfg {} os).1.reg.get (ch, v) = some id) :
    (deliver cfg (run cfg init os).1 ch m).inbox = (run cfg init os).1.inbox ++ [(id, m)] := by
  have h := (inv_run cfg os inv_init hk).2
  have h2 := inv_deliver h cfg ch m (by
    intro _ w hw
    rw [← version_iff] at hw hv
    rw [hv] at hw; cases hw
    rw [hreg]; rfl)
  rw [h2.inbox, h.inbox]
  simp [Spec.deliver, (version_iff cfg m v).2 hv, hreg]

/-- **C26**: a message without version, when there is no default, is dropped. -/
theorem C26_dropped_without_version (cfg : Cfg) (s : St) (ch : String) (m : BrokerMessage)
    (hd : cfg.defaultVersion = none)
    (hm : ∀ h v, m.headers = some h → h.get cfg.headerKey = some v → v = []) :
    deliver cfg s ch m = s := by
  have : versionOf cfg m = none := by
    unfold versionOf
    cases hh : m.headers with
    | none => simp [hd]
    | some h =>
      cases hg : h.get cfg.headerKey with
      | none => simp [hg, hd]
      | some v => simp [hg, hd, hm h v hh hg]
  unfold deliver
  rw [this]
  split
  · rfl
  · split <;> rfl

/-- Two channels, two versions, a default, a message without version, a cancellation. -/
def exampleHistory : List Op :=
  [.subscribe "a" (some [49]) true, .subscribe "a" (some [50]) true, .subscribe "b" (some [49]) false,
   .deliver "a" ⟨some [("v", [50])], some [7]⟩, .deliver "a" ⟨none, some [8]⟩, .subscribe "a" (some [49]) true,
   .cancel "a" [50], .deliver "a" ⟨some [("v", [49])], some [9]⟩, .cancel "a" [49],
   .deliver "a" ⟨some [("v", [51])], some [9]⟩]

example : (run ⟨"v", some [49]⟩ init exampleHistory).1.inbox =
    [(1, ⟨some [("v", [50])], some [7]⟩), (0, ⟨none, some [8]⟩), (0, ⟨some [("v", [49])], some [9]⟩)] ∧
  (run ⟨"v", some [49]⟩ init exampleHistory).2 =
    [.subscribed 0, .subscribed 1, .broker, .done, .done, .alreadySubscribed, .done, .done, .done, .done] := by
  decide

example : Known ⟨"v", some [49]⟩ {} exampleHistory := by
  refine ⟨trivial, trivial, trivial, ?_, ?_, trivial, trivial, ?_, trivial, ?_, trivial⟩
  · intro _ v hv
    have : version ⟨"v", some [49]⟩ ⟨some [("v", [50])], some [7]⟩ = some [50] := by decide
    rw [← version_iff, this] at hv; cases hv; decide
  · intro _ v hv
    have : version ⟨"v", some [49]⟩ ⟨none, some [8]⟩ = some [49] := by decide
    rw [← version_iff, this] at hv; cases hv; decide
  · intro _ v hv
    have : version ⟨"v", some [49]⟩ ⟨some [("v", [49])], some [9]⟩ = some [49] := by decide
    rw [← version_iff, this] at hv; cases hv; decide
  · intro h; exact absurd h (by decide)

/-- **C28.** After every such history the wrapper holds exactly one broker subscription per channel with a
subscribed version, and none for other channels. -/
theorem C28_one_broker_subscription_per_channel (cfg : Cfg) (os : List Op) (hk : Known cfg {} os) :
    OnePerUsedChannel (Spec.run cfg {} os).1 (run cfg init os).1.live :=
  (inv_run cfg os inv_init hk).2.onePer

/-- Histories without messages satisfy the hypothesis: C28 for every history of subscriptions and
cancellations. -/
theorem C28_known_without_messages (cfg : Cfg) (os : List Op)
    (h : ∀ o ∈ os, ∀ ch m, o ≠ .deliver ch m) (d : Dir) : Known cfg d os := by
  induction os generalizing d with
  | nil => trivial
  | cons o os ih =>
    refine ⟨?_, ih (fun o ho => h o (List.mem_cons_of_mem _ ho)) _⟩
    cases o with
    | deliver ch m => exact absurd rfl (h _ List.mem_cons_self ch m)
    | _ => trivial

/-- **C28.** Subscribing a version that is already subscribed is refused and changes nothing. -/
theorem C28_second_subscription_refused (cfg : Cfg) (os : List Op) (hk : Known cfg {} os)
    (ch : String) (v : Bytes) (hv : v ≠ []) (ok : Bool)
    (hreg : ((Spec.run cfg {} os).1.reg.get (ch, v)).isSome) :
    subscribe (run cfg init os).1 ch (some v) ok = ((run cfg init os).1, .alreadySubscribed) := by
  have h := (inv_run cfg os inv_init hk).2
  rw [← h.reg] at hreg
  cases hc : (run cfg init os).1.channels.get ch with
  | none => rw [hc] at hreg; simp at hreg
  | some bs =>
    rw [hc] at hreg
    simp only [Option.bind_some] at hreg
    obtain ⟨id, hid⟩ := Option.isSome_iff_exists.mp hreg
    simp [subscribe, hv, h.nheld, hc, (h.good ch bs hc).1, hid]

/-- **C27 is violated.** One message of an unregistered version on channel "a", then: messages of the
registered version are lost, its cancellation never returns, a subscription to another version never
returns, and after that no subscription to any channel returns. The directory would answer all of them. -/
theorem C27_violated :
    let h : List Op := [.subscribe "a" (some [49]) true, .deliver "a" ⟨some [("v", [57])], none⟩,
      .deliver "a" ⟨some [("v", [49])], none⟩, .cancel "a" [49], .subscribe "a" (some [50]) true,
      .subscribe "b" (some [49]) true]
    (run ⟨"v", none⟩ init h).2 = [.subscribed 0, .done, .done, .blocked, .blocked, .blocked] ∧
    (run ⟨"v", none⟩ init h).1.inbox = [] ∧
    (Spec.run ⟨"v", none⟩ {} h).2 =
      [.subscribed 0, .done, .done, .done, .subscribed 1, .subscribed 2] ∧
    (Spec.run ⟨"v", none⟩ {} h).1.inbox = [(0, ⟨some [("v", [49])], none⟩)] := by decide

/-- The lock of channel `ch` is never released. -/
def Stuck (s : St) (ch : String) : Prop := ∃ bs, s.channels.get ch = some bs ∧ bs.held = true

/-- **C27 is violated for ever**: once a message of an unregistered version was met on a channel, nothing
is delivered on that channel any more, whatever happens. -/
theorem C27_violated_forever (cfg : Cfg) (s : St) (ch : String) (hs : Stuck s ch) (os : List Op) :
    Stuck (run cfg s os).1 ch ∧
    ∀ m, (deliver cfg (run cfg s os).1 ch m).inbox = (run cfg s os).1.inbox := by
  have hstep : ∀ (s : St) (o : Op), Stuck s ch → Stuck (step cfg s o).1 ch := by
    intro s o ⟨bs, hb, hh⟩
    cases o with
    | subscribe c ver ok =>
      simp only [step, subscribe]
      cases ver with
      | none => exact ⟨bs, hb, hh⟩
      | some v =>
        simp only
        split
        · exact ⟨bs, hb, hh⟩
        · split
          · exact ⟨bs, hb, hh⟩
          · cases hc : s.channels.get c with
            | none =>
              simp only
              have hne : c ≠ ch := by rintro rfl; rw [hb] at hc; cases hc
              cases ok with
              | false => exact ⟨bs, hb, hh⟩
              | true => exact ⟨bs, by simp [hne, hb], hh⟩
            | some bs' =>
              simp only
              by_cases hne : c = ch
              · subst hne
                rw [hb] at hc; cases hc
                simp only [hh, if_true]
                exact ⟨bs, hb, hh⟩
              · split
                · exact ⟨bs, hb, hh⟩
                · split
                  · exact ⟨bs, hb, hh⟩
                  · exact ⟨bs, by simp [hne, hb], hh⟩
    | cancel c v =>
      simp only [step, cancel]
      cases hc : s.channels.get c with
      | none => exact ⟨bs, hb, hh⟩
      | some bs' =>
        simp only
        split
        · exact ⟨bs, hb, hh⟩
        · by_cases hne : c = ch
          · subst hne
            rw [hb] at hc; cases hc
            simp only [hh, if_true]
            exact ⟨bs, hb, hh⟩
          · split
            · exact ⟨bs, hb, hh⟩
            · split
              · exact ⟨bs, by simp [hne, hb], hh⟩
              · split
                · exact ⟨bs, by simp [hne, hb], hh⟩
                · exact ⟨bs, by simp [GoMap.get_del, hne, hb], hh⟩
    | deliver c m =>
      simp only [step, deliver]
      cases hc : s.channels.get c with
      | none => exact ⟨bs, hb, hh⟩
      | some bs' =>
        simp only
        split
        · exact ⟨bs, hb, hh⟩
        · split
          · exact ⟨bs, hb, hh⟩
          · by_cases hne : c = ch
            · subst hne
              rw [hb] at hc; cases hc
              simp only [hh, if_true]
              exact ⟨_, GoMap.get_put_self _ _ _, rfl⟩
            · split
              · exact ⟨bs, by simp [hne, hb], hh⟩
              · split
                · exact ⟨bs, by simp [hne, hb], hh⟩
                · exact ⟨bs, hb, hh⟩
  have hrun : ∀ (os : List Op) (s : St), Stuck s ch → Stuck (run cfg s os).1 ch := by
    intro os
    induction os with
    | nil => intro s h; exact h
    | cons o os ih => intro s h; exact ih _ (hstep s o h)
  refine ⟨hrun os s hs, fun m => ?_⟩
  obtain ⟨bs, hb, hh⟩ := hrun os s hs
  simp only [deliver, hb, hh, if_true]
  split
  · rfl
  · split <;> rfl

/-- The state of the violation is reached by one message. -/
example : Stuck (run ⟨"v", none⟩ init [.subscribe "a" (some [49]) true,
    .deliver "a" ⟨some [("v", [57])], none⟩]).1 "a" := ⟨_, rfl, rfl⟩

/-- **C27 (partial: nobody listens to the channel).** A message on a channel without subscription is
ignored. Missing: channels with other versions subscribed. -/
theorem C27_ignored_on_unused_channel_partial (cfg : Cfg) (os : List Op) (hk : Known cfg {} os)
    (ch : String) (m : BrokerMessage) (hu : (Spec.run cfg {} os).1.used ch = false) :
    deliver cfg (run cfg init os).1 ch m = (run cfg init os).1 := by
  have h := (inv_run cfg os inv_init hk).2
  have := h.used ch
  rw [hu] at this
  have hn : (run cfg init os).1.channels.get ch = none := by
    cases hc : (run cfg init os).1.channels.get ch with
    | none => rfl
    | some bs => rw [hc] at this; cases this
  simp [deliver, hn]

/-- **C27**: the lock of all channels spreads the problem: when it is held, every cancellation, on whatever channel, blocks
and leaves that channel stuck too. -/
theorem C27_violated_spreads (s : St) (hs : s.held = true) (ch : String) (bs : BS) (hb : s.channels.get ch = some bs)
    (v : Bytes) (hv : (bs.versions.get v).isSome) :
    (cancel s ch v).2 = .blocked ∧ Stuck (cancel s ch v).1 ch := by
  obtain ⟨id, hid⟩ := Option.isSome_iff_exists.mp hv
  unfold cancel
  simp only [hb, hid]
  split
  · rename_i h; exact ⟨rfl, bs, hb, h⟩
  · exact ⟨rfl, _, GoMap.get_put_self _ _ _, rfl⟩

end Verif.Versioning
