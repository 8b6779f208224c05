import Verif.Spec.Versioning

namespace Verif.Versioning

open Spec

theorem used_iff (d : Dir) (ch : String) : d.used ch = true ↔ ∃ v id, d.reg.get (ch, v) = some id := by
  unfold Dir.used
  rw [List.any_eq_true]
  constructor
  · rintro ⟨⟨⟨c, v⟩, id⟩, hm, hc⟩
    simp only [beq_iff_eq] at hc
    subst hc
    have : (c, v) ∈ GoMap.keys d.reg := List.mem_map.mpr ⟨_, hm, rfl⟩
    obtain ⟨id', h⟩ := (GoMap.mem_keys_iff _ _).mp this
    exact ⟨v, id', h⟩
  · rintro ⟨v, id, h⟩
    exact ⟨_, GoMap.mem_of_get h, by simp⟩

/-- Relation between the wrapper and the directory. -/
structure Inv (s : St) (d : Dir) : Prop where
  nheld : s.held = false
  good : ∀ ch bs, s.channels.get ch = some bs →
    bs.held = false ∧ bs.listening = true ∧ bs.versions ≠ []
  reg : ∀ ch v, (s.channels.get ch).bind (fun bs => bs.versions.get v) = d.reg.get (ch, v)
  next : s.nextId = d.next
  inbox : s.inbox = d.inbox
  live : ∀ i c, (i, c) ∈ s.live ↔ ∃ bs, s.channels.get c = some bs ∧ bs.sub = i
  fresh : ∀ i c, (i, c) ∈ s.live → i < s.nextSub
  inj : ∀ i a b, (i, a) ∈ s.live → (i, b) ∈ s.live → a = b
  nodup : (s.live.map (·.2)).Nodup

theorem inv_init : Inv init {} := by
  refine ⟨rfl, ?_, ?_, rfl, rfl, ?_, ?_, ?_, ?_⟩ <;> simp [init]

theorem Inv.used {s : St} {d : Dir} (h : Inv s d) (ch : String) :
    d.used ch = (s.channels.get ch).isSome := by
  rw [Bool.eq_iff_iff, used_iff, Option.isSome_iff_exists]
  constructor
  · rintro ⟨v, id, hg⟩
    rw [← h.reg] at hg
    cases hc : s.channels.get ch with
    | none => rw [hc] at hg; cases hg
    | some bs => exact ⟨bs, rfl⟩
  · rintro ⟨bs, hc⟩
    obtain ⟨_, _, hv⟩ := h.good ch bs hc
    match hv' : bs.versions with
    | [] => exact absurd hv' hv
    | (k, x) :: t =>
      refine ⟨k, x, ?_⟩
      rw [← h.reg, hc]
      simp [hv']

theorem Inv.onePer {s : St} {d : Dir} (h : Inv s d) : OnePerUsedChannel d s.live := by
  refine ⟨h.nodup, fun ch => ?_⟩
  rw [h.used ch, Option.isSome_iff_exists, List.mem_map]
  constructor
  · rintro ⟨⟨i, c⟩, hm, rfl⟩
    obtain ⟨bs, hb, _⟩ := (h.live i c).mp hm
    exact ⟨bs, hb⟩
  · rintro ⟨bs, hb⟩
    exact ⟨(bs.sub, ch), (h.live _ _).mpr ⟨bs, hb, rfl⟩, rfl⟩

theorem inv_subscribe {s : St} {d : Dir} (h : Inv s d) (ch : String) (ver : Option Bytes) (ok : Bool) :
    (subscribe s ch ver ok).2 = (Spec.subscribe d ch ver ok).2 ∧
      Inv (subscribe s ch ver ok).1 (Spec.subscribe d ch ver ok).1 := by
  unfold subscribe Spec.subscribe
  cases ver with
  | none => exact ⟨rfl, h⟩
  | some v =>
    by_cases hv : v = []
    · simp only [hv, if_true]; exact ⟨trivial, h⟩
    · simp only [hv, if_false, h.nheld, Bool.false_eq_true]
      rw [h.used ch, ← h.reg ch v]
      cases hc : s.channels.get ch with
      | none =>
        simp only [Option.bind_none, Option.isSome_none, Bool.false_eq_true, if_false, Bool.not_false,
          Bool.true_and]
        cases ok with
        | false => simp only [Bool.false_eq_true, if_false, Bool.not_false, if_true]; exact ⟨trivial, h⟩
        | true =>
          simp only [if_true, Bool.not_true, Bool.false_eq_true, if_false]
          refine ⟨by rw [h.next], rfl, ?_, ?_, ?_, h.inbox, ?_, ?_, ?_, ?_⟩
          · intro c bs hb
            simp only [GoMap.get_put] at hb
            split at hb
            · cases hb; exact ⟨rfl, rfl, by simp [GoMap.put]⟩
            · exact h.good c bs hb
          · intro c w
            simp only [GoMap.get_put, Prod.mk.injEq]
            by_cases hcc : ch = c
            · subst hcc
              simp only [if_true, Option.bind_some, GoMap.get_put, true_and, GoMap.get_nil]
              by_cases hw : v = w
              · simp [hw, h.next]
              · simp only [hw, if_false]
                have := h.reg ch w
                rw [hc] at this; exact this
            · simp only [hcc, if_false, false_and]; exact h.reg c w
          · simp only [h.next]
          · intro i c
            simp only [List.mem_append, List.mem_singleton, Prod.mk.injEq, GoMap.get_put]
            by_cases hcc : ch = c
            · subst hcc
              simp only [if_true, and_true, Option.some.injEq, exists_eq_left']
              constructor
              · rintro (h1 | h1)
                · obtain ⟨bs, hb, _⟩ := (h.live i ch).mp h1
                  rw [hc] at hb; cases hb
                · exact h1.symm
              · intro h1; exact Or.inr h1.symm
            · have : ¬ c = ch := fun h => hcc h.symm
              simp only [hcc, this, if_false, and_false, or_false]
              exact h.live i c
          · intro i c hm
            simp only [List.mem_append, List.mem_singleton, Prod.mk.injEq] at hm
            rcases hm with hm | hm
            · have := h.fresh i c hm; simp only; omega
            · simp only; omega
          · intro i a b ha hb
            simp only [List.mem_append, List.mem_singleton, Prod.mk.injEq] at ha hb
            rcases ha with ha | ha <;> rcases hb with hb | hb
            · exact h.inj i a b ha hb
            · have := h.fresh i a ha; omega
            · have := h.fresh i b hb; omega
            · rw [ha.2, hb.2]
          · simp only [List.map_append, List.map_cons, List.map_nil]
            rw [List.nodup_append]
            refine ⟨h.nodup, by simp, ?_⟩
            intro x hx y hy
            simp only [List.mem_singleton] at hy
            subst hy
            rintro rfl
            obtain ⟨⟨i, c⟩, hm, rfl⟩ := List.mem_map.mp hx
            obtain ⟨bs, hb, _⟩ := (h.live i c).mp hm
            rw [hc] at hb; cases hb
      | some bs =>
        obtain ⟨hg1, hg2, hg3⟩ := h.good ch bs hc
        simp only [hg1, Bool.false_eq_true, if_false, Option.bind_some, Option.isSome_some,
          Bool.not_true, Bool.false_and]
        cases hb : bs.versions.get v with
        | some id => simp only [Option.isSome_some, if_true]; exact ⟨trivial, h⟩
        | none =>
          simp only [Option.isSome_none, Bool.false_eq_true, if_false]
          refine ⟨by rw [h.next], rfl, ?_, ?_, ?_, h.inbox, ?_, h.fresh, h.inj, h.nodup⟩
          · intro c bs' hb'
            simp only [GoMap.get_put] at hb'
            split at hb'
            · cases hb'; exact ⟨rfl, hg2, by simp [GoMap.put]⟩
            · exact h.good c bs' hb'
          · intro c w
            simp only [GoMap.get_put, Prod.mk.injEq]
            by_cases hcc : ch = c
            · subst hcc
              simp only [if_true, Option.bind_some, GoMap.get_put, true_and]
              by_cases hw : v = w
              · simp [hw, h.next]
              · simp only [hw, if_false]
                have := h.reg ch w
                rw [hc] at this; exact this
            · simp only [hcc, if_false, false_and]; exact h.reg c w
          · simp only [h.next]
          · intro i c
            rw [h.live i c]
            simp only [GoMap.get_put]
            by_cases hcc : ch = c
            · subst hcc; simp [hc]
            · simp [hcc]

theorem inv_cancel {s : St} {d : Dir} (h : Inv s d) (ch : String) (v : Bytes) :
    (cancel s ch v).2 = .done ∧ Inv (cancel s ch v).1 { d with reg := d.reg.del (ch, v) } := by
  have hnone : (s.channels.get ch).bind (fun bs => bs.versions.get v) = none →
      Inv s { d with reg := d.reg.del (ch, v) } := by
    intro hn
    refine ⟨h.nheld, h.good, ?_, h.next, h.inbox, h.live, h.fresh, h.inj, h.nodup⟩
    intro c w
    simp only [GoMap.get_del, Prod.mk.injEq]
    by_cases hcw : ch = c ∧ v = w
    · obtain ⟨rfl, rfl⟩ := hcw
      simp [hn]
    · simp only [hcw, if_false]; exact h.reg c w
  unfold cancel
  cases hc : s.channels.get ch with
  | none => exact ⟨rfl, hnone (by rw [hc]; rfl)⟩
  | some bs =>
    cases hb : bs.versions.get v with
    | none => exact ⟨by simp [hb], by simp only [hb]; exact hnone (by rw [hc]; exact hb)⟩
    | some id =>
      obtain ⟨hg1, hg2, hg3⟩ := h.good ch bs hc
      simp only [hb, hg1, Bool.false_eq_true, if_false, h.nheld]
      by_cases hl : (bs.versions.del v).length > 0
      · simp only [hl, if_true]
        refine ⟨trivial, rfl, ?_, ?_, h.next, h.inbox, ?_, h.fresh, h.inj, h.nodup⟩
        · intro c bs' hb'
          simp only [GoMap.get_put] at hb'
          split at hb'
          · cases hb'
            exact ⟨rfl, hg2, fun he => by simp only at he; rw [he] at hl; simp at hl⟩
          · exact h.good c bs' hb'
        · intro c w
          simp only [GoMap.get_put, GoMap.get_del, Prod.mk.injEq]
          by_cases hcc : ch = c
          · subst hcc
            simp only [if_true, Option.bind_some, GoMap.get_del, true_and]
            by_cases hw : v = w
            · simp [hw]
            · simp only [hw, if_false]
              have := h.reg ch w
              rw [hc] at this; exact this
          · simp only [hcc, if_false, false_and]; exact h.reg c w
        · intro i c
          rw [h.live i c]
          simp only [GoMap.get_put]
          by_cases hcc : ch = c
          · subst hcc; simp [hc]
          · simp [hcc]
      · have hnil : bs.versions.del v = [] := by
          match hd : bs.versions.del v with
          | [] => rfl
          | _ :: _ => rw [hd] at hl; simp at hl
        simp only [hl, if_false]
        refine ⟨trivial, rfl, ?_, ?_, h.next, h.inbox, ?_, ?_, ?_, ?_⟩
        · intro c bs' hb'
          simp only [GoMap.get_del] at hb'
          split at hb'
          · cases hb'
          · exact h.good c bs' hb'
        · intro c w
          simp only [GoMap.get_del, Prod.mk.injEq]
          by_cases hcc : ch = c
          · subst hcc
            simp only [if_true, Option.bind_none, true_and]
            by_cases hw : v = w
            · simp [hw]
            · simp only [hw, if_false]
              have h1 := h.reg ch w
              rw [hc] at h1
              simp only [Option.bind_some] at h1
              rw [← h1]
              have h2 := GoMap.get_del bs.versions v w
              rw [hnil] at h2
              simpa [hw] using h2
          · simp only [hcc, if_false, false_and]; exact h.reg c w
        · intro i c
          simp only [List.mem_filter, Bool.not_eq_true', decide_eq_false_iff_not, GoMap.get_del]
          by_cases hcc : ch = c
          · subst hcc
            simp only [if_true, reduceCtorEq, false_and, exists_false, iff_false, not_and]
            intro hm
            obtain ⟨bs', hb', hi⟩ := (h.live i ch).mp hm
            rw [hc] at hb'; cases hb'; exact fun hn => hn hi.symm
          · simp only [hcc, if_false]
            rw [h.live i c]
            constructor
            · exact fun hx => hx.1
            · intro hx
              refine ⟨hx, ?_⟩
              rintro rfl
              have h1 := (h.live bs.sub c).mpr hx
              have h2 := (h.live bs.sub ch).mpr ⟨bs, hc, rfl⟩
              exact hcc (h.inj _ _ _ h2 h1)
        · intro i c hm
          exact h.fresh i c (List.mem_filter.mp hm).1
        · intro i a b ha hb
          exact h.inj i a b (List.mem_filter.mp ha).1 (List.mem_filter.mp hb).1
        · exact h.nodup.sublist (List.Sublist.map _ List.filter_sublist)

theorem versionOf_eq (cfg : Cfg) (m : BrokerMessage) : versionOf cfg m = Spec.version cfg m := by
  unfold versionOf Spec.version
  cases m.headers.bind (fun h => h.get cfg.headerKey) with
  | none => rfl
  | some v => cases v <;> simp [Option.filter]

theorem version_iff (cfg : Cfg) (m : BrokerMessage) (v : Bytes) :
    Spec.version cfg m = some v ↔ Spec.IsVersion cfg m v := by
  unfold Spec.version
  constructor
  · intro h
    cases hh : m.headers with
    | none => rw [hh] at h; exact .default h (fun h w e => by rw [hh] at e; cases e)
    | some hs =>
      rw [hh] at h
      cases hg : hs.get cfg.headerKey with
      | none =>
        simp [hg] at h
        exact .default h (fun h' w e e' => by rw [hh] at e; cases e; rw [hg] at e'; cases e')
      | some w =>
        cases w with
        | nil =>
          simp [hg, Option.filter] at h
          exact .default h (fun h' w e e' => by rw [hh] at e; cases e; rw [hg] at e'; cases e'; rfl)
        | cons b bs =>
          simp [hg, Option.filter] at h
          subst h
          exact .named hh hg (by simp)
  · intro h
    cases h with
    | named hh hg hv =>
      cases v with
      | nil => exact absurd rfl hv
      | cons b bs => simp [hh, hg, Option.filter]
    | default hd hn =>
      cases hh : m.headers with
      | none => simp [hd, Option.filter]
      | some hs =>
        cases hg : hs.get cfg.headerKey with
        | none => simp [hg, hd, Option.filter]
        | some w => have := hn hs w hh hg; subst this; simp [hg, hd, Option.filter]

theorem inv_deliver {s : St} {d : Dir} (h : Inv s d) (cfg : Cfg) (ch : String) (m : BrokerMessage)
    (hk : d.used ch = true → ∀ v, Spec.IsVersion cfg m v → (d.reg.get (ch, v)).isSome) :
    Inv (deliver cfg s ch m) (Spec.deliver cfg d ch m) := by
  unfold deliver Spec.deliver
  rw [versionOf_eq]
  cases hv : Spec.version cfg m with
  | none =>
    cases hc : s.channels.get ch with
    | none => exact h
    | some bs => simp only; split <;> exact h
  | some v =>
    simp only
    rw [← h.reg ch v]
    cases hc : s.channels.get ch with
    | none => exact h
    | some bs =>
      obtain ⟨hg1, hg2, hg3⟩ := h.good ch bs hc
      have hs := hk (by rw [h.used ch, hc]; rfl) v ((version_iff cfg m v).1 hv)
      rw [← h.reg ch v, hc] at hs
      simp only [Option.bind_some] at hs
      obtain ⟨id, hid⟩ := Option.isSome_iff_exists.mp hs
      simp only [hg1, hg2, Bool.not_true, Bool.false_eq_true, if_false, hid, Option.bind_some]
      exact ⟨h.nheld, h.good, h.reg, h.next, by simp [h.inbox], h.live, h.fresh, h.inj, h.nodup⟩

theorem inv_run (cfg : Cfg) : ∀ (os : List Op) {s : St} {d : Dir}, Inv s d → Known cfg d os →
    (run cfg s os).2 = (Spec.run cfg d os).2 ∧ Inv (run cfg s os).1 (Spec.run cfg d os).1 := by
  intro os
  induction os with
  | nil => intro s d h _; exact ⟨rfl, h⟩
  | cons o os ih =>
    intro s d h hk
    simp only [Known] at hk
    have hstep : (step cfg s o).2 = (Spec.step cfg d o).2 ∧
        Inv (step cfg s o).1 (Spec.step cfg d o).1 := by
      cases o with
      | subscribe ch ver ok => exact inv_subscribe h ch ver ok
      | cancel ch v => exact inv_cancel h ch v
      | deliver ch m => exact ⟨rfl, inv_deliver h cfg ch m hk.1⟩
    have := ih hstep.2 hk.2
    simp only [run, Spec.run]
    exact ⟨by rw [hstep.1, this.1], this.2⟩

end Verif.Versioning
