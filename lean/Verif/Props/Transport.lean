import Verif.Model.Transport

/-! # C33: brokers transport headers and payload unchanged -/

namespace Verif.Transport

/-- Two broker messages a consumer cannot tell apart: same bytes of payload and, for every header name,
the same value or absence. -/
structure SameMessage (a b : BrokerMessage) : Prop where
  payload : bytesOf a.payload = bytesOf b.payload
  headers : ∀ k, (headersOf a).get k = (headersOf b).get k

theorem foldl_set (es : List (String × Bytes)) :
    ∀ (h : GoMap String (List Bytes)),
      es.foldl (fun h e => GoMap.put h e.1 [e.2]) h =
      (es.map (fun e => (e.1, [e.2]))).foldl (fun h e => GoMap.put h e.1 e.2) h := by
  induction es with
  | nil => intro h; rfl
  | cons e es ih => intro h; exact ih _

/-- The header map of the message handed to the client. -/
theorem natsEncode_get (bm : BrokerMessage) (o1 : List (String × Bytes)) (hwf1 : GoMap.WF o1) (k : String) :
    (natsEncode o1 bm).header.get k = (GoMap.get o1 k).map (fun v => [v]) := by
  simp only [natsEncode]
  rw [foldl_set, GoMap.get_foldl_put _ (by exact GoMap.wf_mapVals (fun v => [v]) o1 hwf1)]
  show ((GoMap.get (GoMap.mapVals (fun v => [v]) o1) k).orElse _) = _
  rw [GoMap.get_mapVals]
  simp

theorem natsEncode_wf (bm : BrokerMessage) (o1 : List (String × Bytes)) : GoMap.WF (natsEncode o1 bm).header := by
  simp only [natsEncode]
  rw [foldl_set]
  exact GoMap.wf_ofEntries _

/-- What the receiver makes of headers with one value each. -/
theorem natsDecode_get : ∀ (es : List (String × List Bytes)) (h : GoMap String Bytes), GoMap.WF es →
    (∀ e ∈ es, ∃ v, e.2 = [v]) → ∀ k,
    (es.foldl putFirst h).get k =
    ((GoMap.get es k).bind (fun vs => vs.head?)).orElse (fun _ => h.get k) := by
  intro es
  induction es with
  | nil => intro h _ _ k; simp
  | cons e es ih =>
    intro h hw hs k
    obtain ⟨a, b⟩ := e
    rw [GoMap.wf_cons] at hw
    obtain ⟨v, hv⟩ := hs (a, b) (by simp)
    simp only at hv
    subst hv
    simp only [List.foldl_cons, putFirst]
    rw [ih _ hw.2 (fun e he => hs e (List.mem_cons_of_mem _ he)) k]
    simp only [GoMap.get_put, GoMap.get_cons]
    by_cases hk : a = k
    · subst hk
      rw [(GoMap.get_eq_none_iff es a).mpr hw.1]
      simp
    · simp [hk]

/-- A map whose values are all single. -/
theorem single_of_get (o2 : List (String × List Bytes)) (hwf2 : GoMap.WF o2) (f : String → Option Bytes)
    (hget2 : ∀ k, GoMap.get o2 k = (f k).map (fun v => [v])) : ∀ e ∈ o2, ∃ v, e.2 = [v] := by
  intro e he
  have := GoMap.get_of_mem hwf2 (k := e.1) (v := e.2) he
  rw [hget2] at this
  cases hg : f e.1 with
  | none => rw [hg] at this; cases this
  | some v => rw [hg] at this; exact ⟨v, by simpa using this.symm⟩

/-- **C33** (NATS and JetStream). For every message, every order in which its headers are iterated when
published and every order in which the received ones are. -/
theorem C33_nats_transports_unchanged (bm : BrokerMessage) (hwf : (headersOf bm).WF)
    (o1 : List (String × Bytes)) (h1 : o1.Perm (headersOf bm))
    (o2 : List (String × List Bytes)) (h2 : o2.Perm (natsEncode o1 bm).header) :
    SameMessage (natsDecode o2 (natsEncode o1 bm)) bm := by
  refine ⟨rfl, ?_⟩
  intro k
  have hwf1 : GoMap.WF o1 := GoMap.wf_perm h1.symm hwf
  have hwf2 : GoMap.WF o2 := GoMap.wf_perm h2.symm (natsEncode_wf bm o1)
  have hget2 : ∀ k, GoMap.get o2 k = (GoMap.get o1 k).map (fun v => [v]) := by
    intro k; rw [← natsEncode_get bm o1 hwf1 k]; exact GoMap.get_perm h2 hwf2 k
  show GoMap.get (o2.foldl putFirst []) k = _
  rw [natsDecode_get o2 [] hwf2 (single_of_get o2 hwf2 _ hget2) k, hget2, GoMap.get_perm h1 hwf1 k]
  cases (headersOf bm).get k <;> simp

/-- **C33** (Kafka). For every message and every order in which its headers are iterated when
published. -/
theorem C33_kafka_transports_unchanged (bm : BrokerMessage) (hwf : (headersOf bm).WF)
    (o1 : List (String × Bytes)) (h1 : o1.Perm (headersOf bm)) :
    SameMessage (kafkaDecode (kafkaEncode o1 bm)) bm := by
  refine ⟨rfl, ?_⟩
  intro k
  have hwf1 : GoMap.WF o1 := GoMap.wf_perm h1.symm hwf
  have happ : ∀ (es acc : List (String × Bytes)),
      es.foldl (fun hs e => hs ++ [(e.1, e.2)]) acc = acc ++ es := by
    intro es
    induction es with
    | nil => intro acc; simp
    | cons e es ih => intro acc; simp [ih]
  show GoMap.get ((kafkaEncode o1 bm).headers.foldl (fun h e => h.put e.1 e.2) []) k = _
  simp only [kafkaEncode, happ, List.nil_append]
  rw [GoMap.get_foldl_put o1 hwf1, GoMap.get_perm h1 hwf1 k]
  simp

/-- Non-vacuity: two headers, iterated in the other order. -/
example : SameMessage (natsDecode [("a", [[1]]), ("b", [[2]])]
    (natsEncode [("a", [1]), ("b", [2])] ⟨some [("b", [2]), ("a", [1])], some [7]⟩))
    ⟨some [("b", [2]), ("a", [1])], some [7]⟩ :=
  C33_nats_transports_unchanged _ (by simp [headersOf, GoMap.WF, GoMap.keys]) _ (List.Perm.swap _ _ _) _
    (by simp only [natsEncode]; exact List.Perm.swap _ _ _)

end Verif.Transport
