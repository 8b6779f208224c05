import Verif.Model.ChanRef

/-!
# C125: a channel given by reference gives the functions of the channel it stands for
-/

namespace Verif.ChanRef

/-! ## Specification -/

/-- The entry a reference names. -/
inductive Points (d : Doc) : Target → Chan → Prop
  | top {k : Str} {c : Chan} (h : d.top.get k = some c) : Points d (.top k) c
  | comp {k : Str} {c : Chan} (h : d.comps.get k = some c) : Points d (.comp k) c

/-- What a channel stands for, along references of any number. -/
inductive Stands (d : Doc) : Chan → Chan → Prop
  | here {c : Chan} (h : c.ref = none) : Stands d c c
  | there {c m e : Chan} {t : Target} (h : c.ref = some t) (hl : Points d t m) (hs : Stands d m e) : Stands d c e

/-- The channel has parameters. -/
def Chan.hasParams (c : Chan) : Bool :=
  match c.params with
  | some (_ :: _) => true
  | _ => false

/-- The functions that fit a channel. -/
def fitSubscribe (c : Chan) : Fn := ⟨c.hasParams, false, .built c.params.isSome c.address⟩
def fitSend (c : Chan) : Fn :=
  if c.address = [] then ⟨c.hasParams, true, .caller⟩ else fitSubscribe c

/-- The expression of the address uses the parameters given to the function. -/
def Addr.UsesParams : Addr → Prop
  | .built true a => ∃ p, ChannelAddr.Tok.par p ∈ ChannelAddr.tokens none a
  | _ => False

/-- Go compiles the function: it uses parameters only if it has them. -/
def Fn.Compiles (f : Fn) : Prop := f.addr.UsesParams → f.params = true

/-- An entry that is a reference and nothing else. -/
def proxy (t : Target) : Chan := { ref := some t }

/-! ## Theorems -/

theorem truthy_eq (c : Chan) : truthy c.params = c.hasParams := by
  unfold truthy Chan.hasParams
  cases c.params with
  | none => rfl
  | some ks => cases ks <;> rfl

theorem look_of {d : Doc} {t : Target} {c : Chan} (h : Points d t c) : d.look t = some c := by
  cases h with
  | top h => exact h
  | comp h => exact h

theorem points_unique {d : Doc} {t : Target} {c e : Chan} (h : Points d t c) (h' : Points d t e) : c = e :=
  Option.some.inj ((look_of h).symm.trans (look_of h'))

/-- Both readings of what a channel stands for agree: there is at most one. -/
theorem stands_unique {d : Doc} {c e e' : Chan} (h : Stands d c e) (h' : Stands d c e') : e = e' := by
  induction h with
  | here hr =>
    cases h' with
    | here _ => rfl
    | there hr' _ _ => rw [hr] at hr'; cases hr'
  | there hr hl _ ih =>
    cases h' with
    | here hr' => rw [hr] at hr'; cases hr'
    | there hr' hl' hs' =>
      rw [hr] at hr'; cases hr'
      cases points_unique hl hl'
      exact ih hs'

/-- When the operation refers to a channel that is written in place, its functions are those that fit the channel, they are
for the channel the document means, requests listen where replies are sent, and its message is the first of the channel. -/
theorem C125_direct_partial (d : Doc) (t : Target) (c : Chan) (hl : Points d t c) (hc : c.ref = none) :
    Stands d (proxy t) c ∧ subscribeFn d (proxy t) = some (fitSubscribe c) ∧ sendFn d (proxy t) = some (fitSend c) ∧
    requestAddr d (proxy t) = some (fitSubscribe c).addr ∧ replyFn d (proxy t) = some (fitSend c) ∧
    ∀ listed, opMessage d listed (proxy t) = (listed ++ c.messages).head? := by
  have hf : d.follow (proxy t) = some c := look_of hl
  have hcc : d.follow c = some c := by unfold Doc.follow; rw [hc]
  have ha : channelAddr d c = some (.built c.params.isSome c.address) := by unfold channelAddr; rw [hcc]; rfl
  have hpa : channelAddrFromOp d (proxy t) = some (.built c.params.isSome c.address) := by
    unfold channelAddrFromOp; rw [hf]; exact ha
  have hca : channelAddrFromOp d c = some (.built c.params.isSome c.address) := by
    unfold channelAddrFromOp; rw [hcc]; exact ha
  refine ⟨.there rfl hl (.here hc), ?_, ?_, ?_, ?_, ?_⟩
  · unfold subscribeFn; rw [hf, hpa, Option.bind_some, truthy_eq]; rfl
  · unfold sendFn fitSend
    rw [hf, hpa, Option.bind_some, truthy_eq]
    split <;> rfl
  · unfold requestAddr channelAddr; rw [hf]; rfl
  · unfold replyFn sendFn fitSend
    rw [hf, Option.bind_some, hcc, hca, Option.bind_some, truthy_eq]
    split <;> rfl
  · intro listed
    cases listed with
    | cons m r => rfl
    | nil => unfold opMessage chanMessage; simp only; rw [hf]; rfl

/-- The functions that fit a channel compile, if every parameter in its address is declared. -/
theorem C125_fit_compiles (c : Chan) (h : ∀ p, ChannelAddr.Tok.par p ∈ ChannelAddr.tokens none c.address →
    ∃ ks, c.params = some ks ∧ p ∈ ks) : (fitSubscribe c).Compiles ∧ (fitSend c).Compiles := by
  have hs : (fitSubscribe c).Compiles := by
    intro hu
    unfold fitSubscribe at hu
    cases hp : c.params with
    | none => rw [hp] at hu; cases hu
    | some ks =>
      rw [hp] at hu
      obtain ⟨p, hm⟩ := hu
      obtain ⟨ks', hk, hin⟩ := h p hm
      unfold fitSubscribe Chan.hasParams
      rw [hk]
      cases ks' with
      | nil => cases hin
      | cons a r => rfl
  refine ⟨hs, ?_⟩
  unfold fitSend
  split
  · intro hu; cases hu
  · exact hs

section second
variable (d : Doc) (t u : Target) (c : Chan) (hl : Points d t (proxy u)) (hu : Points d u c)
include hl hu

/-- Behind a second reference, subscriptions still use the address of the channel that is meant, but never have
parameters: they are right exactly when the channel has none. -/
theorem C125_second_subscribe_partial (hc : c.ref = none) :
    Stands d (proxy t) c ∧ subscribeFn d (proxy t) = some ⟨false, false, (fitSubscribe c).addr⟩ ∧
    (subscribeFn d (proxy t) = some (fitSubscribe c) ↔ c.hasParams = false) := by
  have hf : d.follow (proxy t) = some (proxy u) := look_of hl
  have hg : d.follow (proxy u) = some c := look_of hu
  have hs : subscribeFn d (proxy t) = some ⟨false, false, (fitSubscribe c).addr⟩ := by
    unfold subscribeFn channelAddrFromOp channelAddr
    rw [hf, Option.bind_some, Option.bind_some, hg]
    rfl
  refine ⟨.there rfl hl (.there rfl hu (.here hc)), hs, ?_⟩
  rw [hs]
  constructor
  · intro h
    exact (congrArg Fn.params (Option.some.inj h)).symm
  · intro h
    unfold fitSubscribe
    rw [h]

/-- **Violated**: behind a second reference, `Send…` asks its caller for the address, whatever address the channel has. -/
theorem C125_violated_send (hc : c.ref = none) : Stands d (proxy t) c ∧ sendFn d (proxy t) = some ⟨false, true, .caller⟩ ∧
    (c.address ≠ [] → sendFn d (proxy t) ≠ some (fitSend c)) := by
  have hf : d.follow (proxy t) = some (proxy u) := look_of hl
  have hs : sendFn d (proxy t) = some ⟨false, true, .caller⟩ := by
    unfold sendFn; rw [hf]; rfl
  refine ⟨.there rfl hl (.there rfl hu (.here hc)), hs, fun ha => ?_⟩
  rw [hs]
  unfold fitSend fitSubscribe
  rw [if_neg ha]
  intro h
  cases congrArg Fn.chanAddr (Option.some.inj h)

/-- **Violated**: behind a second reference, a request listens on the empty address, and its reply is sent on the address
of the channel. -/
theorem C125_violated_request (hc : c.ref = none) (ha : c.address ≠ []) :
    requestAddr d (proxy t) = some (.built false []) ∧ replyFn d (proxy t) = some (fitSubscribe c) := by
  have hf : d.follow (proxy t) = some (proxy u) := look_of hl
  have hg : d.follow (proxy u) = some c := look_of hu
  have hcc : d.follow c = some c := by unfold Doc.follow; rw [hc]
  constructor
  · unfold requestAddr channelAddr; rw [hf]; rfl
  · unfold replyFn sendFn channelAddrFromOp channelAddr
    rw [hf, Option.bind_some, hg, Option.bind_some, if_neg ha, Option.bind_some, hcc, truthy_eq]
    rfl

/-- **Violated**: behind a second reference, the subscription to a channel with a parameter does not compile. -/
theorem C125_violated_params (hp : c.params.isSome = true)
    (hm : ∃ p, ChannelAddr.Tok.par p ∈ ChannelAddr.tokens none c.address) :
    ∃ f, subscribeFn d (proxy t) = some f ∧ ¬ f.Compiles := by
  have hf : d.follow (proxy t) = some (proxy u) := look_of hl
  have hg : d.follow (proxy u) = some c := look_of hu
  refine ⟨⟨false, false, .built c.params.isSome c.address⟩, ?_, ?_⟩
  · unfold subscribeFn channelAddrFromOp channelAddr
    rw [hf, Option.bind_some, Option.bind_some, hg]
    rfl
  · intro h
    have := h (by rw [hp]; exact hm)
    cases this

/-- **Violated**: behind a second reference, an operation that lists no messages makes the generation fail, whatever
messages the channel has; by AsyncAPI it is for all of them. -/
theorem C125_violated_messages : opMessage d [] (proxy t) = none ∧ c.messages.head? = chanMessage d (proxy u) := by
  have hf : d.follow (proxy t) = some (proxy u) := look_of hl
  have hg : d.follow (proxy u) = some c := look_of hu
  constructor
  · unfold opMessage chanMessage; simp only; rw [hf]; rfl
  · unfold chanMessage; rw [hg]; rfl

end second

/-- **Violated**: behind a third reference, subscriptions use the empty address. -/
theorem C125_violated_third (d : Doc) (t u v : Target) (c : Chan) (hl : Points d t (proxy u))
    (hu : Points d u (proxy v)) (hv : Points d v c) (hc : c.ref = none) :
    Stands d (proxy t) c ∧ subscribeFn d (proxy t) = some ⟨false, false, .built false []⟩ := by
  have hf : d.follow (proxy t) = some (proxy u) := look_of hl
  have hg : d.follow (proxy u) = some (proxy v) := look_of hu
  refine ⟨.there rfl hl (.there rfl hu (.there rfl hv (.here hc))), ?_⟩
  unfold subscribeFn channelAddrFromOp channelAddr
  rw [hf, Option.bind_some, Option.bind_some, hg]
  rfl

/-! ## Non-vacuity -/

/-- `channels: {ping: {$ref: '#/components/channels/ping'}, pong: {address: pong}}` -/
def exDoc : Doc where
  top := [("ping".toList, proxy (.comp "ping".toList)), ("pong".toList, { address := "pong".toList, messages := ["Pong".toList] })]
  comps := [("ping".toList, { address := "rooms/{id}".toList, params := some ["id".toList], messages := ["Ping".toList] })]

example : Points exDoc (.top "ping".toList) (proxy (.comp "ping".toList)) ∧
    (∃ c, Points exDoc (.comp "ping".toList) c ∧ c.ref = none ∧ c.address = "rooms/{id}".toList) ∧
    (∃ c, Points exDoc (.top "pong".toList) c ∧ c.ref = none) :=
  ⟨.top (by decide), ⟨_, .comp (by rfl), rfl, rfl⟩, ⟨_, .top (by rfl), rfl⟩⟩

example : ∃ p, ChannelAddr.Tok.par p ∈ ChannelAddr.tokens none "rooms/{id}".toList := ⟨"id".toList, by decide⟩

end Verif.ChanRef
