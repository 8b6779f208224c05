import Verif.Base.Str
import Verif.Base.GoMap
import Verif.Model.Decode

/-!
# Processing a document of version 3, with nil pointers

Models `Process` of pkg/asyncapi/v3 (`generateMetadata`, then `setDependencies`, with `MergeWith` and `ApplyTrait`) and the
part of the generator that runs outside of templates (`CustomImports`, `NewActionOperations`), for documents as they are
decoded: wherever Go has a pointer there may be nil (`null` in the document, or nothing). Dereferencing nil and indexing
beyond the end of a slice panic.

Objects live on a heap. The calls are nested at most so deep as a bound says; `Bad.deep` is the outcome when that is not
enough (see C99 for when it is).

Simplifications. Elements that have nothing but references to resolve and whose methods all start with a nil check are lists
of references (`Leaf`): servers, server variables, bindings, external documentation, parameters, examples, correlation IDs of
the components. Names, texts and constraints are left out, except the names of tags and security schemes, which are those
`generateMetadata` gives. Panics inside of templates are left out: text/template turns them into errors
(`safeCall` in text/template/funcs.go). A conflict of custom imports (C57) is left out: it ends the run with an error.
-/

namespace Verif.Panics

/-- A Go pointer: `none` is nil. -/
abbrev Ptr := Option Nat

/-- The Go types that references lead to. -/
inductive Ty
  | schema | message | channel | operation | reply | address | messageTrait | operationTrait
  | other (kind : Str)
  deriving DecidableEq, Repr

/-- References to resolve, in order, with the type of their targets. -/
abbrev Leaf := List (Ty × Str)

/-- A tag (v3/tag.go:6-17) or a security scheme (v3/security_scheme.go:34-51). -/
structure Named where
  name : Str
  leaf : Leaf := []
  deriving DecidableEq, Repr

/-- v3/schema.go:30-66 -/
structure Sch where
  type : Str := []
  ref : Str := []
  refTo : Ptr := none
  props : GoMap Str Ptr := []
  patternProps : GoMap Str Ptr := []
  additionalProps : Ptr := none
  additionalItems : List Ptr := []
  items : Ptr := none
  contains : List Ptr := []
  anyOf : List Ptr := []
  oneOf : List Ptr := []
  allOf : List Ptr := []
  not : Ptr := none
  deriving DecidableEq, Repr

/-- v3/message.go:28-63. `leaf` has external documentation, bindings and examples; `corr` is the location of the
correlation ID. -/
structure Msg where
  ref : Str := []
  refTo : Ptr := none
  payload : Ptr := none
  headers : Ptr := none
  oneOf : List Ptr := []
  tags : List (Option Named) := []
  leaf : Leaf := []
  traits : List Ptr := []
  corr : Option Str := none
  deriving DecidableEq, Repr

/-- v3/message_trait.go:8-31 -/
structure MTrait where
  ref : Str := []
  refTo : Ptr := none
  headers : Ptr := none
  payload : Ptr := none
  tags : List (Option Named) := []
  leaf : Leaf := []
  corr : Option Str := none
  deriving DecidableEq, Repr

/-- v3/operation_trait.go:6-22 -/
structure OTrait where
  ref : Str := []
  refTo : Ptr := none
  security : List (Option Named) := []
  tags : List (Option Named) := []
  leaf : Leaf := []
  deriving DecidableEq, Repr

/-- v3/channel.go:21-41; `leaf` has servers, parameters, tags, external documentation and bindings. -/
structure Chan where
  ref : Str := []
  refTo : Ptr := none
  messages : GoMap Str Ptr := []
  leaf : Leaf := []
  deriving DecidableEq, Repr

/-- v3/operation.go:25-49; `leaf` has external documentation and bindings. -/
structure Op where
  ref : Str := []
  refTo : Ptr := none
  channel : Ptr := none
  security : List (Option Named) := []
  tags : List (Option Named) := []
  leaf : Leaf := []
  traits : List Ptr := []
  messages : List Ptr := []
  reply : Ptr := none
  deriving DecidableEq, Repr

/-- v3/operation_reply.go:6-18 -/
structure Reply where
  ref : Str := []
  refTo : Ptr := none
  channel : Ptr := none
  messages : List Ptr := []
  address : Ptr := none
  deriving DecidableEq, Repr

/-- v3/operation_reply_address.go:8-22 -/
structure Addr where
  ref : Str := []
  refTo : Ptr := none
  location : Str := []
  deriving DecidableEq, Repr

/-- The heap. `next` is the next free address for schemas; `tick` counts the loops over maps. -/
structure Heap where
  schemas : Nat → Sch := fun _ => {}
  messages : Nat → Msg := fun _ => {}
  messageTraits : Nat → MTrait := fun _ => {}
  operationTraits : Nat → OTrait := fun _ => {}
  channels : Nat → Chan := fun _ => {}
  operations : Nat → Op := fun _ => {}
  replies : Nat → Reply := fun _ => {}
  addresses : Nat → Addr := fun _ => {}
  next : Nat := 0
  tick : Nat := 0

/-- What is at the root of a document and in its components (v3/specification.go:23-41, v3/components.go:6-30).
`others` has, for each other kind of component, the names with the references below (`none`: null). -/
structure Roots where
  channels : GoMap Str Ptr := []
  operations : GoMap Str Ptr := []
  rest : Leaf := []
  schemas : GoMap Str Ptr := []
  messages : GoMap Str Ptr := []
  compChannels : GoMap Str Ptr := []
  compOperations : GoMap Str Ptr := []
  messageTraits : GoMap Str Ptr := []
  operationTraits : GoMap Str Ptr := []
  replies : GoMap Str Ptr := []
  addresses : GoMap Str Ptr := []
  others : Str → GoMap Str (Option Leaf) := fun _ => []

/-- A document: its roots, and those of the files given as dependencies, under their paths without `./`. -/
structure Doc where
  main : Roots := {}
  deps : GoMap Str Roots := []

/-- How a run ends without result. -/
inductive Bad
  | err
  | panic
  | deep
  deriving DecidableEq, Repr

/-- Computations on the heap. -/
abbrev M := StateT Heap (Except Bad)

def panic {α : Type} : M α := fun _ => .error .panic
def fail {α : Type} : M α := fun _ => .error .err
def tooDeep {α : Type} : M α := fun _ => .error .deep

/-- Dereferencing. -/
def deref : Ptr → M Nat
  | none => panic
  | some a => pure a

/-- Reading and writing objects. -/
def sch (a : Nat) : M Sch := fun h => .ok (h.schemas a, h)
def msg (a : Nat) : M Msg := fun h => .ok (h.messages a, h)
def messageTrait (a : Nat) : M MTrait := fun h => .ok (h.messageTraits a, h)
def operationTrait (a : Nat) : M OTrait := fun h => .ok (h.operationTraits a, h)
def channel (a : Nat) : M Chan := fun h => .ok (h.channels a, h)
def operation (a : Nat) : M Op := fun h => .ok (h.operations a, h)
def reply (a : Nat) : M Reply := fun h => .ok (h.replies a, h)
def address (a : Nat) : M Addr := fun h => .ok (h.addresses a, h)

/-- A function changed at one place. -/
def upd {α : Type} (f : Nat → α) (a : Nat) (x : α) : Nat → α := fun b => if b = a then x else f b

def setSch (a : Nat) (s : Sch) : M Unit := fun h => .ok ((), { h with schemas := upd h.schemas a s })
def setMsg (a : Nat) (m : Msg) : M Unit := fun h => .ok ((), { h with messages := upd h.messages a m })
def setOp (a : Nat) (o : Op) : M Unit := fun h => .ok ((), { h with operations := upd h.operations a o })

/-- `&Schema{…}` -/
def alloc (s : Sch) : M Nat := fun h =>
  .ok (h.next, { h with schemas := upd h.schemas h.next s, next := h.next + 1 })

/-- `ReferenceTo = refTo`, for the objects that nothing else changes. -/
def linkMTrait (a t : Nat) : M Unit := fun h =>
  .ok ((), { h with messageTraits := upd h.messageTraits a { h.messageTraits a with refTo := some t } })
def linkOTrait (a t : Nat) : M Unit := fun h =>
  .ok ((), { h with operationTraits := upd h.operationTraits a { h.operationTraits a with refTo := some t } })
def linkChannel (a t : Nat) : M Unit := fun h =>
  .ok ((), { h with channels := upd h.channels a { h.channels a with refTo := some t } })
def linkReply (a t : Nat) : M Unit := fun h =>
  .ok ((), { h with replies := upd h.replies a { h.replies a with refTo := some t } })
def linkAddress (a t : Nat) : M Unit := fun h =>
  .ok ((), { h with addresses := upd h.addresses a { h.addresses a with refTo := some t } })

/-- The order in which Go ranges over a map, the `n`-th time it does. -/
structure Order where
  order : {α : Type} → Nat → List α → List α

/-- The entries of a map in the order of one loop. -/
def ranged {α : Type} (o : Order) (l : List α) : M (List α) := fun h =>
  .ok (o.order h.tick l, { h with tick := h.tick + 1 })

/-- `for _, x := range l { if err := f(x); err != nil { return err } }` -/
def each {α : Type} (f : α → M Unit) : List α → M Unit
  | [] => pure ()
  | x :: xs => do
    f x
    each f xs

/-- The same over a map. -/
def eachOf (o : Order) (f : Ptr → M Unit) (m : GoMap Str Ptr) : M Unit := do
  let l ← ranged o m
  each (fun e => f e.2) l

/-- `m[k]`: nil if absent. -/
def at' (m : GoMap Str Ptr) (k : Str) : Ptr :=
  match m.get k with
  | some p => p
  | none => none

/-! ## References -/

/-- `(*Schema).referenceFrom` (v3/schema.go:311-317) -/
def schemaFrom : Ptr → List Str → M Ptr
  | p, [] => pure p
  | p, k :: ks => do
    let a ← deref p
    let s ← sch a
    schemaFrom (at' s.props k) ks

/-- `(*Message).referenceFrom` (v3/message.go:385-398) -/
def messageFrom (p : Ptr) : List Str → M (Ty × Ptr)
  | [] => pure (.message, p)
  | k :: ks =>
    if k = key! "payload" then do
      let a ← deref p
      let m ← msg a
      let r ← schemaFrom m.payload ks
      pure (.schema, r)
    else if k = key! "header" then do
      let a ← deref p
      let m ← msg a
      let r ← schemaFrom m.headers ks
      pure (.schema, r)
    else do
      let r ← schemaFrom none ks
      pure (.schema, r)

/-- Component kinds whose elements are leaves. -/
def leafKinds : List Str := [key! "servers", key! "securitySchemes", key! "serverVariables", key! "parameters",
  key! "correlationIds", key! "externalDocs", key! "tags", key! "serverBindings", key! "channelBindings",
  key! "operationBindings", key! "messageBindings"]

/-- The other component kinds that references return as they are. -/
def nodeKind (r : Roots) (k : Str) : Option (Ty × GoMap Str Ptr) :=
  if k = key! "channels" then some (.channel, r.compChannels)
  else if k = key! "operations" then some (.operation, r.compOperations)
  else if k = key! "replies" then some (.reply, r.replies)
  else if k = key! "replyAddresses" then some (.address, r.addresses)
  else if k = key! "operationTraits" then some (.operationTrait, r.operationTraits)
  else if k = key! "messageTraits" then some (.messageTrait, r.messageTraits)
  else none

/-- A leaf as a pointer: only whether it is nil matters. -/
def leafPtr (m : GoMap Str (Option Leaf)) (n : Str) : Ptr :=
  match m.get n with
  | some (some _) => some 0
  | _ => none

/-- The cases of `reference` below `components` (v3/specification.go:694-737). -/
def component (r : Roots) : List Str → M (Ty × Ptr)
  | [] => panic
  | k :: rest =>
    if k = key! "schemas" then
      match rest with
      | [] => panic
      | n :: ks => do
        let p ← schemaFrom (at' r.schemas n) ks
        pure (.schema, p)
    else if k = key! "messages" then
      match rest with
      | [] => panic
      | n :: ks => messageFrom (at' r.messages n) ks
    else if k ∈ leafKinds then
      match rest with
      | [] => panic
      | n :: _ => pure (.other k, leafPtr (r.others k) n)
    else
      match nodeKind r k with
      | none => fail
      | some (t, m) =>
        match rest with
        | [] => panic
        | n :: _ => pure (t, at' m n)

/-- The cases of `reference` below `channels` (v3/specification.go:738-748). -/
def channelPart (r : Roots) : List Str → M (Ty × Ptr)
  | [] => panic
  | [n] => pure (.channel, at' r.channels n)
  | n :: k :: rest =>
    if k = key! "messages" then
      match rest with
      | [] => do
        let _ ← deref (at' r.channels n)
        panic
      | m :: ks => do
        let a ← deref (at' r.channels n)
        let c ← channel a
        messageFrom (at' c.messages m) ks
    else fail

/-- The switch of `reference` (v3/specification.go:692-751). -/
def resolve (r : Roots) : List Str → M (Ty × Ptr)
  | [] => panic
  | p0 :: rest =>
    if p0 = key! "components" then component r rest
    else if p0 = key! "channels" then channelPart r rest
    else fail

/-- `strings.TrimPrefix(s, "./")` -/
def trimDot : Str → Str
  | '.' :: '/' :: s => s
  | s => s

/-- `strings.TrimPrefix(s, "/")` -/
def trimSlash : Str → Str
  | '/' :: s => s
  | s => s

/-- `getDependencyBasedOnRef` (v3/specification.go:653-678) -/
def usedSpec (d : Doc) (file : Str) : M Roots :=
  if file = [] then pure d.main
  else match d.deps.get (trimDot file) with
    | some r => pure r
    | none => fail

/-- `reference` (v3/specification.go:681-752) -/
def reference (d : Doc) (ref : Str) : M (Ty × Ptr) :=
  match Str.split '#' ref with
  | [file, path] => do
    let r ← usedSpec d file
    resolve r (Str.split '/' (trimSlash path))
  | _ => fail

/-- The `ReferenceX` functions (v3/specification.go:198-651): the cast, then the nil check. -/
def referenceAs (d : Doc) (t : Ty) (ref : Str) : M Nat := do
  let (t', p) ← reference d ref
  if t' = t then
    match p with
    | none => fail
    | some a => pure a
  else fail

/-- The references of a leaf. -/
def setLeaf (d : Doc) : Leaf → M Unit :=
  each (fun e => if e.2 = [] then pure () else do
    let _ ← referenceAs d e.1 e.2
    pure ())

/-- `setDependencies` of tags and security schemes (v3/tag.go:34-55, v3/security_scheme.go:64-80). -/
def setNamed (d : Doc) : List (Option Named) → M Unit :=
  each (fun e => match e with
    | none => pure ()
    | some t => setLeaf d t.leaf)

/-! ## Merging schemas -/

/-- `Follow().AllOf`, of a schema that may be nil: what `s2.ReferenceTo` adds (v3/schema.go:357-362). -/
def wraps : List Ptr → M (List Ptr)
  | [] => pure []
  | v :: vs => do
    let w ← alloc { refTo := v }
    let ws ← wraps vs
    pure (some w :: ws)

/-- `mergeWithSchemaAllOf` and its like (v3/schema.go:341-411): the list of `s`, that of `s2`, that of the target of
`s2`. -/
def mergeAlternatives (own other : List Ptr) (target : Option (List Ptr)) : M (List Ptr) :=
  match target with
  | none => pure (own ++ other)
  | some l => do
    let ws ← wraps l
    pure (own ++ other ++ ws)

/-- The schema that `s2.ReferenceTo` points to. -/
def targetOf (s2 : Sch) : M (Option Sch) :=
  match s2.refTo with
  | none => pure none
  | some t => do
    let s ← sch t
    pure (some s)

/-- `s.Properties[k] = v` unless it exists (v3/schema.go:424-432). -/
def addOwn (a : Nat) : List (Str × Ptr) → M Unit
  | [] => pure ()
  | (k, v) :: rest => do
    let s ← sch a
    match s.props.get k with
    | some _ => addOwn a rest
    | none => do
      setSch a { s with props := s.props.put k v }
      addOwn a rest

/-- `mergeWithSchemaReferenceProperties` (v3/schema.go:438-469): `v.Type` dereferences `v`. -/
def addReferenced (a : Nat) : List (Str × Ptr) → M Unit
  | [] => pure ()
  | (k, v) :: rest => do
    let s ← sch a
    match s.props.get k with
    | some _ => addReferenced a rest
    | none => do
      let b ← deref v
      let p ← sch b
      if p.type = key! "object" then do
        let w ← alloc { refTo := some b }
        setSch a { s with props := s.props.put k (some w) }
        addReferenced a rest
      else do
        setSch a { s with props := s.props.put k (some b) }
        addReferenced a rest

/-- `MergeWith` (v3/schema.go:321-339); `s2` is a copy. -/
def mergeWith (o : Order) (p : Ptr) (s2 : Sch) : M Unit :=
  match p with
  | none => pure ()
  | some a => do
    let s ← sch a
    setSch a { s with type := key! "object" }
    let t ← targetOf s2
    let s ← sch a
    let l ← mergeAlternatives s.allOf s2.allOf (t.map (·.allOf))
    let s ← sch a
    setSch a { s with allOf := l }
    let t ← targetOf s2
    let s ← sch a
    let l ← mergeAlternatives s.anyOf s2.anyOf (t.map (·.anyOf))
    let s ← sch a
    setSch a { s with anyOf := l }
    let t ← targetOf s2
    let s ← sch a
    let l ← mergeAlternatives s.oneOf s2.oneOf (t.map (·.oneOf))
    let s ← sch a
    setSch a { s with oneOf := l }
    let l ← ranged o s2.props
    addOwn a l
    let t ← targetOf s2
    match t with
    | none => pure ()
    | some t => do
      let l ← ranged o t.props
      addReferenced a l

/-! ## Schemas -/

/-- The schemas directly below a schema, in the order of `generateMetadata` (v3/schema.go:94-159), maps in one order. -/
def kids (s : Sch) : List Ptr :=
  s.props.map (·.2) ++ s.patternProps.map (·.2) ++ [s.additionalProps] ++ s.additionalItems ++ [s.items] ++ s.contains ++
    s.anyOf ++ s.oneOf ++ s.allOf ++ [s.not]

/-- `generateMetadata` of a schema (v3/schema.go:84-167): it only sets names. -/
def metaSchema : Nat → Ptr → M Unit
  | 0, _ => tooDeep
  | _ + 1, none => pure ()
  | n + 1, some a => do
    let s ← sch a
    each (metaSchema n) (kids s)

/-- `setReference` (v3/schema.go:290-304) -/
def setSchemaReference (d : Doc) (a : Nat) : M Unit := do
  let s ← sch a
  if s.ref = [] then pure ()
  else do
    let t ← referenceAs d .schema s.ref
    let s ← sch a
    setSch a { s with refTo := some t }

/-- `setAllOfDependenciesAndMerge` and its like (v3/schema.go:245-288): `*v` dereferences `v`. -/
def visitMerge (o : Order) (visit : Ptr → M Unit) (a : Nat) : List Ptr → M Unit :=
  each (fun v => do
    visit v
    let b ← deref v
    let s2 ← sch b
    mergeWith o (some a) s2)

/-- `setDependencies` of a schema (v3/schema.go:171-243). -/
def setSchema (d : Doc) (o : Order) : Nat → Ptr → M Unit
  | 0, _ => tooDeep
  | _ + 1, none => pure ()
  | n + 1, some a => do
    setSchemaReference d a
    let s ← sch a
    eachOf o (setSchema d o n) s.props
    let s ← sch a
    eachOf o (setSchema d o n) s.patternProps
    let s ← sch a
    setSchema d o n s.additionalProps
    let s ← sch a
    each (setSchema d o n) s.additionalItems
    let s ← sch a
    setSchema d o n s.items
    let s ← sch a
    each (setSchema d o n) s.contains
    let s ← sch a
    visitMerge o (setSchema d o n) a s.anyOf
    let s ← sch a
    visitMerge o (setSchema d o n) a s.oneOf
    let s ← sch a
    visitMerge o (setSchema d o n) a s.allOf
    let s ← sch a
    setSchema d o n s.not

/-! ## Locations -/

/-- The loop of `downToLocation` (v3/message.go:358-380): `child` and `parent` are the variables `child` and
`locationParent`. -/
def down : List Str → Ptr → Ptr → M Ptr
  | [], _, parent => pure parent
  | v :: rest, child, _ => do
    let a ← deref child
    let s ← sch a
    match s.props.get v with
    | some c => down rest c child
    | none => do
      let n ← alloc { type := if rest = [] then key! "string" else key! "header" }
      setSch a { s with props := s.props.put v (some n) }
      down rest (some n) child

/-- `createTreeUntilLocationFromMessageType` and `downToLocation` for the field given by `get` and `put`
(v3/message.go:325-383). -/
def createTreeFrom (get : Msg → Ptr) (put : Msg → Ptr → Msg) (p : Ptr) (location : Str) : M Ptr := do
  let a ← deref p
  let m ← msg a
  match get m with
  | none => do
    let n ← alloc { type := key! "object" }
    let m ← msg a
    setMsg a (put m (some n))
    down (Str.split '/' location).tail (some n) none
  | some b => do
    let s ← sch b
    match s.refTo with
    | some t => down (Str.split '/' location).tail (some t) none
    | none => down (Str.split '/' location).tail (some b) none

/-- `createTreeUntilLocation` (v3/message.go:305-323) -/
def createTree (p : Ptr) (location : Str) : M Ptr :=
  if location = [] then do
    let n ← alloc {}
    pure (some n)
  else if (key! "$message.header#").isPrefixOf location then
    createTreeFrom (·.headers) (fun m q => { m with headers := q }) p location
  else if (key! "$message.payload#").isPrefixOf location then
    createTreeFrom (·.payload) (fun m q => { m with payload := q }) p location
  else do
    let n ← alloc {}
    pure (some n)

/-- `createCorrelationIDFieldIfMissing` and `isCorrelationIDRequired` (v3/message.go:287-303). -/
def correlation (a : Nat) : M Unit := do
  let m ← msg a
  match m.corr with
  | none => pure ()
  | some l => do
    let _ ← createTree (some a) l
    if l = [] then pure ()
    else do
      let p ← createTree (some a) l
      let _ ← deref p
      pure ()

/-! ## Metadata of the rest -/

/-- `generateHeadersMetadata` (v3/message.go:212-228) -/
def metaHeaders (n : Nat) (p : Ptr) : M Unit :=
  match p with
  | none => pure ()
  | some a => do
    metaSchema n (some a)
    let s ← sch a
    let t ← targetOf s
    let s := match t with
      | some t => t
      | none => s
    if s.type = key! "object" then pure () else fail

/-- `generateMetadata` of a message trait (v3/message_trait.go:34-70). -/
def metaMTrait (n : Nat) : Ptr → M Unit
  | none => pure ()
  | some a => do
    let t ← messageTrait a
    metaSchema n t.headers
    metaSchema n t.payload

/-- `generateMetadata` of a message (v3/message.go:66-113). -/
def metaMessage : Nat → Ptr → M Unit
  | 0, _ => tooDeep
  | _ + 1, none => pure ()
  | n + 1, some a => do
    let m ← msg a
    metaSchema n m.payload
    metaHeaders n m.headers
    each (metaMessage n) m.oneOf
    each (metaMTrait n) m.traits
    correlation a

/-- `generateMetadata` of a channel (v3/channel.go:45-79). -/
def metaChannel (o : Order) (n : Nat) : Ptr → M Unit
  | none => pure ()
  | some a => do
    let c ← channel a
    eachOf o (metaMessage n) c.messages

/-- `generateMetadata` of a specification without its dependencies (v3/specification.go:97-126, v3/components.go:33-64,
103-193). The elements left out only get names. -/
def metaRoots (o : Order) (n : Nat) (r : Roots) : M Unit := do
  eachOf o (metaSchema n) r.schemas
  eachOf o (metaChannel o n) r.compChannels
  eachOf o (metaMessage n) r.messages
  eachOf o (metaMTrait n) r.messageTraits
  eachOf o (metaChannel o n) r.channels

/-! ## Messages -/

/-- `deepcopy.Copy` of a schema (github.com/mohae/deepcopy): a copy of everything that can be reached. -/
def copies (f : Ptr → M Ptr) : List Ptr → M (List Ptr)
  | [] => pure []
  | p :: ps => do
    let q ← f p
    let qs ← copies f ps
    pure (q :: qs)

/-- The same for a map. -/
def copiesOf (f : Ptr → M Ptr) : GoMap Str Ptr → M (GoMap Str Ptr)
  | [] => pure []
  | (k, p) :: ps => do
    let q ← f p
    let qs ← copiesOf f ps
    pure ((k, q) :: qs)

/-- See `copies`. A nil pointer is copied to nil. -/
def deepCopy : Nat → Ptr → M Ptr
  | 0, _ => tooDeep
  | _ + 1, none => pure none
  | n + 1, some a => do
    let s ← sch a
    let refTo ← deepCopy n s.refTo
    let props ← copiesOf (deepCopy n) s.props
    let patternProps ← copiesOf (deepCopy n) s.patternProps
    let additionalProps ← deepCopy n s.additionalProps
    let additionalItems ← copies (deepCopy n) s.additionalItems
    let items ← deepCopy n s.items
    let contains ← copies (deepCopy n) s.contains
    let anyOf ← copies (deepCopy n) s.anyOf
    let oneOf ← copies (deepCopy n) s.oneOf
    let allOf ← copies (deepCopy n) s.allOf
    let not ← deepCopy n s.not
    let b ← alloc { type := s.type, ref := s.ref, refTo, props, patternProps, additionalProps, additionalItems, items,
                    contains, anyOf, oneOf, allOf, not }
    pure (some b)

/-- A message that is merged into: one on the heap, or a local copy (`msg2` is passed by value, v3/message.go:401,
445). -/
inductive Place
  | heap (a : Nat)
  | copy (m : Msg)

/-- Its fields. -/
def Place.read : Place → M Msg
  | .heap a => msg a
  | .copy m => pure m

/-- Changing it. -/
def Place.write : Place → Msg → M Place
  | .heap a, m => do
    setMsg a m
    pure (.heap a)
  | .copy _, m => pure (.copy m)

/-- `mergeWithMessagePayload` and `mergeWithMessageHeaders` (v3/message.go:462-488), for the field given by `get` and
`put`. -/
def mergeField (o : Order) (n : Nat) (get : Msg → Ptr) (put : Msg → Ptr → Msg) (p : Place) (m2 : Msg) : M Place :=
  match get m2 with
  | none => pure p
  | some b => do
    let m ← p.read
    match get m with
    | none => do
      let q ← deepCopy n (some b)
      let m ← p.read
      p.write (put m q)
    | some a => do
      let s2 ← sch b
      mergeWith o (some a) s2
      pure p

/-- `MergeWith` of messages (v3/message.go:401-488, the same in v2/message.go:318-407); `find` is `ReferenceMessage`. -/
def mergeMessage (find : Str → M Nat) (o : Order) : Nat → Place → Msg → M Place
  | 0, _, _ => tooDeep
  | n + 1, p, m2 => do
    let m ← p.read
    let p ← (if m.ref = [] then pure p
      else do
        let t ← find m.ref
        let m ← p.read
        let p ← p.write { m with ref := [] }
        let r ← msg t
        mergeMessage find o n p r)
    (if m2.ref = [] then pure ()
      else do
        let t ← find m2.ref
        let r ← msg t
        let _ ← mergeMessage find o n (.copy m2) r
        pure ())
    let p ← mergeField o n (·.payload) (fun m q => { m with payload := q }) p m2
    mergeField o n (·.headers) (fun m q => { m with headers := q }) p m2

/-- `RemoveDuplicateTags`, `RemoveDuplicateSecuritySchemes` (v3/tag.go:58-74, v3/security_scheme.go:84-100), the inner
loop: both sides of the comparison are dereferenced. -/
def present (t : Option Named) : List (Option Named) → M Bool
  | [] => pure false
  | pt :: rest =>
    match pt, t with
    | some x, some y => if x.name = y.name then pure true else present t rest
    | _, _ => panic

/-- The outer loop. -/
def dedup : List (Option Named) → List (Option Named) → M (List (Option Named))
  | acc, [] => pure acc
  | acc, t :: ts => do
    let b ← present t acc
    dedup (if b then acc else acc ++ [t]) ts

/-- `mergeHeaders` (v3/message.go:558-576) and the first part of `mergePayload` (v3/message.go:578-596): the field is nil
and gets a shallow copy of the schema the trait leads to. -/
def adoptSchema (d : Doc) (o : Order) (n : Nat) (put : Msg → Ptr → Msg) (a b : Nat) : M Unit := do
  let s ← sch b
  let t ← targetOf s
  let q ← alloc (match t with
    | some t => t
    | none => s)
  let m ← msg a
  setMsg a (put m (some q))
  metaSchema n (some q)
  setSchema d o n (some q)

/-- `mergeHeaders` (v3/message.go:558-576) -/
def mergeHeaders (d : Doc) (o : Order) (n : Nat) (a : Nat) : Ptr → M Unit
  | none => pure ()
  | some b => do
    let m ← msg a
    match m.headers with
    | none => adoptSchema d o n (fun m q => { m with headers := q }) a b
    | some c => do
      let s2 ← sch b
      mergeWith o (some c) s2

/-- `mergePayload` (v3/message.go:578-596), which merges into the headers. -/
def mergePayload (d : Doc) (o : Order) (n : Nat) (a : Nat) : Ptr → M Unit
  | none => pure ()
  | some b => do
    let m ← msg a
    match m.payload with
    | none => adoptSchema d o n (fun m q => { m with payload := q }) a b
    | some _ => do
      let s2 ← sch b
      mergeWith o m.headers s2

/-- `ApplyTrait` of a message (v3/message.go:499-556); the examples are leaves. -/
def applyMTrait (d : Doc) (o : Order) (n : Nat) (a : Nat) (p : Ptr) : M Unit := do
  let b ← deref p
  let t ← messageTrait b
  mergeHeaders d o n a t.headers
  let t ← messageTrait b
  mergePayload d o n a t.payload
  let m ← msg a
  let t ← messageTrait b
  let tags ← dedup [] (m.tags ++ t.tags)
  setMsg a { m with corr := if m.corr.isSome then m.corr else t.corr, tags }

/-- `setReference` and the rest of `setDependencies` of a message trait (v3/message_trait.go:75-135). -/
def setMTrait (d : Doc) (o : Order) (n : Nat) : Ptr → M Unit
  | none => pure ()
  | some a => do
    let t ← messageTrait a
    (if t.ref = [] then pure ()
      else do
        let x ← referenceAs d .messageTrait t.ref
        linkMTrait a x)
    setSchema d o n t.headers
    setSchema d o n t.payload
    setNamed d t.tags
    setLeaf d t.leaf

/-- `Follow` of a message trait (v3/message_trait.go:138-143): a nil receiver is dereferenced. -/
def followMTrait (p : Ptr) : M Ptr := do
  let a ← deref p
  let t ← messageTrait a
  match t.refTo with
  | some b => pure (some b)
  | none => pure (some a)

/-- `setReference` of a message (v3/message.go:166-178). -/
def setMessageReference (d : Doc) (a : Nat) : M Unit := do
  let m ← msg a
  if m.ref = [] then pure ()
  else do
    let t ← referenceAs d .message m.ref
    let m ← msg a
    setMsg a { m with refTo := some t }

/-- `setDependencies` of a message (v3/message.go:116-164, 186-194, 202-210, 230-236, 248-262, 274-285). -/
def setMessage (d : Doc) (o : Order) : Nat → Ptr → M Unit
  | 0, _ => tooDeep
  | _ + 1, none => pure ()
  | n + 1, some a => do
    setMessageReference d a
    let m ← msg a
    setSchema d o n m.payload
    let m ← msg a
    setSchema d o n m.headers
    let m ← msg a
    each (fun v => do
      setMessage d o n v
      let b ← deref v
      let m2 ← msg b
      let _ ← mergeMessage (referenceAs d .message) o n (.heap a) m2
      pure ()) m.oneOf
    let m ← msg a
    setNamed d m.tags
    setLeaf d m.leaf
    let m ← msg a
    each (fun t => do
      setMTrait d o n t
      let x ← followMTrait t
      applyMTrait d o n a x) m.traits

/-! ## Channels and operations -/

/-- `setDependencies` of a channel (v3/channel.go:84-145). -/
def setChannel (d : Doc) (o : Order) (n : Nat) : Ptr → M Unit
  | none => pure ()
  | some a => do
    let c ← channel a
    (if c.ref = [] then pure ()
      else do
        let t ← referenceAs d .channel c.ref
        linkChannel a t)
    eachOf o (setMessage d o n) c.messages
    setLeaf d c.leaf

/-- `setDependencies` of an operation trait (v3/operation_trait.go:52-88). -/
def setOTrait (d : Doc) : Ptr → M Unit
  | none => pure ()
  | some a => do
    let t ← operationTrait a
    (if t.ref = [] then pure ()
      else do
        let x ← referenceAs d .operationTrait t.ref
        linkOTrait a x)
    setNamed d t.security
    setNamed d t.tags
    setLeaf d t.leaf

/-- `Follow` of an operation trait (v3/operation_trait.go:91-96). -/
def followOTrait (p : Ptr) : M Ptr := do
  let a ← deref p
  let t ← operationTrait a
  match t.refTo with
  | some b => pure (some b)
  | none => pure (some a)

/-- `ApplyTrait` of an operation (v3/operation.go:195-235). -/
def applyOTrait (a : Nat) (p : Ptr) : M Unit := do
  let b ← deref p
  let t ← operationTrait b
  let op ← operation a
  let security ← dedup [] (op.security ++ t.security)
  let tags ← dedup [] (op.tags ++ t.tags)
  setOp a { op with security, tags }

/-- The first message Go finds in the map of a channel, followed (v3/channel.go:156-161, v3/message.go:490-496). -/
def firstMessage (o : Order) (c : Chan) : M Ptr := do
  let l ← ranged o c.messages
  match l with
  | [] => fail
  | (_, p) :: _ => do
    let a ← deref p
    let m ← msg a
    match m.refTo with
    | some b => pure (some b)
    | none => pure (some a)

/-- `GetMessage` of a channel, called on a pointer (v3/channel.go:156-161). -/
def channelMessage (o : Order) (p : Ptr) : M Ptr := do
  let a ← deref p
  let c ← channel a
  match c.refTo with
  | some b => do
    let c ← channel b
    firstMessage o c
  | none => firstMessage o c

/-- `GetMessage` of an operation (v3/operation.go:186-192). -/
def getMessage (o : Order) (op : Op) : M Ptr :=
  match op.messages with
  | m :: _ => pure m
  | [] => channelMessage o op.channel

/-- `op.Follow()` (v3/operation.go:238-243). `none` is the `&Operation{}` of the components (v3/components.go:87, 94). -/
def followOp : Option Nat → M Op
  | none => pure {}
  | some a => do
    let op ← operation a
    match op.refTo with
    | some b => operation b
    | none => pure op

/-- `setDependencies` of a reply address (v3/operation_reply_address.go:36-74). -/
def setAddress (d : Doc) (o : Order) (op : Option Nat) : Ptr → M Unit
  | none => pure ()
  | some a => do
    let x ← address a
    (if x.ref = [] then pure ()
      else do
        let t ← referenceAs d .address x.ref
        linkAddress a t)
    if x.location = [] then pure ()
    else do
      let op ← followOp op
      let m ← getMessage o op
      let p ← createTree m x.location
      let _ ← deref p
      pure ()

/-- `setDependencies` of a reply (v3/operation_reply.go:37-70). -/
def setReply (d : Doc) (o : Order) (n : Nat) (op : Option Nat) : Ptr → M Unit
  | none => pure ()
  | some a => do
    let r ← reply a
    (if r.ref = [] then pure ()
      else do
        let t ← referenceAs d .reply r.ref
        linkReply a t)
    setChannel d o n r.channel
    each (setMessage d o n) r.messages
    setAddress d o op r.address

/-- `generateReply` (v3/operation.go:170-183): `Follow` on the channel of the reply. -/
def generateReply (a : Nat) : M Unit := do
  let op ← operation a
  match op.reply with
  | none => pure ()
  | some r => do
    let x ← reply r
    let _ ← deref x.channel
    pure ()

/-- `setReference` of an operation (v3/operation.go:143-156). -/
def setOpReference (d : Doc) (a : Nat) : M Unit := do
  let op ← operation a
  if op.ref = [] then pure ()
  else do
    let t ← referenceAs d .operation op.ref
    let op ← operation a
    setOp a { op with refTo := some t }

/-- `setDependencies` of an operation (v3/operation.go:87-168). -/
def setOperation (d : Doc) (o : Order) (n : Nat) : Ptr → M Unit
  | none => pure ()
  | some a => do
    setOpReference d a
    let op ← operation a
    setChannel d o n op.channel
    setNamed d op.security
    setLeaf d op.leaf
    let op ← operation a
    each (fun t => do
      setOTrait d t
      let x ← followOTrait t
      applyOTrait a x) op.traits
    let op ← operation a
    each (setMessage d o n) op.messages
    let op ← operation a
    setReply d o n (some a) op.reply
    generateReply a

/-- The leaves of one kind of component. -/
def setLeaves (d : Doc) (o : Order) (m : GoMap Str (Option Leaf)) : M Unit := do
  let l ← ranged o m
  each (fun e => match e.2 with
    | none => pure ()
    | some x => setLeaf d x) l

/-- `setDependencies` of the components (v3/components.go:67-100, 196-310). -/
def setComponents (d : Doc) (o : Order) (n : Nat) (r : Roots) : M Unit := do
  eachOf o (setSchema d o n) r.schemas
  setLeaves d o (r.others (key! "servers"))
  eachOf o (setChannel d o n) r.compChannels
  eachOf o (setOperation d o n) r.compOperations
  eachOf o (setMessage d o n) r.messages
  setLeaves d o (r.others (key! "securitySchemes"))
  setLeaves d o (r.others (key! "serverVariables"))
  setLeaves d o (r.others (key! "parameters"))
  setLeaves d o (r.others (key! "correlationIds"))
  setLeaves d o (r.others (key! "externalDocs"))
  setLeaves d o (r.others (key! "tags"))
  eachOf o (setOTrait d) r.operationTraits
  eachOf o (setMTrait d o n) r.messageTraits
  setLeaves d o (r.others (key! "serverBindings"))
  setLeaves d o (r.others (key! "channelBindings"))
  setLeaves d o (r.others (key! "operationBindings"))
  setLeaves d o (r.others (key! "messageBindings"))
  eachOf o (setReply d o n none) r.replies
  eachOf o (setAddress d o none) r.addresses

/-- `setDependencies` of a specification without its dependencies (v3/specification.go:145-176); `rest` has the
references of the information object and the servers. -/
def setRoots (d : Doc) (o : Order) (n : Nat) : M Unit := do
  setComponents d o n d.main
  setLeaf d d.main.rest
  eachOf o (setChannel d o n) d.main.channels
  eachOf o (setOperation d o n) d.main.operations

/-- `Process` (v3/specification.go:53-59, 84-177): dependencies come first, with themselves as specification; they have
no dependencies (pkg/codegen/codegen.go:40-54). -/
def process (d : Doc) (o : Order) (n : Nat) : M Unit := do
  let l ← ranged o d.deps
  each (fun e => metaRoots o n e.2) l
  metaRoots o n d.main
  let l ← ranged o d.deps
  each (fun e => setRoots { main := e.2 } o n) l
  setRoots d o n

/-! ## Generation -/

/-- `goTypeImports` (v3/extensions.go:40-67): no nil check. -/
def imports (o : Order) : Nat → Ptr → M Unit
  | 0, _ => tooDeep
  | n + 1, p => do
    let a ← deref p
    let s ← sch a
    eachOf o (imports o n) s.props
    match s.items with
    | none => pure ()
    | some i => imports o n (some i)

/-- The loop over the component messages of `CustomImports` (v3/extensions.go:82-94). -/
def messageImports (o : Order) (n : Nat) (p : Ptr) : M Unit := do
  let a ← deref p
  let m ← msg a
  match m.payload with
  | none => pure ()
  | some b => imports o n (some b)
  match m.headers with
  | none => pure ()
  | some b => imports o n (some b)

/-- `CustomImports` (v3/extensions.go:73-99). -/
def customImports (o : Order) (n : Nat) (r : Roots) : M Unit := do
  eachOf o (imports o n) r.schemas
  eachOf o (messageImports o n) r.messages

/-- `NewActionOperations` (pkg/codegen/generators/v3/common.go:17-53) with `GetOperationCountByAction`
(v3/specification.go:181-195): `op.Action` of every operation; `op.Reply.Channel` is checked before it is followed
(generators/v3/controller.go:40-43). -/
def actionOperations (o : Order) (r : Roots) : M Unit :=
  eachOf o (fun p => do
    let _ ← deref p
    pure ()) r.operations

/-- `Generate` (pkg/codegen/codegen.go:85-98, pkg/codegen/generators/v3/generator.go:23-51) as far as it runs outside of
templates. `sides` says whether the code of the application or the user is wanted. -/
def generate (d : Doc) (o : Order) (n : Nat) (sides : Bool) : M Unit := do
  process d o n
  customImports o n d.main
  if sides then actionOperations o d.main else pure ()

/-- A run from a heap. -/
def run (d : Doc) (o : Order) (n : Nat) (sides : Bool) (h : Heap) : Except Bad Unit :=
  match generate d o n sides h with
  | .ok _ => .ok ()
  | .error e => .error e

end Verif.Panics
