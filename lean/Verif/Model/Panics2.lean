import Verif.Model.Panics

/-!
# Processing a document of version 2, with nil pointers

The counterpart of `Verif.Model.Panics` for pkg/asyncapi/v2, on the same heap of schemas and messages. Operations hold
their message by value: it has an address here. Channels and parameters only get names and the target of their reference,
which nothing looks at outside of templates: they are constants.
-/

namespace Verif.Panics2

open Panics

/-- v2/parameter.go:8-20 -/
structure Par where
  ref : Str := []
  schema : Ptr := none

/-- v2/channel.go:8-21. For each operation the address of its message; `none` if there is no operation. -/
structure Chan where
  parameters : GoMap Str (Option Par) := []
  subscribe : Ptr := none
  publish : Ptr := none

/-- v2/specification.go:25-37, v2/components.go:6-14 -/
structure Roots where
  channels : GoMap Str (Option Chan) := []
  messages : GoMap Str Ptr := []
  schemas : GoMap Str Ptr := []
  parameters : GoMap Str (Option Par) := []

/-- A document and the files given as dependencies, under their paths without `./`. -/
structure Doc where
  main : Roots := {}
  deps : GoMap Str Roots := []

/-- A parameter as a pointer: only whether it is nil matters. -/
def parPtr (m : GoMap Str (Option Par)) (n : Str) : Ptr :=
  match m.get n with
  | some (some _) => some 0
  | _ => none

/-- The cases of `reference` below `components` (v2/specification.go:239-252). -/
def component (r : Roots) : List Str → M (Ty × Ptr)
  | [] => panic
  | k :: rest =>
    if k = key! "messages" then
      match rest with
      | [] => panic
      | n :: ks => messageFrom (at' r.messages n) ks
    else if k = key! "schemas" then
      match rest with
      | [] => panic
      | n :: ks => do
        let p ← schemaFrom (at' r.schemas n) ks
        pure (.schema, p)
    else if k = key! "parameters" then
      match rest with
      | [] => panic
      | n :: _ => pure (.other k, parPtr r.parameters n)
    else fail

/-- The switch of `reference` (v2/specification.go:237-255). -/
def resolve (r : Roots) : List Str → M (Ty × Ptr)
  | [] => panic
  | p0 :: rest => if p0 = key! "components" then component r rest else fail

/-- `getDependencyBasedOnRef` (v2/specification.go:196-222) -/
def usedSpec (d : Doc) (file : Str) : M Roots :=
  if file = [] then pure d.main
  else match d.deps.get (trimDot file) with
    | some r => pure r
    | none => fail

/-- `reference` (v2/specification.go:224-256) -/
def reference (d : Doc) (ref : Str) : M (Ty × Ptr) :=
  match Str.split '#' ref with
  | [file, path] => do
    let r ← usedSpec d file
    resolve r (Str.split '/' (trimSlash path))
  | _ => fail

/-- `ReferenceParameter`, `ReferenceMessage`, `ReferenceSchema` (v2/specification.go:127-194): the cast and the nil
check. -/
def referenceAs (d : Doc) (t : Ty) (ref : Str) : M Nat := do
  let (t', p) ← reference d ref
  if t' = t then
    match p with
    | none => fail
    | some a => pure a
  else fail

/-! ## Metadata -/

/-- `generateMetadata` of a schema (v2/schema.go:63-105, 160-172, 184-192, 204-212, 231-239, 258-266, 285-293). The receiver
is dereferenced at once; only items and additional properties are checked before. -/
def metaSchema (o : Order) : Nat → Ptr → M Unit
  | 0, _ => tooDeep
  | n + 1, p => do
    let a ← deref p
    let s ← sch a
    eachOf o (metaSchema o n) s.props
    (if s.items = none then pure () else metaSchema o n s.items)
    each (metaSchema o n) s.anyOf
    each (metaSchema o n) s.oneOf
    each (metaSchema o n) s.allOf
    if s.additionalProps = none then pure () else metaSchema o n s.additionalProps

/-- `generateMetadata` of a message (v2/message.go:57-81, 116-128, 151-154, 166-175). -/
def metaMessage (o : Order) : Nat → Ptr → M Unit
  | 0, _ => tooDeep
  | n + 1, p => do
    let a ← deref p
    let m ← msg a
    (if m.payload = none then pure () else metaSchema o n m.payload)
    (if m.headers = none then pure () else metaSchema o n m.headers)
    each (metaMessage o n) m.oneOf
    correlation a

/-- `generateMetadata` of an operation (v2/operation.go:25-37): the fourth part of the reference is its name. -/
def metaOperation (o : Order) (n : Nat) (a : Nat) : M Unit := do
  let m ← msg a
  (if m.ref = [] then pure ()
    else match (Str.split '/' m.ref)[3]? with
      | none => panic
      | some _ => pure ())
  metaMessage o n (some a)

/-- `generateMetadata` of a parameter (v2/parameter.go:23-26) -/
def metaPar : Option Par → M Unit
  | none => panic
  | some _ => pure ()

/-- `generateMetadata` of the parameters of a channel, or of the components (v2/channel.go:50-52, v2/components.go:33-35). -/
def metaPars (o : Order) (m : GoMap Str (Option Par)) : M Unit := do
  let l ← ranged o m
  each (fun e => metaPar e.2) l

/-- An operation, if there is one. -/
def ifOp (f : Nat → M Unit) : Ptr → M Unit
  | none => pure ()
  | some a => f a

/-- `generateMetadata` of a channel (v2/channel.go:24-55). -/
def metaChannel (o : Order) (n : Nat) : Option Chan → M Unit
  | none => panic
  | some c => do
    ifOp (metaOperation o n) c.subscribe
    ifOp (metaOperation o n) c.publish
    metaPars o c.parameters

/-- `generateMetadata` of a specification without its dependencies (v2/specification.go:77-83, v2/components.go:17-38). -/
def metaRoots (o : Order) (n : Nat) (r : Roots) : M Unit := do
  let l ← ranged o r.channels
  each (fun e => metaChannel o n e.2) l
  eachOf o (metaSchema o n) r.schemas
  eachOf o (metaMessage o n) r.messages
  metaPars o r.parameters

/-! ## Dependencies -/

/-- `s.ReferenceTo = refTo` (v2/schema.go:117-124) -/
def setSchemaReference (d : Doc) (a : Nat) : M Unit := do
  let s ← sch a
  if s.ref = [] then pure ()
  else do
    let t ← referenceAs d .schema s.ref
    let s ← sch a
    setSch a { s with refTo := some t }

/-- `setDependencies` of a schema (v2/schema.go:115-158, 174-182, 194-202, 214-229, 241-256, 268-283, 295-303), on a nil
receiver too. -/
def setSchema (d : Doc) (o : Order) : Nat → Ptr → M Unit
  | 0, _ => tooDeep
  | n + 1, p => do
    let a ← deref p
    setSchemaReference d a
    let s ← sch a
    eachOf o (setSchema d o n) s.props
    let s ← sch a
    (if s.items = none then pure () else setSchema d o n s.items)
    let s ← sch a
    visitMerge o (setSchema d o n) a s.anyOf
    let s ← sch a
    visitMerge o (setSchema d o n) a s.oneOf
    let s ← sch a
    visitMerge o (setSchema d o n) a s.allOf
    let s ← sch a
    if s.additionalProps = none then pure () else setSchema d o n s.additionalProps

/-- `msg.ReferenceTo = refTo` (v2/message.go:92-99) -/
def setMessageReference (d : Doc) (a : Nat) : M Unit := do
  let m ← msg a
  if m.ref = [] then pure ()
  else do
    let t ← referenceAs d .message m.ref
    let m ← msg a
    setMsg a { m with refTo := some t }

/-- `setHeadersDependencies` (v2/message.go:130-149) -/
def setHeaders (d : Doc) (o : Order) (n : Nat) : Ptr → M Unit
  | none => pure ()
  | some b => do
    setSchema d o n (some b)
    let s ← sch b
    let t ← targetOf s
    let s := match t with
      | some t => t
      | none => s
    if s.type = key! "object" then pure () else fail

/-- `setCorrelationIDDependencies` (v2/message.go:156-164, 192-211) -/
def setCorrelation (d : Doc) (a : Nat) : M Unit := do
  let m ← msg a
  match m.corr with
  | some _ => pure ()
  | none =>
    if m.ref = [] then pure ()
    else do
      let _ ← referenceAs d .message m.ref
      pure ()

/-- `setDependencies` of a message (v2/message.go:84-114, 177-190). -/
def setMessage (d : Doc) (o : Order) : Nat → Ptr → M Unit
  | 0, _ => tooDeep
  | n + 1, p => do
    let a ← deref p
    let m ← msg a
    (if m.payload = none then pure () else setSchema d o n m.payload)
    setMessageReference d a
    let m ← msg a
    setHeaders d o n m.headers
    let m ← msg a
    each (fun v => do
      setMessage d o n v
      let b ← deref v
      let m2 ← msg b
      let _ ← mergeMessage (referenceAs d .message) o n (.heap a) m2
      pure ()) m.oneOf
    setCorrelation d a

/-- `setDependencies` of a parameter (v2/parameter.go:29-40) -/
def setPar (d : Doc) : Option Par → M Unit
  | none => panic
  | some p =>
    if p.ref = [] then pure ()
    else do
      let _ ← referenceAs d (.other (key! "parameters")) p.ref
      pure ()

/-- `setDependencies` of the parameters of a channel, or of the components (v2/channel.go:74-78, v2/components.go:57-61). -/
def setPars (d : Doc) (o : Order) (m : GoMap Str (Option Par)) : M Unit := do
  let l ← ranged o m
  each (fun e => setPar d e.2) l

/-- `setDependencies` of a channel (v2/channel.go:58-81, v2/operation.go:40-43). -/
def setChannel (d : Doc) (o : Order) (n : Nat) : Option Chan → M Unit
  | none => panic
  | some c => do
    ifOp (fun a => setMessage d o n (some a)) c.subscribe
    ifOp (fun a => setMessage d o n (some a)) c.publish
    setPars d o c.parameters

/-- `setDependencies` of a specification without its dependencies (v2/specification.go:96-103, v2/components.go:41-64). -/
def setRoots (d : Doc) (o : Order) (n : Nat) : M Unit := do
  let l ← ranged o d.main.channels
  each (fun e => setChannel d o n e.2) l
  eachOf o (setSchema d o n) d.main.schemas
  eachOf o (setMessage d o n) d.main.messages
  setPars d o d.main.parameters

/-- `Process` (v2/specification.go:64-104): dependencies come first; they have none (pkg/codegen/codegen.go:40-54). -/
def process (d : Doc) (o : Order) (n : Nat) : M Unit := do
  let l ← ranged o d.deps
  each (fun e => metaRoots o n e.2) l
  metaRoots o n d.main
  let l ← ranged o d.deps
  each (fun e => setRoots { main := e.2 } o n) l
  setRoots d o n

/-! ## Generation -/

/-- The loop over the component parameters of `CustomImports` (v2/extensions.go:98-104). -/
def parImports (o : Order) (n : Nat) : Option Par → M Unit
  | none => panic
  | some p => if p.schema = none then pure () else imports o n p.schema

/-- `CustomImports` (v2/extensions.go:74-107); `goTypeImports` and the loop over messages are those of version 3. -/
def customImports (o : Order) (n : Nat) (r : Roots) : M Unit := do
  eachOf o (imports o n) r.schemas
  eachOf o (messageImports o n) r.messages
  let l ← ranged o r.parameters
  each (fun e => parImports o n e.2) l

/-- `Follow` of a message (v2/message.go:411-416) -/
def follow : Nat → Nat → M Unit
  | 0, _ => tooDeep
  | n + 1, a => do
    let m ← msg a
    match m.refTo with
    | some b => follow n b
    | none => pure ()

/-- The channels of a side (v2/specification.go:108-124, generators/v2/subscriber.go:18-47, generators/v2/controller.go:21-55)
and, in the templates, `ChannelToMessage` (generators/v2/templates/helpers.go:78-97), whose stack may not suffice. -/
def sideChannel (n : Nat) : Option Chan → M Unit
  | none => panic
  | some c => do
    ifOp (follow n) c.subscribe
    ifOp (follow n) c.publish

/-- `Generate` (pkg/codegen/codegen.go:85-98, pkg/codegen/generators/v2/generator.go:22-54). `sides` says whether the code of
the application or the user is wanted. -/
def generate (d : Doc) (o : Order) (n : Nat) (sides : Bool) : M Unit := do
  process d o n
  customImports o n d.main
  if sides then do
    let l ← ranged o d.main.channels
    each (fun e => sideChannel n e.2) l
  else pure ()

/-- What a document of version 2 is decoded to: its schemas and messages. -/
structure Store where
  schemas : Nat → Sch := fun _ => {}
  messages : Nat → Msg := fun _ => {}
  next : Nat := 0

/-- The heap at the start. -/
def Store.heap (s : Store) : Heap := { schemas := s.schemas, messages := s.messages, next := s.next }

/-- A run. -/
def run (d : Doc) (o : Order) (n : Nat) (sides : Bool) (s : Store) : Except Bad Unit :=
  match generate d o n sides s.heap with
  | .ok _ => .ok ()
  | .error e => .error e

end Verif.Panics2
