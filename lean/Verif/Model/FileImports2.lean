import Verif.Model.FileImports

/-!
# The packages a file generated for version 2 uses

The import block and the text of messages and schemas are those of version 3 (pkg/codegen/generators/v2/templates/
{imports,message,schema_definition,schema_name}.tmpl and marshaling templates write the same qualifiers for the same schemas;
a message of version 2 is always written out, it is never only a comment). This file adds channels, their parameters, and the
controllers. As there, a piece of generated text is the list of its qualifiers.
-/

namespace Verif.FileImports.V2
open Verif.Types (Cfg Sch Err)

/-- An operation (pkg/asyncapi/v2/operation.go:12-21): has the message it leads to a correlation ID, has its own message one
(not that of the components it refers to), and its own message if it has a payload. -/
structure Op where
  corr : Bool := false
  waits : Bool := false
  own : Option Msg := none

/-- A channel (pkg/asyncapi/v2/channel.go): the schemas of its parameters (`none`: there is no `parameters`), its
operations. -/
structure Chan where
  params : Option (List Sch) := none
  publish : Option Op := none
  subscribe : Option Op := none

/-- A processed document. -/
structure Doc where
  chans : List Chan
  messages : List Msg
  schemas : List Sch

/-- `isSubscribeChannel` (v2/controller.go:60-69): what a side receives; applications receive what is published. -/
def receives (app : Bool) (ch : Chan) : Bool := if app then ch.publish.isSome else ch.subscribe.isSome

/-- `isPublishChannel` (v2/controller.go:71-80) -/
def sends (app : Bool) (ch : Chan) : Bool := if app then ch.subscribe.isSome else ch.publish.isSome

/-- `ChannelToMessage(ch, "publish")` (v2/templates/helpers.go:79-100) of a channel with operations: has the message a
correlation ID? -/
def publishCorr (ch : Chan) : Bool :=
  match ch.publish, ch.subscribe with
  | some p, _ => p.corr
  | none, some s => s.corr
  | none, none => false

/-- `GenerateChannelPath` (v2/templates/helpers.go:108-126) -/
def pathQuals (ch : Chan) : List Str := if ch.params.isSome then [qFmt] else []

/-- The functions for a channel a side receives from (v2/templates/controller.tmpl:133-272). -/
def receiveQuals (ch : Chan) : List Str := [qContext] ++ pathQuals ch ++ [qExtensions, qFmt]

/-- The function that publishes (v2/templates/controller.tmpl:274-314). -/
def sendQuals (ch : Chan) : List Str :=
  [qContext] ++ pathQuals ch ++ (if publishCorr ch then [qUuid] else []) ++ [qExtensions]

/-- The functions of the user that wait for a message (v2/templates/controller.tmpl:316-439). -/
def waitQuals (ch : Chan) : List Str :=
  match ch.subscribe with
  | some s => if s.waits then [qContext] ++ pathQuals ch ++ [qExtensions] else []
  | none => []

/-- The subscriber and the controller of a side (v2/templates/subscriber.tmpl:1-9, controller.tmpl:1-439). -/
def sideQuals (app : Bool) (chs : List Chan) : List Str :=
  (chs.filter (receives app)).map (fun _ => qContext) ++ [qExtensions, qContext] ++
    (chs.filter (receives app)).flatMap receiveQuals ++ (chs.filter (sends app)).flatMap sendQuals ++
    (if app then [] else (chs.filter (receives app)).flatMap waitQuals)

/-- The template "parameter" (v2/templates/parameter.tmpl:1-16): the type of its schema. -/
def paramQuals (c : Cfg) (s : Sch) : Except Err (List Str) :=
  match Types.schemaName c s with
  | .error e => .error e
  | .ok t => .ok (tyQuals t)

/-- The struct of the parameters of a channel (v2/templates/types.tmpl:61-68). -/
def chanQuals (c : Cfg) (ch : Chan) : Except Err (List Str) :=
  match ch.params with
  | none => .ok []
  | some ps => catAll (ps.map (paramQuals c))

/-- A message of version 2 is written out, whatever it refers to (v2/templates/message.tmpl:1-30). -/
def plain (m : Msg) : Msg := { m with types := { m.types with ref := none } }

/-- The messages of the operations of a channel that are written (v2/templates/types.tmpl:70-76). -/
def ownMsgs (ch : Chan) : List Msg :=
  (match ch.subscribe with
  | some o => o.own.toList
  | none => []) ++
  (match ch.publish with
  | some o => o.own.toList
  | none => [])

/-- What is written for messages and schemas, as a document of version 3 without operations. -/
def Doc.typesPart (d : Doc) : FileImports.Doc :=
  ⟨(d.chans.flatMap ownMsgs).map plain, d.messages.map plain, d.schemas, ⟨[], []⟩, ⟨[], []⟩⟩

/-- The qualifiers of the whole file (v2/generator.go:21-50; types.tmpl:1-101). -/
def fileQuals (c : Cfg) (g : Parts) (d : Doc) : Except Err (List Str) :=
  cat (.ok (if g.app then sideQuals true d.chans else []))
    (cat (.ok (if g.user then sideQuals false d.chans else []))
      (if g.types then cat (catAll (d.chans.map (chanQuals c))) (typesQuals c d.typesPart) else .ok []))

end Verif.FileImports.V2
