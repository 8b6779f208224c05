import Verif.Model.ReplyLoc

/-!
# The correlation ID functions of a message

Models `New…`, `CorrelationID`, `SetCorrelationID` and `SetAsResponseFrom` as they are generated for a message with a
correlation ID (v3/templates/message.tmpl:41-51, 279-305, v2/templates/message.tmpl:32-42, 261-287), after the field has been
created (`CorrTree`), with the Go types of `ReplyLoc`.

Simplifications: those of `ReplyLoc` (formats, `x-go-type` and compositions are not modelled). The location is that of the
message itself, which is neither a reference nor made of alternatives; correlation IDs given by reference or by a trait are in
`Walk` and `Message`.
-/

namespace Verif.CorrFns

open CorrTree ReplyLoc

/-- What is generated for a message with a correlation ID: do the functions compile? The message with its field, and
`CorrelationIDRequired`. A required one is used as a string, another one as a pointer to a string, in all four functions
(v3/templates/message.tmpl:47, 282-291, 295-304). `none`: the generator panics. -/
def generated (schemas : Nat → Tree) (nm : Str → Str) (force : Bool) (msg : Msg) (location : Str) : Option (Bool × Msg × Bool) :=
  match generate msg location with
  | (_, .panic) => none
  | (m, .ok required) => some (compiles schemas nm force m location required, m, required)

/-- `v.f.g.… = x`. -/
def assign : GV → List Str → GV → Res GV
  | _, [], x => .ok x
  | .struct fs, f :: rest, x => match GoMap.get fs f with
    | some w => match assign w rest x with
      | .ok w' => .ok (.struct (GoMap.put fs f w'))
      | .panic => .panic
      | .stuck => .stuck
    | none => .stuck
  | .ptr (.struct fs), f :: rest, x => match GoMap.get fs f with
    | some w => match assign w rest x with
      | .ok w' => .ok (.ptr (.struct (GoMap.put fs f w')))
      | .panic => .panic
      | .stuck => .stuck
    | none => .stuck
  | .nilPtr, _ :: _, _ => .panic
  | _, _ :: _, _ => .stuck

/-- `id` or `&id` (v3/templates/message.tmpl:47, 295, 303). -/
def idValue (required : Bool) (id : String) : GV := if required then .text id else .ptr (.text id)

/-- `New…()` (v3/templates/message.tmpl:41-51), with the zero value of the message and the text of the new UUID. -/
def newMsg (required : Bool) (path : List Str) (zero : GV) (uuid : String) : Res GV := assign zero path (idValue required uuid)

/-- `CorrelationID()` (v3/templates/message.tmpl:281-291). -/
def corrId (required : Bool) (path : List Str) (v : GV) : Res String :=
  match sels v path with
  | .panic => .panic
  | .stuck => .stuck
  | .ok w =>
    if required then
      match w with
      | .text s => .ok s
      | _ => .stuck
    else
      match w with
      | .nilPtr => .ok ""
      | .ptr (.text s) => .ok s
      | _ => .stuck

/-- `SetCorrelationID(id)` (v3/templates/message.tmpl:294-296). -/
def setId (required : Bool) (path : List Str) (v : GV) (id : String) : Res GV := assign v path (idValue required id)

/-- `SetAsResponseFrom(req)` (v3/templates/message.tmpl:301-304), with what `req.CorrelationID()` does. -/
def setFrom (required : Bool) (path : List Str) (v : GV) (req : Res String) : Res GV :=
  match req with
  | .ok id => assign v path (idValue required id)
  | .panic => .panic
  | .stuck => .stuck

end Verif.CorrFns
