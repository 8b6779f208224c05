import Verif.Base.Str
import Verif.Base.GoMap
import Verif.Base.Json

/-!
# Structured logs

Models pkg/extensions/loggers/common.go:10-47 and pkg/extensions/loggers/ecs.go:20-91. A log field is its key
and the text of its value (`fmt.Sprintf("%+v", …)`). The values of the Go maps are strings or maps: they are
`Json.str` and `Json.obj` here.
-/

namespace Verif.Logs

/-- `map[string]any` -/
abbrev Tree := GoMap Str Json

/-- `m[k]` as a map, created if it is missing or no map. (pkg/extensions/loggers/common.go:20-30) -/
def submap (m : Tree) (k : Str) : Tree :=
  match m.get k with
  | some (.obj sm) => sm
  | _ => []

/-- `insertLogIntoStruct` (pkg/extensions/loggers/common.go:10-39) -/
def insertLog (key value : Str) (m : Tree) : Tree :=
  match h : Str.split '.' key with
  | [] => m                                   -- not reached: `Str.split_ne_nil`
  | [_] => m.put key (.str value)
  | k :: k2 :: ks => m.put k (.obj (insertLog (Str.join '.' (k2 :: ks)) value (submap m k)))
termination_by key.length
decreasing_by
  have := Str.join_split '.' key
  rw [h, Str.join] at this
  · have := congrArg List.length this
    simp only [List.length_append, List.length_cons] at this
    omega
  · intro h; cases h

/-- A log field. (pkg/extensions/logger.go) -/
structure Info where
  key : Str
  value : Str
  deriving DecidableEq, Repr

/-- `structureLogs` (pkg/extensions/loggers/common.go:41-47) -/
def structureLogs (info : List Info) : Tree := info.foldl (fun m i => insertLog i.key i.value m) []

/-- What the context of a call holds. -/
structure Ctx where
  provider : Option Str
  channel : Option Str
  direction : Option Str
  brokerMessage : Option Str
  correlationID : Option Str

/-- `IfContextSetWith` (pkg/extensions/context.go): the field, if the context holds a value. -/
def ifSet (key : String) (v : Option Str) : List Info :=
  match v with
  | some v => [⟨key.toList, v⟩]
  | none => []

/-- The field for the direction. (pkg/extensions/loggers/ecs.go:28-34) -/
def direction (d : Option Str) : List Info :=
  match d with
  | some d =>
    if d = "publication".toList then [⟨"event.action".toList, "published-message".toList⟩]
    else if d = "reception".toList then [⟨"event.action".toList, "received-message".toList⟩]
    else []
  | none => []

/-- What the ECS logger appends to the fields of the caller: the level, what the context holds, the message,
the time, the logger. (pkg/extensions/loggers/ecs.go:22-54,79) -/
def ecsExtra (ctx : Ctx) (level msg now : Str) : List Info :=
  ⟨"log.level".toList, level⟩ :: (ifSet "asyncapi.provider" ctx.provider ++
    ifSet "asyncapi.channel" ctx.channel ++ direction ctx.direction ++
    ifSet "event.original" ctx.brokerMessage ++ ifSet "trace.id" ctx.correlationID ++
    [⟨"message".toList, msg⟩, ⟨"@timestamp".toList, now⟩,
     ⟨"log.logger".toList, "github.com/lerenn/asyncapi-codegen/pkg/extensions/loggers/ecs.go".toList⟩])

/-- `ECS.setInfoFromContext` after `logWithLevel` added the level.
(pkg/extensions/loggers/ecs.go:20-57,77-83) -/
def ecsInfo (ctx : Ctx) (level msg now : Str) (info : List Info) : List Info :=
  info ++ ecsExtra ctx level msg now

/-- The order of strings, by characters. -/
def strLe : Str → Str → Bool
  | [], _ => true
  | _ :: _, [] => false
  | a :: as, b :: bs => if a = b then strLe as bs else decide (a.toNat < b.toNat)

/-- Inserting a member in the order of the keys. -/
def insertSorted (e : Str × Json) : List (Str × Json) → List (Str × Json)
  | [] => [e]
  | e' :: es => if strLe e.1 e'.1 then e :: e' :: es else e' :: insertSorted e es

mutual
/-- `json.Marshal` writes the keys of a map in order: the value it writes. -/
def sorted : Json → Json
  | .obj ms => .obj (sortedMembers ms)
  | .null => .null
  | .bool b => .bool b
  | .num t => .num t
  | .str s => .str s
  | .arr xs => .arr xs
def sortedMembers : List (Str × Json) → List (Str × Json)
  | [] => []
  | (k, v) :: ms => insertSorted (k, sorted v) (sortedMembers ms)
end

/-- `ECS.formatLog` (pkg/extensions/loggers/ecs.go:59-75) -/
def formatECS (ctx : Ctx) (level msg now : Str) (info : List Info) : Str :=
  Json.print (sorted (.obj (structureLogs (ecsInfo ctx level msg now info))))

end Verif.Logs
