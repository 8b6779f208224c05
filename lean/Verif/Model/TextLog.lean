import Verif.Model.Logs

/-!
# The human-readable logger

Models pkg/extensions/loggers/text.go:43-120, without colours (fatih/color leaves them out when the output is no
terminal). As in `Logs`, the values of the Go maps are `Json.str` and `Json.obj`; a map is the list of its members in the
order Go iterates over them.
-/

namespace Verif.TextLog

open Verif.Logs

/-- `strings.Join(prefixes, "")`, every prefix being two spaces. (text.go:45, 54, 61) -/
def indent (d : Nat) : Str := List.replicate (2 * d) ' '

/-- The two keys that are put first. (text.go:48-49) -/
def special (k : Str) : Bool := k == "@Timestamp".toList || k == "Message".toList

/-- `%s` of a value; of maps, which Go prints as `map[…]`, only that. -/
def plain : Json → Str
  | .str s => s
  | _ => "map[]".toList

/-- `msgFmt.Sprintf("> %s%s: %s\n", …)` (text.go:51) -/
def header (d : Nat) (ts msg : Json) : Str := "> ".toList ++ indent d ++ plain ts ++ ": ".toList ++ plain msg ++ ['\n']

mutual
/-- The loop over the members (text.go:58-66); `skip`: after `delete` of the two special keys (text.go:52-53). -/
def members (d : Nat) (skip : Bool) : List (Str × Json) → Str
  | [] => []
  | (k, v) :: ms => (if skip && special k then [] else indent d ++ k ++ ':' :: value d v) ++ members d skip ms
/-- What follows the colon (text.go:59-65); values other than texts and maps do not occur. -/
def value (d : Nat) : Json → Str
  | .obj ms =>
    -- text.go:48-55
    match GoMap.get ms "@Timestamp".toList, GoMap.get ms "Message".toList with
    | some ts, some msg => '\n' :: (header (d + 1) ts msg ++ members (d + 2) true ms)
    | _, _ => '\n' :: members (d + 1) false ms
  | .str s => ' ' :: s ++ ['\n']
  | _ => ['\n']
end

/-- `humanizeStructuredLogs` (text.go:43-68) -/
def humanize (ms : List (Str × Json)) : Str :=
  match GoMap.get ms "@Timestamp".toList, GoMap.get ms "Message".toList with
  | some ts, some msg => header 0 ts msg ++ members 1 true ms
  | _, _ => members 0 false ms

/-- `setInfoFromContext` (text.go:70-94) -/
def textInfo (ctx : Ctx) (msg now : Str) (info : List Info) : List Info :=
  info ++ (ifSet "Channel" ctx.channel ++ ifSet "CorrelationID" ctx.correlationID ++ ifSet "Content" ctx.brokerMessage ++
    [⟨"Message".toList, msg⟩, ⟨"@Timestamp".toList, now⟩])

/-- The record `formatLog` prints (text.go:96-101), as a map. -/
def record (ctx : Ctx) (msg now : Str) (info : List Info) : Tree := structureLogs (textInfo ctx msg now info)

end Verif.TextLog
