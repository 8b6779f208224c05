import Verif.Model.AddProps

/-!
# The text of a broker message (pkg/extensions/broker.go:83-96)

Loggers and middlewares see a message as this text. Simplification: keys, values and payload are sequences of
characters (invalid UTF-8 is not modelled), and the headers are given in the order in which Go's map iteration yields them.
-/

namespace Verif.MsgText

open AddProps (goQuote)

/-- The loop of `String` (broker.go:87-89): `str` so far and the headers still to come. -/
def loop (isPrint : Char → Bool) : Str → List (Str × Str) → Str
  | str, [] => str
  | str, (k, v) :: rest => loop isPrint (str ++ ',' :: (goQuote isPrint k ++ ':' :: goQuote isPrint v)) rest

/-- `{"payload":` (broker.go:92) -/
def onlyPayload : Str := ['{', '"', 'p', 'a', 'y', 'l', 'o', 'a', 'd', '"', ':']

/-- `{"headers":{` (broker.go:94) -/
def beforeHeaders : Str := ['{', '"', 'h', 'e', 'a', 'd', 'e', 'r', 's', '"', ':', '{']

/-- `},"payload":` (broker.go:94) -/
def afterHeaders : Str := ['}', ',', '"', 'p', 'a', 'y', 'l', 'o', 'a', 'd', '"', ':']

/-- `BrokerMessage.String` (broker.go:84-96) -/
def text (isPrint : Char → Bool) (headers : List (Str × Str)) (payload : Str) : Str :=
  match loop isPrint [] headers with
  | [] => onlyPayload ++ payload ++ ['}']
  | _ :: str => beforeHeaders ++ str ++ afterHeaders ++ payload ++ ['}']

end Verif.MsgText
