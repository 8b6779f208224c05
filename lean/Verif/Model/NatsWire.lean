import Verif.Model.Transport

/-!
# Headers on the wire of NATS

What `PublishMsg` of the NATS client (called at pkg/extensions/brokers/nats/nats.go:95 and by JetStream at
natsjetstream/natsjetstream.go:218) makes of the headers of a message, and what the client of the receiver reads. The
client is `github.com/nats-io/nats.go` v1.31.0 (go.mod:16), modelled from its published source, as are `net/http` and
`net/textproto`, which it uses. The server passes the block of headers on as it is.
-/

namespace Verif.Transport

/-- The characters of a token (`httpguts.isTokenTable`). -/
def isToken (c : Char) : Bool :=
  ('a'.toNat ≤ c.toNat && c.toNat ≤ 'z'.toNat) || ('A'.toNat ≤ c.toNat && c.toNat ≤ 'Z'.toNat) ||
    ('0'.toNat ≤ c.toNat && c.toNat ≤ '9'.toNat) ||
    ['!', '#', '$', '%', '&', '\'', '*', '+', '-', '.', '^', '_', '`', '|', '~'].contains c

/-- `httpguts.ValidHeaderFieldName` -/
def validName (k : String) : Bool := !k.toList.isEmpty && k.toList.all isToken

/-- The bytes of a name. Only names of ASCII characters are written. -/
def nameBytes (k : String) : Bytes := k.toList.map (fun c => UInt8.ofNat c.toNat)

/-- The name some bytes write. Simplified: bytes beyond ASCII, which no client writes here, would be UTF-8. -/
def nameOf (b : Bytes) : String := String.ofList (b.map (fun x => Char.ofNat x.toNat))

/-- `headerNewlineToSpace` (net/http/header.go) -/
def toSpace (b : UInt8) : UInt8 := if b = 10 ∨ b = 13 then 32 else b

/-- `isASCIISpace` (net/textproto/reader.go) -/
def isSpace (b : UInt8) : Bool := b == 32 || b == 9 || b == 10 || b == 13

/-- `textproto.TrimString` -/
def trim (v : Bytes) : Bytes := ((v.dropWhile isSpace).reverse.dropWhile isSpace).reverse

/-- A header as it is written: name, colon, blank, value, end of line. -/
def line (k : String) (v : Bytes) : Bytes := nameBytes k ++ 58 :: 32 :: (trim (v.map toSpace) ++ [13, 10])

/-- `http.Header.Write`: headers whose name is not valid are left out. It writes them in the order of their names; `order`
is any. -/
def writeHeader (order : List (String × List Bytes)) : Bytes :=
  order.flatMap (fun e => if validName e.1 then e.2.flatMap (line e.1) else [])

/-- `NATS/1.0` and the end of the line (`hdrLine`) -/
def hdrLine : Bytes := [78, 65, 84, 83, 47, 49, 46, 48, 13, 10]

/-- `Msg.headerBytes` for a message with headers. -/
def headerBytes (order : List (String × List Bytes)) : Bytes := hdrLine ++ writeHeader order ++ [13, 10]

/-- The end of a line without line feed may be a carriage return, which is left out. -/
def elide (l : Bytes) : Bytes :=
  match l.getLast? with
  | some 13 => l.dropLast
  | _ => l

/-- `textproto.Reader.ReadLine` until the end. -/
def linesOf : Bytes → Bytes → List Bytes
  | acc, [] => if acc = [] then [] else [acc]
  | acc, b :: s => if b = 10 then elide acc :: linesOf [] s else linesOf (acc ++ [b]) s

/-- What stands before and behind the first colon. -/
def cutColon : Bytes → Option (Bytes × Bytes)
  | [] => none
  | b :: s => if b = 58 then some ([], s) else (cutColon s).map (fun p => (b :: p.1, p.2))

/-- Blanks at the beginning of a value. -/
def skipBlanks (v : Bytes) : Bytes := v.dropWhile (fun b => b == 32 || b == 9)

/-- `m[key] = append(m[key], v)` -/
def addValue (m : GoMap String (List Bytes)) (k : String) (v : Bytes) : GoMap String (List Bytes) :=
  match m.get k with
  | none => m.put k [v]
  | some vs => m.put k (vs ++ [v])

/-- `readMIMEHeader` of the client. `none`: an error. -/
def readLines (m : GoMap String (List Bytes)) : List Bytes → Option (GoMap String (List Bytes))
  | [] => none
  | [] :: _ => some m
  | kv :: rest => match cutColon kv with
    | none => none
    | some (key, v) => if key = [] then readLines m rest else readLines (addValue m (nameOf key) (skipBlanks v)) rest

/-- `DecodeHeadersMsg` -/
def readHeaders (b : Bytes) : Option (GoMap String (List Bytes)) :=
  match linesOf [] b with
  | [] => none
  | first :: rest => if hdrLine.take 8 <+: first then readLines [] rest else none

/-- A message on its way: without headers no block of headers is sent. `order` is the headers in the order they are
written. -/
def wire (order : List (String × List Bytes)) (m : NatsMsg) : Option NatsMsg :=
  if m.header = [] then some m
  else (readHeaders (headerBytes order)).map (fun h => { m with header := h })

end Verif.Transport
