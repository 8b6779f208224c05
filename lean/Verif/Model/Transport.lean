import Verif.Model.Broker

/-!
# What the broker controllers put on the wire and take from it

NATS (pkg/extensions/brokers/nats/nats.go), JetStream (natsjetstream/natsjetstream.go) and Kafka
(kafka/kafka.go). The wire itself (client libraries and servers) is not modelled here: it is taken to carry the
headers and the data of a message unchanged, in any order. For what the client of NATS does with headers see
`Verif.Model.NatsWire`.
-/

namespace Verif.Transport

/-- `nats.Msg`: headers are multi-valued. -/
structure NatsMsg where
  header : GoMap String (List Bytes)
  data : Bytes
  deriving DecidableEq, Repr

/-- `range bm.Headers`: ranging over a nil map does nothing. -/
def headersOf (bm : BrokerMessage) : GoMap String Bytes :=
  match bm.headers with
  | none => []
  | some h => h

/-- The bytes of a slice; a nil slice has none. -/
def bytesOf : Option Bytes → Bytes
  | none => []
  | some b => b

/-- The message built by `Publish` of NATS (nats.go:86-92) and of JetStream (natsjetstream.go:209-215):
`Header.Set(k, v)` is `h[k] = []string{v}`. `order` is the headers in the order Go iterates them. -/
def natsEncode (order : List (String × Bytes)) (bm : BrokerMessage) : NatsMsg :=
  { header := order.foldl (fun h e => h.put e.1 [e.2]) [], data := bytesOf bm.payload }

/-- One header received: its first value if any (nats.go:131-135, natsjetstream.go:264-268). -/
def putFirst (h : GoMap String Bytes) (e : String × List Bytes) : GoMap String Bytes :=
  match e.2 with
  | [] => h
  | v :: _ => h.put e.1 v

/-- The message rebuilt by `messagesHandler` of NATS (nats.go:127-146) and `HandleMessage` of JetStream
(natsjetstream.go:261-272): the first value of each header. `order` is the order Go iterates them. -/
def natsDecode (order : List (String × List Bytes)) (m : NatsMsg) : BrokerMessage :=
  { headers := some (order.foldl putFirst [])
    payload := some m.data }

/-- `kafka.Message`: headers are a list. -/
structure KafkaMsg where
  headers : List (String × Bytes)
  value : Bytes
  deriving DecidableEq, Repr

/-- The message built by `Publish` (kafka.go:161-170). -/
def kafkaEncode (order : List (String × Bytes)) (bm : BrokerMessage) : KafkaMsg :=
  { headers := order.foldl (fun hs e => hs ++ [(e.1, e.2)]) [], value := bytesOf bm.payload }

/-- The message rebuilt by both handlers (kafka.go:296-309 and :330-344). -/
def kafkaDecode (m : KafkaMsg) : BrokerMessage :=
  { headers := some (m.headers.foldl (fun h e => h.put e.1 e.2) []), payload := some m.value }

end Verif.Transport
