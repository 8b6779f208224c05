# Formal verification of lerenn/asyncapi-codegen — design

The code under study is in `/repo` (Go).  It has three parts:

* a **runtime library** (`pkg/extensions`): broker subscriptions, acknowledgements,
  middlewares, loggers, the versioning wrapper and the NATS / JetStream / Kafka controllers;
* a **code generator** (`pkg/asyncapi`, `pkg/codegen`, `cmd`): parsing, reference resolution,
  schema merging, naming, tags, template helpers;
* **templates** (`pkg/codegen/generators/v{2,3}/templates`): the Go code every user of the tool
  ends up running (controllers, message encoding and decoding).

## Method

The model is written in Lean 4 under `lean/Verif`:

* `Verif/Base`   — Go data structures (maps with arbitrary iteration order, strings as lists,
                   string splitting, JSON text with a printer and a parser) and their lemmas;
* `Verif/Model`  — one file per modelled unit.  Every definition cites the file and lines it models
                   and states its simplifications;
* `Verif/Spec`   — small independent specifications (what a reader of the English statement expects);
                   short specifications are at the top of the file in `Props` instead;
* `Verif/Proofs` — helper lemmas and invariants;
* `Verif/Props`  — the property theorems `Cxx_…`, each with an `example` showing a non-trivial case
                   meeting the hypotheses.

Conventions:

* Go errors are values (`Option Err`, `Except`), `nil` is explicit, panics are an explicit outcome.
* Goroutines are state machines with an explicit action type; theorems quantify over all action
  lists (all schedules).  Liveness is stated as "some action is always enabled and every action
  decreases a measure", or as "from every reachable state there is a continuation".
* User code (handlers, middlewares, error handlers, ID generators) is universally quantified.
  Middlewares are a deep embedding (`MProg`) of programs that may read and write the message and
  call `next` any number of times, plain or under `recover`.
* Go map iteration is modelled by quantifying over permutations of the entry list.
* When the code violates a property, a theorem `Cxx_violated…` gives a kernel-checked
  counterexample execution of the model, and a `_partial` theorem proves the property under the
  weakest natural hypothesis we found.
* A property is `proved` in `MANIFEST.json` only if no theorem about it is a violation or partial.

## Trusted base

* Lean 4.33.0's kernel; axioms `propext`, `Classical.choice`, `Quot.sound` only.  The appendix gives the
  axioms of each property theorem, as printed by `#print axioms`.  No `sorry`, no `native_decide`, no
  `bv_decide`, no added axiom.
* The correspondence between the Go text in `/repo` and the Lean definitions (by reading; the
  citations make it checkable).  The mutation log `seeded/LOG.jsonl` records how the theorems react
  to wrong models.  It has 3028 lines, one per attempt, of which 2436 are different: the
  automated runs drew some edits several times, and those say nothing new.  `theorems_failed` lists the
  proofs that no longer check; that is not always because the statement became false, a proof script
  can break although its theorem still holds.  Survivors are the informative lines.
* Assumed, not proved: see "What is not modelled".

## What is modelled

| package | modelled | where |
|---------|----------|-------|
| `pkg/extensions/broker.go`, `brokers/*` | acknowledgement, subscription channels, cancellation, publish, read loops, Kafka topic creation, JetStream consumer and dispatch | `Broker`, `Ack`, `Cancel`, `Pipeline`, `Kafka`, `JetStream`, `Transport` |
| `pkg/extensions/middlewares`, `middleware.go` | chains of middlewares, logging, recovery and the provided ones | `Middleware` |
| `pkg/extensions/versioning` | wrapper, per-version subscriptions, locks | `Versioning`, `VersionLocks` |
| `pkg/extensions/loggers` | ECS/Elastic structured fields; the text logger without colours | `Logs`, `TextLog` |
| values in contexts | `context.go`, `middlewares/logging.go`, contexts made by controllers and the versioning wrapper | `Context` |
| `pkg/asyncapi/parser`, `v2`, `v3` | version detection, references, composition of schemas, messages and traits, correlation IDs, required names, names, duplicate removal, resolution of all references of a document | `Parse`, `Refs`, `Walk`, `SchemaMerge`, `Compose`, `Message`, `CorrTree`, `Names`, `Dedup`, `Validations` (merge), `Decode` |
| `pkg/codegen` | options, pipeline, imports, sides, template helpers (namify, tags, validations, addresses, comments) | `Codegen`, `Imports`, `Sides`, `Naming`, `Validations`, `Fields`, `ChannelAddr` |
| `pkg/codegen/generators/v*/templates` | controllers (subscribe, receive, send, request, reply), message conversion, headers, additional properties, type declarations | `Controller`, `SubRace`, `Listen`, `Send`, `Payload`, `Headers`, `AddProps`, `Types`, `Values` |
| from the sender's call to the receiver's handler | the parts above put together | `EndToEnd` |
| from the request to its reply, several requests at once | the parts above put together | `RequestReply` |
| constructors, options and Close of the NATS, JetStream and Kafka controllers | `brokers/*/…go: NewController, With…` | `Connect` |
| a whole subscription: deliveries, listener, teardown and callers together | `broker.go:29-69`, `SubscribeTo…`, `UnsubscribeFrom…` | `Unsub` |
| types, calls and methods in the code of requests and replies | `v3/templates/controller.tmpl:146-533`, `GetMessage`, `OpToMsgTypeName` | `OpTypes` |
| release versions and publication | `build/ci/dagger/git.go`, `docker_image.go`, `module.go: Publish` | `Release` |
| directories of the examples | `build/ci/dagger/utils.go`, `module.go: Examples` | `CiDirs` |
| looking for fields by reflection | `pkg/utils/reflect.go` | `Reflect` |
| text of broker messages | `pkg/extensions/broker.go: String` | `MsgText` |
| JetStream goroutines | `natsjetstream.go: Subscribe, ConsumeMessage, HandleMessage` | `JetRace` |
| JetStream consumers over restarts (server as documented) | `natsjetstream.go: Subscribe, ConsumeMessage, HandleMessage` | `JetCrash` |
| delivering to a subscription that is cancelled (NATS, Kafka, versions) | `broker.go`, `nats.go`, `kafka.go`, `versioning/` | `Feed` |
| processing schemas: termination, results | `v3/schema.go`, `v2/schema.go`: setDependencies, setReference, MergeWith | `Process` |
| types of compositions and their values | `v3/schema.go`: MergeWith; `schema_name.tmpl`, `schema_definition.tmpl`, `helpers.go` | `Variants`, `Values` |
| constraints inherited through references | `v3/schema.go: setReference`, `schema.go: Merge` | `Inherit` |
| functions of generated controllers | `v2/templates/controller.tmpl`, `v3/templates/controller.tmpl`, `subscriber.tmpl`, `OperationName`, `NewActionOperations` | `Methods` |
| texts printed in literals and comments as they are | `types.tmpl`, `message.tmpl`, `controller.tmpl`, `subscriber.tmpl`, `additional_properties.tmpl` of both versions | `Literals` |
| options `--naming-scheme`, `--convert-keys`; strcase v0.3.0 (not in the repository, from its published code) | `pkg/utils/template/helpers.go` | `Strcase` |
| package level names of the generated file (v3; v2 without types nested in schemas) | `pkg/codegen/generators/v3/templates/`, `v2/templates/`, `pkg/asyncapi/v2/{channel,operation,components,message}.go` (names) | `Idents`, `Idents2` |
| the command and its flags; pflag v1.0.5 and the parts of cobra v1.8.0 it uses (not in the repository, from their published code) | `cmd/asyncapi-codegen/` | `CmdLine`, `Command` |
| statements of `Ack`/`Nak` under concurrency; Kafka offsets over restarts (kafka-go as documented) | `broker.go`, `brokers/kafka/kafka.go` | `AckRace`, `KafkaCrash` |
| options and constructors of the broker controllers; `ReaderConfig.Validate` of kafka-go v0.4.42 (not in the repository, from its published code) | `brokers/kafka/kafka.go`, `brokers/natsjetstream/natsjetstream.go` | `BrokerOpts` |
| the import block, and the package qualifiers every template writes | `generators/v3/templates/*.tmpl`, `generators/v2/templates/*.tmpl`, `generators/v{2,3}/generator.go`, `generators/v2/controller.go`, `asyncapi/v3/extensions.go` | `FileImports`, `FileImports2` |
| references to channels in the functions of version 3 | `generators/v3/templates/helpers.go`, `controller.tmpl`, `asyncapi/v3/channel.go`, `operation.go` | `ChanRef` |
| Kafka subscriptions cancelled and made again in one process | `extensions/brokers/kafka/kafka.go`, `extensions/broker.go`, `controller.tmpl` | `KafkaLeave` |
| requests one after the other on one reply channel (NATS, Kafka) | `controller.tmpl`, `extensions/brokers/kafka/kafka.go`, `extensions/brokers/nats/nats.go` | `OldReplies` |
| partitions of Kafka topics: writing and reading | the balancer as documented by kafka-go, a fixed number of partitions | `Partition` |
| validation of additional properties | of the validated object itself, not of those inside it | `ValidatorMore` |
| connections dialled by the Kafka controller | its own, not those inside readers and writers of kafka-go | `KafkaConns` |
| the head of generated files, `modulePathVersion` | comments over several lines are not looked at | `FileHead` |
| references between files | headers and payloads of traits of a dependency are not looked at; percent-encoded names are not decoded by the code nor by the specification | `RefFiles` |
| fields of a struct | only names; quotes and escapes in cases are those of C92; keys of small words for the positive theorems | `Members` |
| names of nested types, v2 | keys of small words; messages given by reference are not looked at (their names start as those of the components) | `Names2` |
| permissions of certificates | runs are not stopped, no operation fails; permissions are the nine bits, without access control lists; `os.WriteFile` and `os.MkdirAll` after their documentation | `CertModes` |
| subscribing and publishing on connections to a NATS server | `brokers/nats/nats.go` | `NatsOrder` |
| messages of NATS that wait for the handler | `brokers/nats/nats.go`, `brokers/common.go`, `extensions/broker.go` | `NatsSlow` |
| one source of messages feeding several subscriptions | `natsjetstream.go: ConsumeMessage, HandleMessage`, `versioning/broker_subscription.go` | `Dispatch` |
| `cmd/asyncapi-codegen` | generate flags | `Cli` |

## What is not modelled

* Go's scheduler fairness and the memory model below channel and mutex operations (data races are
  treated as interleavings of whole map accesses).
* `encoding/json`: used through small value models (`Values`, `Fields`, `Decode`), a text model with proved
  round trip (`Base/Json`), or stated laws (`Headers`).  Float printing and letter-case folding are
  parameters.
* `text/template` evaluation and `golang.org/x/tools/imports`: the *generated* code is modelled
  directly from the template text; formatting is a parameter of `Codegen`.
* The network, the brokers' servers and client libraries: in most models their results are universally
  quantified inputs.  `Transport` assumes a faithful wire (the NATS client normalises some header values).
  Some models assume what a library or server does, as its documentation or published source says; none of it is in
  /repo and it was not run: `NatsWire` (NATS client), `BrokerOpts` (reader checks of kafka-go), `Partition` (its
  balancer), `KafkaCrash`, `KafkaLeave`, `OldReplies` (where readers and groups begin), `JetCrash`, `OldRepliesJet`
  (durable consumers), `Validator*` (go-playground/validator).
* YAML to JSON conversion, the file system below `os.WriteFile`, random UUIDs (an arbitrary
  non-empty text), time (`expired` is an input), `go-playground/validator` beyond the tags used (`Validations`; `Validator`
  follows its published source, which is not in /repo).
* Bindings, servers, tags, security schemes and examples beyond their names and
  references (nothing else uses them); the v2 generation of composed schemas (`SchemaMerge` has the shared part).

## Properties: what is modelled and how it is proved

Runtime:

| id | model | proof |
|----|-------|-------|
| C01 | `Ack`: any list of Ack/Nak | induction over the call list |
| C02, C03 | `Cancel`: waiter goroutine, any number of cancellers, cancel channel of capacity `cap`, context expiry; actions for each channel operation and rendez-vous | invariant over all schedules; counterexample schedule for cap 1 (the capacity all brokers use), exact condition otherwise |
| C04, C05 | `Pipeline`: producer, bounded or rendez-vous queue, listener, closer | invariant `handled ++ current ++ queue = sent`; counterexample for C05 (delivery after close) |
| C06–C10 | `Middleware`: deep embedding of middleware programs, transcription of wrapMiddlewares | structural induction over programs and middleware list with a trace invariant |
| C11–C13 | `Listen` on top of `Middleware`, plus the receive loop | case analysis over chain results, induction over message history |
| C14–C17 | `Controller`: subscription map as state, broker results as inputs | refinement to a set of addresses, induction over histories; counterexamples for rollback (C16) and parameterised channels (C17) |
| C18 | `SubRace`: two callers interleaved at each map access and broker call | counterexample; partial: no race when calls are serialised |
| C19–C24 | `Send`: send, reply and request on top of `Middleware`, the loop over subscription events | unfolding + middleware lemmas, induction over the history; C23 is refuted: for every number of loop turns the loop has not returned |
| C25–C28 | `Versioning`: wrapper state machine with per-version queues and the versions lock | refinement to a routing table (`Spec/Versioning`); C27 refuted (lock kept) |
| C29 | `VersionLocks`: the two mutexes and the goroutines that take them | counterexample schedule to a deadlock state + proof that it is stuck |
| C30–C32 | `JetStream`: tokens split on '.', matching loop, dispatch over permutations, channels map, consume context, readers | equivalence with an inductive definition of NATS matching (`Spec/JetStream`); C32 counterexamples + partial |
| C33 | `Transport`: header maps through NATS and Kafka header lists | round trip over permutations |
| C34–C36, C65 | `Kafka`: ack hooks, read loop, publish loop, topic creation | induction over outcome streams; C35 refuted |

Generated message code:

| id | model | proof |
|----|-------|-------|
| C37, C66 | `Payload`: byte encodings with the width and endianness chosen by the templates | round trip for string, date, JSON payloads; refuted for integers, with the exact set of integers that survive; crash condition |
| C38, C39 | `Headers`: header schema, header struct with pointers, JSON codec as a law | round trip by induction over the field list; refuted for optional object headers |
| C40, C41 | `AddProps`: byte level splicing of MarshalJSON; object decode | grammar predicate; v2 refuted; v3 partial on keys needing no Go-specific escape |
| C51 | `Fields`: omitempty decision and field presence | case analysis + struct round trip |
| C68–C71 | `Types`: declarations written for schemas, messages, documents; struct tags; `Names`: the names of places | induction over schemas of any depth; sublist and permutation arguments; unique splitting of names at the word `From` |
| C72 | `Values`: decode/encode of the generated types, with dates, date-times and additional properties | induction over conforming values, recursive types included; refuted for five kinds of values |
| C73 | `EndToEnd`: send, conversions, versioning, brokers, listening loop put together | composition of the theorems of the parts, induction over the messages |
| C74 | `Walk`: the `setDependencies` methods of both versions as tables of steps over a tree of elements | induction over the tree; exact characterisation; refuted for three members and two crashes |
| C75 | `RequestReply`: concurrent requests, server, brokers and reply channel put together | composition of the theorems of the parts, induction over the calls; refuted for queue groups |
| C76 | `Connect`: options and constructors of the NATS and JetStream controllers over a log of opened and closed connections | induction over the options; refuted for failing constructors |
| C77 | `Connect`: Kafka options over a controller and the dialer shared by the program | induction over the history of the program; refuted for TLS and SASL |
| C78 | `Dispatch`: a dispatcher, bounded buffers and listeners as a state machine | invariants over all schedules, a decreasing measure; refuted beyond the buffer |
| C79 | `Context`: contexts as lists of values over `Send`, `Listen`, `Middleware` | an invariant through the chain of middlewares; refuted for stale correlation IDs |
| C80 | `Context.listenerCtx`: the context variable of the listener | fold over the history; refuted |
| C81 | `TextLog`: the text, for every order of iteration | round trip with a line reader; refuted for values with line breaks |
| C82 | `AckRace`: the statements of Ack and Nak, for any goroutines and copies | invariant over schedules of calls made one at a time; refuted for overlapping calls and copies |
| C83 | `KafkaCrash`: processes reading a log from the committed offset, deciding and crashing | invariant over histories, composed with the read loop of `Listen`; refuted with recovery, automatic commits, no group, decisions out of order |
| C84 | `Send`: the acknowledgements of `waitFor…NextResponse` over whole requests | specification of the wait loop; refuted without correlation ID and for refused replies |
| C85 | `Send`: the v2 `WaitFor…` (`waitForV2`) composed with `Publish…` | specification of the wait loop; refuted for messages without correlation ID |
| C86 | `Unsub`: the cancellation protocol and the flow of messages over one `messages` channel | both sides are refined (projection of schedules), invariants of C02–C04 composed; refuted for queued messages, early returns and new subscriptions |
| C87 | `OpTypes`: the types, calls and methods of the functions of a request and its reply, with one map order per place | a small type checker as specification; equivalence with a condition on the document |
| C88 | `Release`: reading the last tag, the version switch, `Publish` | round trip of tags, induction over histories; refuted for other branches, repeated publications and breaking changes marked with `!` |
| C89 | `MsgText`: the text of a broker message | injectivity by reading back Go string literals, JSON read back; refuted for map order, control characters and payloads that are not JSON |
| C90 | `JetRace`: consumer, readers and cancellations of a JetStream controller, interleaved | inductive invariant over schedules, progress; refuted by schedules that crash, block or leak |
| C91 | `Methods`: names of the methods a controller declares and calls, from the names of a document | classification of names by their first letters, disjointness of blocks; equivalence in v2; refuted by pairs of names |
| C92 | `Literals`: the lines and comments of the templates that print a text of the document as it is | a reader of Go string literals and comments; lengths show that a literal is its text only when no character is escaped; refuted by a version that contains code |
| C93 | `Strcase`: `ToCamel` byte by byte, and the two names of a v2 message | induction over bytes with the state of the loop; fixed points characterised; refuted by `1st`, `$id`, `get_a_user` |
| C94 | `Strcase`: `ToSnake`, `ToKebab`, `ConvertKey` | no two neighbours of the output need a delimiter, hence idempotence; splitting at separators; refuted by `userID`, `user_id` |
| C95 | `CmdLine`: the flags of the command and the parser of pflag, one argument at a time | a relation between command lines and the options they say, by induction over it; refuted by words and by an empty `-i` |
| C96 | `Command`: `main` and `RunE`, composed of `CmdLine`, `Parse`, `Cli` and `Codegen` | refinement to one function from files and options to a text; equivalences; refuted by an empty `-i` |
| C97 | `Idents`, `Idents2`: the package level declarations of the v3 and v2 templates, over `Names` | injectivity of names by last letters and kinds, an equivalence (v2: blocks of kinds, exact for all ASCII keys); refuted by `order`/`newOrder`, by two references to one channel, and for v2 |
| C98 | `Feed`: a sender, a receiver and a cancellation of one subscription, interleaved | invariant over schedules, exact condition of a panic; refuted by schedules for every queue size |
| C99 | `Process`: setDependencies of schemas on a heap, with the depth of calls | invariant (nothing but what the document gives is reached), induction on depths; refuted by an invariant for every circle |
| C100 | `Inherit`: setReference over all schemas, in any order | induction over the order; refuted for chains of two references |
| C101 | `Variants`: the Go type of a schema with alternatives, decoding and encoding its values | refuted (values that are not objects, required properties of other alternatives, different types); partial for objects that agree, by reduction to C72 |
| C102 | `ChannelAddr` (generated address expressions) and `JetStream` (subject matching) together | partial (values without the separator and without wildcards); refuted for values with `.` or `*` |
| C103 | `Convert`: the statements of the conversion functions and the compiler's rules for them | partial (exact characterisation; custom types left out); refuted for eight kinds of messages |
| C104 | `Defined`: declared types, their method sets, and the JSON they read and write | partial (declarations without methods); refuted for additional properties and date-times, for all values |
| C105 | `Required`: the marks of `generateMetadata`, their way through processing, the fields written | partial (documents where no reference leads to a required property); refuted for composed objects (all of them) and for references to required properties |
| C107 | `Again`: marks and processing, call after call | exact final heap by invariant; refuted for compositions and for chains of references |
| C108 | `ReplyLoc`: the walk for required, the generated expression, its Go type and its evaluation | typing and evaluation by induction on the path; refuted for listed messages, forced pointers, optional objects on the path |
| C109 | `Races`: the accesses of every call as events, mutexes, goroutines, schedules | an invariant for any discipline (mutex, owner, constant, early) excludes races; calls checked against it; refuted with reachable races for controllers, JetStream, Kafka options, shared messages |
| C110 | `Decode`: the structures of both versions with their tags, and `encoding/json` on them | tables checked against tables of AsyncAPI's keywords; a simulation by induction on documents gives acceptance and the place of every value; refuted for forms without a fitting type and keywords without field |
| C111 | `Panics`, `Panics2`: `Process` of versions 3 and 2 on a heap with nil pointers, `CustomImports`, `NewActionOperations`, `Follow` | a Hoare logic for "no panic" with an invariant of the heap relative to the decoded document; refuted for the forms left out |
| C112 | `Validator`, `ValidatorTime` (dates): the tag with `%g`, reading it back with `ParseInt`/`ParseFloat`, running it on values of generated types | equivalence of running the tag with conformance to the declared constraints, by mutual induction on schemas; refuted for the constraints left out |
| C113 | `Times`: `Format(RFC3339)`, `MarshalJSON` and `Parse(RFC3339)` of Go's `time`, as the templates call them | exact conditions under which the point in time arrives, round trip by digits; reading all RFC 3339 texts; refuted for fractions, zones with seconds, far years, leap seconds, small letters |
| C114 | `Certs`: the runs of `tools/generate-certs` as sequences of file effects, with crashes and deletions | invariant over histories (last file missing, or what is there is sound); refuted for a run stopped inside the last file, and for a replaced key with the old certificate |
| C115 | `NatsWire`, `Transport`: the block of headers the NATS client writes and reads | exact description of what arrives, for all headers; refuted for names that are no tokens and for values of several lines or with blanks around them |
| C116 | `Lifetimes`: the wrapper with contexts, reading loops that end with their context | refinement of the directory of C26; refuted by the context of another version |
| C117 | `LogSlices`: Go slices over a store of arrays, calls of loggers interleaved | invariant over all schedules; refuted for slices with room |
| C118 | `JetCrash`: stream, durable consumer, controller and its processes | an exact characterisation of what is gone, by induction over histories; refuted between two subscriptions |
| C119 | `CiDirs`: trees of directories, the listing with its errors | exact characterisation by induction over levels and entries |
| C120 | `Reflect`: values with pointers into a heap, the queue of the search | meaning of every answer by induction over the steps, a measure for termination; refuted for different values, cycles and unexported fields |
| C121 | `Waiting`: goroutines in `Subscribe` of the wrapper over Kafka, its lock, the broker's answers, contexts that end | invariant of the lock, a measure for termination; refuted for topics that are not listed |
| C122 | `CorrFns`: the four functions over `CorrTree` and the Go types of `ReplyLoc` | induction over the path; refuted for references, other types, missing and optional objects, forced pointers |
| C123 | `BrokerOpts`: options and constructors of the Kafka and JetStream controllers over the answers of the servers | fold over the options, exact conditions for success, requests, errors and crashes; refuted for Kafka without hosts and with a group and a partition |
| C124 | `FileImports`, `FileImports2`: the import block and the qualifiers written by each template | the qualifiers of a file characterised by an inductive list of reasons, over all documents and parts; exact condition for distinct names; refuted for `errors` (every file) and for the import the documentation shows |
| C125 | `ChanRef`: the steps each place makes along the references to a channel | the channel meant given by an inductive relation over chains of any length; equality of functions with those that fit the channel for one step; witnesses for all channels behind two and three |
| C126 | `KafkaLeave`: any number of subscriptions one after the other, with listeners of cancelled ones still at work | invariants over all histories: a permutation of the offsets (automatic commits), inclusion and equality with the range of offsets (manual); witnesses for any number of messages |
| C127 | `OldReplies`, `OldRepliesJet`: requests (`Send`) on a reply channel that keeps its messages, with the place where each broker lets a subscription begin | induction over the messages received and over the requests; refuted for whole sequences of requests over Kafka |
| C128 | `Partition`: the balancer, the attempts of one publication, readers of one partition and members of a group | induction over attempts and histories; refuted for other partitions, further members and refused attempts |
| C129 | `KafkaConns`: connections dialled by `NewController`, `Subscribe` and `Publish` | invariant on the numbers of connections, induction over rounds, attempts and calls; refuted for connection tests that cannot list the brokers |
| C130 | `FileHead`: the first lines of a generated file, the build information | lines of the text for all names and builds; refuted for names of several lines and for unformatted files |
| C131 | `RefFiles`: the map of dependencies of each file, over `Refs` | equivalence with locations of files for all folders and references; refuted for other folders, for dependencies that refer to files, for the own name and for `..` |
| C132 | `Members`: the fields, methods and cases of the struct of an object, over `Naming` and `Strcase` | characterisation by the words of keys, for all lists of keys of small words; refuted for `additionalProperties`, `marshalJSON`, converted keys and keys without letters |
| C69 (v2) | `Names2`: names of what is nested in schemas of version 2, over `Idents2` | exact characterisation by the words along the way, for all places at any depth; refuted for nested keys, between roots, and with path constants (C97) |
| C133 | `CertModes`: permissions of the directories and files a run creates, umasks, histories | exact condition for a first run, invariant over histories; refuted for the usual umask and for files that are there |
| C134 | `NatsOrder`: connections with the commands they have written, a server that takes them in any interleaving, queue groups | invariants over all histories on the order of the commands of a connection; refuted for other controllers |
| C135 | `NatsSlow`: the messages the client library keeps, the one in the function it calls, the channel of the subscription, the listener | invariant over all histories (order, count, capacities); refuted for every limit and size |
| C106 | `Recursive`, `Values`, `Variants`: what values of the declared types hold in place | partial (types without composition: exact); refuted for alternatives that lead back to the composition |

Generator:

| id | model | proof |
|----|-------|-------|
| C69, C70 (traits) | `Shared`: schemas with addresses, names in a store, the copy of the top of a trait's headers | names after any order of messages; refuted when two messages share an object, equivalence otherwise |
| C42, C43 | `Naming`: byte level transcription of DefaultNamifier | structural; C43 refuted by concrete pairs, partial on lists of words |
| C44, C45 | `ChannelAddr`: regexp replacement, Sprintf format interpretation, multi-line comments | round trip; C44 refuted for `%`, partial otherwise; line splitting lemma |
| C46, C47 | `Refs`: v2 and v3 resolution with panics as outcomes | equivalence with a path-lookup spec (`Spec/Refs`); exact crash condition |
| C48, C67 | `SchemaMerge`, `Compose`: recursive schemas, MergeWith, allOf/anyOf/oneOf, processing of components in any order | lookup-union theorem; induction; C67 refuted; partial for documents of any shape in a good order (`Deep`, on the heap of `Process`), with required names for flat documents |
| C49, C50 | `Validations`: Merge, GenerateValidateTags and the meaning of the tags | per-field laws; C50 refuted for zero bounds |
| C52 | `CorrTree`: downToLocation and creation of missing fields | induction over the path |
| C53, C54 | `Sides`: v2/v3 controller generators | set equalities; C54 refuted, partial for distinct reply channels |
| C55 | `Parse`: version detection, codegen dispatch | decision logic; dependency part refuted |
| C56 | `Cli` | equivalence with a set spec over split |
| C57 | `Imports` | permutation invariance; refuted for schemas below allOf/additionalProperties |
| C58 | `Logs` | insertion lemmas; refuted for conflicting paths |
| C59, C60 | `Codegen`: process-wide options as state, generation pipeline with failures | state machine; C59 refuted |
| C61–C63 | `Message`: traits, oneOf of messages, Follow | lookup lemmas; refutations with witnesses |
| C64 | `Dedup` | characterisation of first occurrences |

## Findings

Places where the code does not do what a property says.  Those with a property have a kernel-checked
witness (`Cxx_violated…`); the others come from reading the code and are listed for completeness.

Runtime library:

1. A message with an unregistered version makes the versioning wrapper return with its lock held: the channel is dead (C27).
2. Lock-order inversion in the versioning wrapper between Subscribe and cancellation: deadlock (C29).
3. The cancel channel has capacity 1: a Cancel can consume its own token and return before teardown (C02); a second Cancel panics (C03).
4. A delivery pending while the subscription is closed panics (C05); likewise after a version is cancelled.
5. The recovery middleware swallows the panic: the message is acknowledged (C12).
6. JetStream: failing to consume leaves a queue without reader, overlapping subscriptions, a second cancel panics (C31, C32); its map is not protected against concurrent use.
7. Kafka consumption ends for ever on a read error (C35).
8. Publishing through the versioning wrapper with nil headers panics (C25).
9. A slow subscriber of one version blocks the others.
10. Structured logs lose fields whose dotted keys clash; the ECS caller field `log` is always lost (C58).

Generated code:

11. Request and WaitFor never return when the context ends or the subscription is closed (C23).
12. SubscribeToAll does not roll back on failure (C16); channels with parameters are not closed (C17); the subscription map is not protected (C18).
13. Integer payloads are written big-endian and read little-endian; numbers are never assigned; short payloads panic (C37, C66).
14. An optional object header is decoded into a nil pointer (C38); an optional struct on the path to the correlation ID is dereferenced by NewX (C39).
15. Additional properties: invalid JSON in v2, Go escapes are not JSON escapes, declared properties must have the additional type (C40, C41).
16. A `%` in an address with parameters is interpreted by Sprintf (C44).
17. A reply address that is present but empty is used (C20). In v3 a request without correlation ID never acknowledges the reply; in v2 an empty correlation ID matches any message without one.
18. A property required only by an allOf branch is a plain field with `omitempty`: its zero value is lost (C51, C48).
19. Types used but not declared: items of arrays of arrays, references to non-object sub-schemas, types of dependencies, channel messages that are references, v2 payloads that refer to compositions (C68).
20. Types declared twice: properties shared through allOf, placeholder headers `Header`, keys with the word From, concatenated names in v2 (C69).
21. An operation without `messages` on a channel with several takes the first in map order (C70).
22. An untyped property puts the struct tag into a comment; names with quotes or commas are cut; a required property named `-` is never written (C71).
23. Integers written as `1.0` or out of range are refused, members that are declared names up to case are taken for them, empty optional arrays are lost (C72).
24. The format `date` and boolean payloads do not compile; forced pointers with a required correlation ID neither; anyOf names call a template that does not exist; arrays without items and messages without payload are template errors.

Generator:

25. Distinct texts get the same Go name (C43).
26. Malformed references, standard JSON pointers into schemas and trailing elements crash or are ignored (C46, C47).
27. Following references stops after one step or never ends on a cycle; message alternatives given by reference add nothing (C62, C63); a self-referencing allOf recurses for ever in v2.
28. A trait's payload is merged into the headers (C61); headers given by reference are rejected; a correlation ID given by a trait gets no field.
29. Zero bounds are lost in tags and when merging (C49, C50).
30. The intermediate levels of a correlation ID location have the type `header`; locations without path panic; the field is created before references are resolved (C52).
31. In v3 a reply operation can overwrite a declared operation of the same name (C53, C54); a reply given by reference or without channel panics; reply.messages is ignored.
32. Versions of dependencies are not checked (C55).
33. Custom imports below allOf and additionalProperties are not collected (C57).
34. Options of one generation leak into the next through package variables (C59); helpers capture them when created.
35. Composition by reference depends on the iteration order of maps (C67); merging the same schema twice duplicates alternatives; a reference to a reference loses properties (C48).
36. Names of tags and security schemes are overwritten by generated ones before duplicates are removed.
37. References that are never resolved in v3: the correlation ID of a message or message trait, the tags of an operation; a correlation ID of the components that is a reference is looked for among the channels (C74).
38. A reply address among the components crashes the generator when it has a location, which AsyncAPI requires (C74).
39. The servers of a channel (`#/servers/…`) and operations at the root cannot be referenced (C46, C74).
40. Processing a specification twice changes it; the output file is not written atomically.
41. A NATS queue group also applies to the subscriptions by which requests wait for replies: replies of concurrent requests get swapped and lost (C75).
42. The connection opened by an option stays open when `NewController` fails; a NATS controller given connection options twice leaks the first connection (C76).
43. The TLS and SASL options of a Kafka controller are stored in `kafka.DefaultDialer`: every controller of the program uses, and sends, the last ones given to any (C77).
44. A handler that does not return stops the other channels of a JetStream controller and the other versions of a channel (C78).
45. A correlated reply to a request whose message has no correlation ID is refused unless the callback sets one (C20).
46. A message without correlation ID that is sent with the context of a handler is reported to middlewares and logs under the correlation ID of the handled message (C79).
47. The logging middleware does not log replies to requests, and structured logs give them no action (C79).
48. The listener of a versioned channel keeps every refused message for ever in its context variable (C80).
49. The text logger prints values with line breaks as they are: the payload of a message can write log lines of its choice (C81). Without a terminal the level of a text log is not printed at all.
50. Ack and Nak test and set a plain field of a copied struct: overlapping calls, or calls on copies of a message, tell the broker several, possibly contradictory outcomes (C82).
51. Kafka with manual commits and the recovery middleware: a message whose handler panicked is skipped for ever once a later one is committed and the process restarts (C83).
52. The default group of Kafka subscribers is empty: commits are refused and every restart reads the topics from their first message. With a group and the default automatic commits, messages read but not handled are lost by a crash (C83).
53. Requests without correlation ID never acknowledge the replies they take: JetStream delivers the old reply again, to the next request. With correlation ID, a matching reply that a middleware refuses is acknowledged and lost (C84).
54. v2 `WaitFor…` awaits the correlation ID of the caller's message; when it has none, the publication sets a fresh one in its copy, and the request acknowledges and ignores the reply for ever (C85).
55. After `UnsubscribeFrom…` returned, even with the complete teardown, the handler is still called for all queued messages (up to 64), and may then run at the same time as the handler of a new subscription to the same address, on older messages (C86).
56. The code of a request does not compile, depending on the random order of maps, when the reply channel has two messages; nor when only the request has a correlation ID, when the request's channel has no address, or when the reply channel has parameters (C87).
57. `Publish` pushes release tags from any branch, and again each time it is run on a commit; breaking changes marked `feat!:` get a minor version (C88).
58. The text of a broker message depends on map order, is not JSON when a header has control characters or the payload is not JSON, and a payload can pass for headers in it (C89).
59. JetStream: cancelling a subscription while a message is handed to it crashes the process or blocks the consumer, and with it all channels, for ever; a reader that starts after its cancellation leaks, or steals messages of the next subscription to the channel and crashes (C90).
60. A v2 channel named `all` (or with that `operationId`) makes code that does not compile: `SubscribeAll` twice. So does a v3 operation `replyToX` that sends, next to an operation `x` with a reply; and two operations replying on one channel (C91). When a v2 channel has two operations only the `operationId` of publish counts, for both.
61. Texts printed between quotation marks as they are: `info.version` can contain any Go code, which becomes code of the package; headers named with backslashes are read and written under other names; path constants differ from the addresses used (C92).
62. With `--naming-scheme camel` properties named `$id` or `@type` get fields that are not exported and are never written, names starting with a digit do not compile, and v2 messages with a one-letter word in their key (`get_a_user`) are declared under another name than they are used, because naming is not idempotent (C93).
63. With `--convert-keys` the properties `userID` and `user_id` of one object get the same JSON name and neither is written; with additional properties the code does not compile (C94).
64. `asyncapi-codegen file.yaml` ignores its argument and reads `asyncapi.yaml`; `asyncapi-codegen -i ""` panics (C95, C96). With `-o` naming the document itself, the document is replaced by code.
65. Messages `order` and `newOrder` (in the components, or in one channel; v2 and v3) make code that does not compile: the function `NewOrderMessage` that makes the first has the name of the type of the second. So do two v3 channels referring to one channel (its path constant is declared twice), and a v2 component message next to a message written in a channel of the same name; with v2, so do channels `user/signup` and `user.signup`, and a channel `user` with both operations next to a channel `userPublish` (C97).
66. Cancelling a subscription (NATS, Kafka, a version) closes its channel while a message may be on its way to it: the process panics. When the handler is slow and the queue of 64 messages is full this needs no race, the waiting sender panics for sure (C98).
67. In version 2 a recursive type written with `allOf` (or `anyOf`, `oneOf`), such as `Tree: {allOf: [{properties: {child: {$ref: Tree}}}]}`, makes the generator die of a stack overflow: a reference copies the alternatives of its target and processes them again. With chains of references it depends on the random order of the components. In both versions a type that contains arrays of `allOf` a reference to itself becomes a circle of pointers, and the next visit of it (nested compositions, a second call of Generate) does not end (C99). In version 3 the copied alternatives land in fields that are hidden by those of the schema, so they are lost.
68. A property referring to a component that is itself a reference has the constraints of the last schema, and their validation tag, in some runs of the generator and not in others (C100).
69. A schema with `allOf`, `anyOf` or `oneOf` always becomes a struct: `{type: string, allOf: [{maxLength: 5}]}` or `{anyOf: [{type: string}, {type: integer}]}` gives an empty struct that refuses every conforming value. Values of one alternative of a `oneOf` are published with the required properties of all others, empty; a property that the alternatives give different types has that of the first (C101).
70. Parameter values are put into addresses without any check: a value with the separator of the address makes it equal to the address of other values, and on NATS the value `*` or `>` makes a subscription receive the messages of every value (C102).
71. Messages whose headers have no property do not compile: the loop variables are unused (C103).
72. Messages with two required headers that are objects do not compile: the second `h, err :=` declares nothing new (C103).
73. Headers that are integers, numbers, booleans or arrays do not compile: the conversion is written with the name of the JSON type (C103).
74. With forced pointers, a required date-time header does not compile: the `*` applies to the formatted text (C103).
75. Number, boolean and untyped payloads, dates, date-time payloads behind a reference and payloads that refer to a reference do not compile (C103).
76. A header that only a branch of a composition lists as required (its own `IsRequired` is computed before the merge) does not compile: the code compares a value with nil (C103).
77. A payload that refers to a schema that is itself a reference to a string is written as text and read as JSON: no text arrives (C37_violated_text_by_two_references).
78. A named schema that is a reference loses the generated JSON methods: additional properties are dropped in both directions, times are written as `{}` and refused when read (C104).
79. A named schema with format `date` does not compile: the generated methods convert `civil.Date` to `time.Time`; neither does one of another type with a date format.
80. A composed object (`allOf`, `anyOf`, `oneOf`) that requires a property of one of its parts gets a plain field for it that is left out of the JSON when empty; the published message then lacks a required property (C105).
81. An optional property that refers to a required property of another schema becomes required itself: a plain field that is always written (C105).
82. A character outside of ASCII in a name, other than after a letter, shifts the capitalisation of the letters behind it: letters are repeated or lost, and different names become the same (C43).
83. With two JetStream subscriptions on one channel, ending the second one crashes: its consumer is stopped twice (C90).
84. A recursive type through alternatives (a tree that is one of leaf and branch, where a branch requires a tree) does not compile: the alternatives are merged into one struct, which holds itself (C106).
85. The comment of a schema without a type prints the Go struct (`%+v`); what it holds behind pointers (properties, items, references) appears as memory addresses, so the generated file differs from run to run (C70).
86. A second `Generate` on the same loaded document gives other types than the first: properties and required names that the first run missed (because of the order, or behind two references) are there the second time (C107).
87. Whether the place of the reply address is required is asked of the operation's first message without following its reference. As AsyncAPI demands references there, a required place gives code that compares a string with nil and does not compile; a missing one is created in the reference only (C108).
88. A reply address below an optional object: a request without this object makes the generated code panic in the listening goroutine, which ends the program (C108).
89. `Operation.Description` of version 3 has the JSON tag `string`, so descriptions of operations are never read (not part of a theorem).
90. Generated controllers keep their subscriptions in a map without a mutex: two goroutines that subscribe or unsubscribe race, which Go punishes with a fatal error (C109).
91. The JetStream controller routes messages through a map without a mutex: subscribing to a second channel races with the arrival of a message on the first one, though the program has one goroutine; so does cancelling (C109).
92. `WithTLS` and `WithSasl` of Kafka write into `kafka.DefaultDialer`, which all controllers share: one controller's credentials apply to all others, and racing with them (C109).
93. The versioning wrapper writes the version into the headers of the message it was given to publish (C109).
94. Documents with forms AsyncAPI allows are refused as a whole: `additionalProperties: false` (or any boolean schema), `type: [string, "null"]`, `multipleOf: 5`, a list of `items`, and in version 3 `contains`, `propertyNames`, `additionalItems` with a schema, `security` of a server, an example whose payload is no object (C110).
95. Keywords of AsyncAPI are skipped silently because of misspelt tags or missing fields: `description` of a v3 operation (tag `string`), the OAuth flow `clientCredentials` (tag `clientCredential`), the schema of a v2 parameter (tag `schema-name`), schemas of another format in v3 (read as an empty schema), and in v2 traits, `$ref` of a channel or of a correlation identifier, `components.channels`, `components.messageTraits` (C110).
96. Documents crash the generator with a nil dereference instead of an error: an operation whose reply has no channel (not required by AsyncAPI) or is a `$ref`; any reply address with a location in `components.replyAddresses`, or in a reply of `components.replies`; a correlation ID or reply address whose location has no `/`; null among traits, `allOf`/`anyOf`/`oneOf`, tags or security schemes, as a property, as a component schema or message, as an operation (C111).
97. Documents of version 2 crash the generator: a null channel, parameter, schema, message, property or alternative; an operation whose message is a `$ref` with fewer than four `/`-separated parts (such as `M`); a correlation ID whose location has no `/` (C111).
98. Two messages of a version 2 document that are references to each other, one of them used by a channel, kill the generator with a stack overflow, which Go cannot recover, when the code of the application or the user is generated (C111).
99. Bounds of a million or more on integers, and lengths of a million or more, are written `1e+06` in the tag; the validator reads them with `ParseInt` and panics on every value. So do fractional bounds on integers (C112).
100. Constraints of array items, and objects inside of arrays, are never validated: the generator does not write `dive` (C112).
101. `uniqueItems` compares objects with optional properties by address, so equal ones are accepted; on arrays of arrays (or of objects with arrays) it makes the validator panic (C112).
102. `minLength`/`maxLength` on an array limit its number of items; on other types they make the validator panic (C112).
103. In enumerated texts and constants, `0x2C` and `0x7C` are read as a comma and a bar by the validator, so these texts are refused (C112).
104. Date-times in headers and payloads lose their fraction of a second, although the same time inside of a JSON object keeps it; zones with seconds shift the time by up to 59 seconds; years after 9999 are sent and refused by the receiver; leap seconds and small letters, which RFC 3339 allows, are refused (C113).
105. The tool that generates certificates only asks whether files are there: a run stopped while it writes the last file leaves a truncated file that no later run completes, and a run stopped between key and certificate, when an old certificate was there, leaves a key and a certificate that do not belong together for ever (C114).
106. A required property of format `date` that the application does not set is sent as `0000-00-00`, which every receiver refuses (C72).
107. Additional properties declared by an alternative of `allOf`, `anyOf` or `oneOf` are dropped: `MergeWith` does not look at them (C101).
108. Over NATS and JetStream headers whose name is not a token (`reply to`, `größe`) are left out without an error, line breaks in values become blanks, and blanks around values are lost: the controllers hand names and values to the client, which writes them like HTTP headers (C115). An end-to-end consequence: the receiver reads another correlation identifier than the one sent when it has a line break or blanks around it (C73).
109. Messages without headers that use a trait with headers share the schemas below them, because only the top is copied. The types of nested objects are then declared once per message, which does not compile, and are named after the message that was processed last, which depends on the order of a map (C69, C70).
110. A channel parameter whose name has no letter or digit (`{-}`) has an empty Go name, and the generated address does not compile (C44).
111. With Kafka and the versioning wrapper, the context of the version that subscribed first to a channel decides for all versions: when it ends, nobody gets messages of this channel any more, even if that version was cancelled long before (C116).
112. The loggers append to the slice they are called with. When it has room, they write into the array of the caller: longer slices of the caller change, and goroutines that log with the same fields mix up levels and messages (C117).
113. The JetStream controller acknowledges every message for which it has no subscription yet. A process makes its subscriptions one after the other, and messages are consumed from the first one on, so each start of a process with two channels can lose messages of the second one for ever, also those that the process before it was given and did not finish (C118).
114. `utils.FieldValueExists` compares only the first field of the name it finds, never ends on cyclic values and panics on unexported fields (C120). The generator does not call it.
115. Subscribing to a Kafka topic that the broker accepts but does not list never returns, even when the context ends; through the versioning wrapper it blocks the subscriptions to all other channels, too (C121).
116. Generating again from a loaded document makes headers of the payload properties that a message has from a trait, repeats the examples of traits, and only then creates the property of a correlation ID that comes from a trait (C107).
117. The functions of a message with a correlation ID do not compile when the payload is a `$ref` to a schema that requires the ID or does not have it, when the ID is not a string written in place, or when an object on its path is missing (C122).
118. A Kafka controller with a group and a partition other than 0, both offered as options, crashes the process at its first subscription, since `kafka.NewReader` panics; the same for a negative partition or size. Without hosts already `NewController` panics, or the first subscription if the connection test is off (C123).
119. A length or a bound on a `date-time` makes the validator compare the instant with the time of the validation: with a `minLength` every instant in the past is refused, with a `maxLength` every one in the future. Any constraint on a `date`, and enumerations or constants on both, make it panic (C112).
120. Every generated file imports `errors`, and no template uses it: with `--disable-formatting` no generated file compiles, whatever the document (the formatter is what removes the import). A custom import of `github.com/google/uuid`, the example of the README, or of any other package the template imports, is declared twice; two custom imports of different paths with one name are not reported (C124).
121. An entry of `operations` that is a reference to an operation of the components (allowed by AsyncAPI 3) is dropped silently: its own, empty action is read instead of that of its target, so neither controller has a function for it (C53).
122. A channel whose entry in `channels` is itself a reference (to `components.channels`) gets wrong functions: `Send…` asks the caller for an address, a request listens on the empty address and never gets its reply, subscriptions to a channel with parameters do not compile, and an operation that lists no messages makes the generation fail. `Follow` makes one step, and most places of the template call it once (C125).
123. With manual commits, the messages waiting in the queue of a Kafka subscription when it is cancelled are handled twice: the reader is closed first, its listener then handles them and its commits are refused (the error is only logged), and the next subscription starts with them again (C126).
124. Over Kafka, requests without correlation ID return old replies: a new reader begins with the first message of the topic (or where the group stands, which requests without correlation ID never move as they acknowledge nothing), so every request returns the reply to the first one. Over JetStream the unacknowledged reply is delivered again, and a later request that gets it first returns it (C127).
125. `Publish` makes a new `kafka.LeastBytes` for each message, so that every message goes to partition 0 whatever the number of partitions. A subscription with `WithPartition` other than 0 receives nothing that such a controller publishes, and only one member of a group gets work. After an attempt that the server refused for its partition, the same message is written to partition 1. This rests on the documented behaviour of the balancer, which is not in `/repo` (C128).
126. The map of additional properties has no `validate` tag, so that the constraints declared for additional properties are never checked: every such value is accepted (C112).
127. The connection test of the Kafka controller closes its connection only when it succeeds: each attempt that can dial but not list the brokers leaves a connection open, and the caller gets nothing to close it with (C129).
128. The package name is never checked: with `--disable-formatting` a file with a package clause that Go refuses is written without an error, and a name of several lines gives a file of another package (C130).
129. The file part of a reference is compared with the paths of the command line as texts: a main document in another folder than the current one misses the files next to it, or silently finds a file of the same name in the current folder; references from one dependency to another file are always errors; a document is not found under its own name, nor with `..` in the reference (C131).
130. The code of an object with additional properties does not compile when one of its properties is called `additionalProperties` or `marshalJSON` (or another spelling of these names), nor, with a conversion of keys, when two keys convert to the same key although their fields differ (`userID` and `user_id`). A key without letters, such as `42`, gives a field without a name, which embeds its type (C132).
131. With version 2 the names of nested types are put together without a separator: for every two keys, the type of the property `c` of the property `b` and that of the property `b_c` next to it meet; the property `data_schema` of the payload of the message `ping` meets the schema `ping_message_payload_data`; the property `path` of that payload meets the path constant of the channel `ping/message/payload` (C69, C97).
132. The certificate tool asks for mode 0777 for the directories and all files: with the usual umask every user can read the private keys of NATS and Kafka, and a key file that can be read stays so when a later run writes a new key to it, whatever the umask (C133).
133. `Subscribe` of the NATS controller returns before the server knows the subscription (nothing is flushed, unlike in `Publish`): a message that another controller publishes right afterwards is lost, though its publication returns without an error (C134).
134. Messages received over NATS are dropped while a handler is slow, beyond the 64 messages of the subscription and those the client library keeps: nothing sets the limits of the library or looks at its errors (C135).
135. Texts enumerated for an integer are compared with its decimal digits: `{type: integer, enum: ["5"]}`, which no integer meets, accepts 5 (C112).

## Appendix: axioms of the property theorems

`p` = propext, `c` = Classical.choice, `q` = Quot.sound.

| property | theorems and axioms |
|---|---|
| C01 | p: `C01_hooks_are_the_first_call`; pq: `C01_at_most_one_hook` |
| C02 | pq: `C02_cancel_postcondition_partial`, `C02_waiting_partial`, `C02_closed_return_partial`, `C02_pending_cancel_can_progress`, `C02_cancel_terminates`, `C02_violated`, `C02_violated_forever`; p: `C02_violated_two_callers` |
| C03 | pq: `C03_teardown_once_in_order`, `C03_only_when_cancelled`, `C03_one_cancel_never_panics`; p: `C03_second_cancel_panics` |
| C04 | pq: `C04_no_loss_no_dup_in_order`, `C04_stopped_listener_handled_everything`, `C04_listener_never_stuck`, `C04_listener_terminates` |
| C05 | none: `C05_violated`; p: `C05_violated_inevitably`, `C05_quiet_close_never_panics_partial` |
| C06 | pcq: `C06_starts_in_order`, `C06_operation_at_most_once` |
| C07 | pcq: `C07_operation_executed` |
| C08 | pcq: `C08_success_iff`; pq: `C08_error_passed_on`; p: `C08_hiding_middleware_hides` |
| C09 | pq: `C09_world_changed_by_operation_only`, `C09_outcomes_are_real`, `C09_operation_sees_last_write` |
| C10 | pq: `C10_logging_harmless`, `C10_intercepter_harmless`, `C10_recovery_harmless`, `C10_recovery_first_no_panic` |
| C11 | pcq: `C11_ack_only_after_success` |
| C12 | pcq: `C12_acked_when_handled`, `C12_nacked_when_failed_partial`, `C12_exactly_one_outcome_partial`; p: `C12_violated_by_recovery`, `C12_violated_by_hiding_middleware` |
| C13 | p: `C13_handles_all_then_stops`, `C13_keeps_listening`, `C13_panic_crashes` |
| C14 | pq: `C14_at_most_one_live_per_address`, `C14_second_subscribe_refused`, `C14_resubscribe_after_unsubscribe` |
| C15 | pq: `C15_refines_a_set`, `C15_unsubscribe_cancels_exactly_that_one` |
| C16 | pq: `C16_success_means_all_subscribed_partial`, `C16_succeeds_when_broker_accepts`, `C16_two_operations_on_one_address_fail`; none: `C16_violated` |
| C17 | pq: `C17_close_releases_all_partial`, `C17_violated` |
| C18 | pq: `C18_serialised_calls_are_safe_partial`, `C18_violated` |
| C19 | pcq: `C19_published_message`; none: `C19_correlation_id` |
| C20 | pcq: `C20_reply_correlated`, `C20_uncorrelated_reply_refused`, `C20_request_without_id_refused`; p: `C20_absent_address_refused_partial`, `C20_violated_empty_address` |
| C21 | pcq: `C21_at_most_one_publication`, `C21_success_means_accepted`, `C21_encode_failure` |
| C22 | pcq: `C22_returns_first_matching_reply`, `C22_acknowledges_all_received`, `C22_awaits_the_id_it_sent`, `C22_v2_returns_first_matching_reply` |
| C23 | p: `C23_waiting_step_reports_partial`, `C23_violated_forever`, `C23_violated` |
| C24 | p: `C24_no_publication_without_subscription`; pq: `C24_subscribes_first_releases_last`, `C24_released_exactly_once`, `C24_v2_subscribes_first_releases_last` |
| C25 | p: `C25_version_tagged_partial`; none: `C25_violated_nil_headers` |
| C26 | pcq: `C26_routes_like_a_directory`, `C26_delivered_once_to_its_version`; p: `C26_dropped_without_version` |
| C27 | none: `C27_violated`; pq: `C27_violated_forever`, `C27_violated_spreads`; pcq: `C27_ignored_on_unused_channel_partial` |
| C28 | pcq: `C28_one_broker_subscription_per_channel`, `C28_second_subscription_refused`; p: `C28_known_without_messages` |
| C29 | p: `C29_violated`; pq: `C29_no_deadlock_partial` |
| C30 | pcq: `C30_matches_like_nats`, `C30_covers_all_strings` |
| C31 | pcq: `C31_routed_to_a_match`, `C31_never_misrouted`, `C31_order_independent_without_overlap`, `C31_overlap_depends_on_order` |
| C32 | pq: `C32_healthy_partial`; none: `C32_violated_orphan_queue`, `C32_violated_two_subscriptions` |
| C33 | pq: `C33_nats_transports_unchanged`, `C33_kafka_transports_unchanged` |
| C34 | pq: `C34_committed_at_most_once`, `C34_auto_commit_ignores_decisions`; pcq: `C34_committed_iff_decided` |
| C35 | p: `C35_delivers_until_first_failure_partial`, `C35_delivers_all_without_failure_partial`, `C35_violated` |
| C36 | pq: `C36_nil_iff_written_once`, `C36_retries_only_unknown_topic`; p: `C36_other_errors_returned`, `C36_returned_error_is_real` |
| C37 | p: `C37_strings_survive_partial`, `C37_json_survives_partial`, `C37_times_survive_iff_partial`, `C37_violated_numbers`, `C37_text_by_reference_partial`, `C37_violated_text_witness`; pcq: `C37_violated_int64_survive_iff`, `C37_violated_int32_survive_iff`, `C37_violated_int32_by_reference`, `C37_violated_witness`; pq: `C37_violated_text_by_two_references` |
| C38 | pcq: `C38_headers_survive_partial`, `C38_absent_is_zero`, `C38_violated`; p: `C38_encoding_fails_only_if` |
| C39 | p: `C39_set_then_get_partial`, `C39_response_correlated_partial`, `C39_lawful_message_type`; none: `C39_violated` |
| C40 | pcq: `C40_v3_marshals_members_partial`, `C40_v2_marshals_members_partial`, `C40_violated_v2_comma`; p: `C40_violated_control_character` |
| C41 | pcq: `C41_round_trip_partial`, `C41_violated_declared_type`, `C41_violated_case` |
| C42 | pcq: `C42_valid`, `C42_idempotent`; pq: `C42_empty_iff_no_letter` |
| C43 | pcq: `C43_same_name_iff_same_words_partial`, `C43_violated`, `C43_violated_parameters`, `C43_any_separators_partial`, `C43_violated_shift`; p: `C43_no_parameters_partial`, `C43_violated_between` |
| C44 | pcq: `C44_substitutes_partial`, `C44_without_parameters`, `C44_violated`, `C44_violated_unnamed`; pq: `C44_segments` |
| C45 | p: `C45_every_line_is_comment`; pq: `C45_lines_start_with_slashes` |
| C46 | pcq: `C46_resolves_partial`, `C46_unknown_is_error`, `C46_v2_supports`, `C46_violated_json_pointer`, `C46_violated_tail`, `C46_violated_escape`, `C46_violated_root` |
| C47 | pcq: `C47_no_panic_partial`, `C47_crashes_iff_partial`, `C47_violated` |
| C48 | p: `C48_properties`; pcq: `C48_adopted`, `C48_violated_two_references`, `C48_required_not_marked`; pq: `C48_alternatives`, `C48_required`, `C48_idempotent_partial`, `C48_violated_alternatives`; none: `C48_alternative_reference` |
| C49 | pcq: `C49_inherits_partial`, `C49_idempotent`; none: `C49_violated_zero` |
| C50 | pcq: `C50_tag_read_partial`, `C50_enforced_partial`, `C50_justified`, `C50_required`, `C50_violated_ignored`, `C50_violated_zero_and_numbers`, `C50_violated_comma` |
| C51 | p: `C51_required_present_partial`, `C51_optional_absent`, `C51_violated_merged_requirement`, `C51_violated_empty_array`; pq: `C51_round_trip_partial` |
| C52 | pcq: `C52_exactly`, `C52_reached_partial`, `C52_unchanged`, `C52_location`, `C52_required`, `C52_elsewhere`, `C52_violated_type`, `C52_violated_reference_required`; none: `C52_violated_reference`; p: `C52_violated_panic` |
| C53 | pq: `C53_v2`, `C53_v3_receive`, `C53_v3_dual_partial`, `C53_v3_both_sides_partial`, `C53_v3_entries_partial`, `C53_violated_reference`; pcq: `C53_v2_count`, `C53_violated_clash`; p: `C53_v2_subscriber`, `C53_v3_counts` |
| C54 | pq: `C54_reply_partial`; pcq: `C54_violated_shared_channel` |
| C55 | pcq: `C55_accepted`, `C55_refused`, `C55_reason`, `C55_main_not_nil`, `C55_generator`, `C55_dependencies`, `C55_violated_dependency` |
| C56 | pcq: `C56_enabled`, `C56_refused`; none: `C56_empty`; p: `C56_total`, `C56_parts`; pq: `C56_fails` |
| C57 | pq: `C57_conflict`, `C57_collected`; pcq: `C57_order`; p: `C57_reorder`, `C57_violated_additional`, `C57_violated_inline`; none: `C57_every_partial` |
| C58 | pq: `C58_exactly`, `C58_found_partial`, `C58_violated`, `C58_sorted`; pcq: `C58_ecs_field`, `C58_ecs_message`, `C58_ecs_level`, `C58_ecs_context`, `C58_ecs_action`, `C58_violated_ecs`, `C58_printed` |
| C59 | p: `C59_isolated_partial`; pcq: `C59_settings`; none: `C59_violated` |
| C60 | p: `C60_other_files`, `C60_untouched`, `C60_written`; pcq: `C60_options_first` |
| C61 | pq: `C61_fields`, `C61_first_wins`, `C61_operation`; p: `C61_headers_partial`, `C61_missing`, `C61_untouched`, `C61_violated_payload`, `C61_violated_headers`, `C61_violated_correlation`, `C61_own_correlation` |
| C62 | p: `C62_inline_partial`, `C62_no_payload_partial`, `C62_every`, `C62_missing`; pq: `C62_violated_reference`, `C62_violated_cycle` |
| C63 | none: `C63_all`; pcq: `C63_acyclic_partial`; p: `C63_violated_cycle`, `C63_one`, `C63_violated_chain` |
| C64 | pq: `C64_names`, `C64_named`, `C64_idempotent` |
| C65 | pq: `C65_topic_check_means_listed`; p: `C65_topic_check_reports_errors` |
| C66 | p: `C66_panics_iff_short_partial`; none: `C66_violated` |
| C67 | p: `C67_violated_order`, `C67_reference_inherits`; pq: `C67_complete_partial`, `C67_requirements_partial`, `C67_sound`, `C67_deep_partial` |
| C68 | pcq: `C68_schema_partial`, `C68_document_partial`, `C68_operations_partial`, `C68_violated_nested_arrays`, `C68_violated_reference_below`, `C68_violated_composed_payload`, `C68_violated_operation`, `C68_text_partial` |
| C69 | pcq: `C69_names_partial`, `C69_violated_names`, `C69_siblings_v2_partial`, `C69_violated_names_v2`, `C69_v2_same_name_partial`, `C69_v2_types_partial`, `C69_v2_violated_nested`, `C69_v2_violated_roots`, `C69_traits_partial`, `C69_violated_traits`, `C69_no_duplicates_partial`, `C69_violated_shared_items`, `C69_violated_placeholder_headers` |
| C70 | pcq: `C70_described_partial`, `C70_violated_addresses`, `C70_violated_traits`, `C70_types`, `C70_operations_partial`, `C70_violated_operation` |
| C71 | pcq: `C71_names_partial`, `C71_additional_partial`, `C71_violated_untyped`, `C71_violated_names` |
| C72 | pcq: `C72_accepts_partial`, `C72_round_trip_partial`, `C72_reads_only_dates`, `C72_untouched_additional_partial`, `C72_untouched_partial`, `C72_violated_untouched_date`, `C72_violated_integers`, `C72_violated_undeclared`, `C72_violated_empty_array`; p: `C72_violated_additional` |
| C73 | pcq: `C73_delivered_partial`, `C73_violated_nats` |
| C74 | pcq: `C74_accepted_iff_partial`, `C74_resolved_partial`, `C74_only`, `C74_resolved_v2`, `C74_error`, `C74_crash`, `C74_order`, `C74_violated_correlation_id`, `C74_violated_operation_tags`, `C74_violated_correlation_id_components`, `C74_violated_reply_address`, `C74_violated_reply`, `C74_violated_servers`; pq: `C74_files` |
| C75 | pcq: `C75_own_reply_partial`, `C75_answered_partial`, `C75_violated_queue_group` |
| C76 | pq: `C76_given_never_closed`, `C76_names`; pcq: `C76_owned_closed_once`, `C76_nats_partial`; none: `C76_violated_leak_on_failure`; p: `C76_violated_nats_two_connections` |
| C77 | pq: `C77_fields_partial`, `C77_alone_partial`, `C77_shared`; p: `C77_violated` |
| C78 | pcq: `C78_in_order`, `C78_isolated_partial`, `C78_violated`; pq: `C78_ends` |
| C79 | pq: `C79_publication_partial`, `C79_reception`, `C79_handler`, `C79_reply`; p: `C79_user_values`, `C79_received_apart`, `C79_version`, `C79_violated_stale`, `C79_violated`; pcq: `C79_logged` |
| C80 | p: `C80_violated_retained`, `C80_partial` |
| C81 | pcq: `C81_partial`, `C81_context_partial`, `C81_field_partial`, `C81_violated` |
| C82 | pq: `C82_partial`; p: `C82_violated`; pcq: `C82_violated_copies` |
| C83 | pcq: `C83_partial`, `C83_no_loss_partial`, `C83_not_again_partial`, `C83_listener_partial`, `C83_violated_recovery`; pq: `C83_resumes`, `C83_failed_commits`, `C83_violated_auto`, `C83_violated_order`, `C83_violated_again` |
| C84 | pcq: `C84_all_acknowledged_partial`; pq: `C84_violated_never`, `C84_violated_stale`; p: `C84_violated_lost` |
| C85 | pcq: `C85_awaits_partial`, `C85_violated_no_id` |
| C86 | pq: `C86_only_the_queue_partial`, `C86_violated_goes_on`, `C86_violated_overlap`; pcq: `C86_violated` |
| C87 | pq: `C87_fits_partial`, `C87_declared_types_partial`, `C87_violated_parameter`; pcq: `C87_only_these_partial`, `C87_violated_two_replies`, `C87_violated_uncorrelated`, `C87_violated_arguments`; none: `C87_violated_reply_messages` |
| C88 | pcq: `C88_publish_partial`, `C88_history_partial`, `C88_malformed_partial`, `C88_violated_branch`, `C88_violated_again`, `C88_violated_titles`, `C88_violated_overflow` |
| C89 | pq: `C89_tells_apart`, `C89_violated_order`; pcq: `C89_json_partial`, `C89_violated_header`, `C89_violated_payload`, `C89_violated_forged` |
| C90 | pcq: `C90_careful_partial`, `C90_dropped_partial`, `C90_progress_partial`, `C90_ends_partial`; p: `C90_violated_crash`, `C90_violated_stuck`, `C90_violated_for_ever`, `C90_violated_leak`, `C90_violated_again`, `C90_violated_twice`, `C90_violated_shared` |
| C91 | pcq: `C91_v2_partial`, `C91_v2_complete`, `C91_violated_v2_all`, `C91_violated_v2_id`, `C91_v3_partial`, `C91_v3_complete_partial`, `C91_violated_v3_reply_name`, `C91_violated_v3_shared`, `C91_violated_v3_keys` |
| C92 | pcq: `C92_literal_partial`, `C92_lines_partial`, `C92_path_partial`, `C92_violated_code`, `C92_violated_value`, `C92_comment_partial`, `C92_violated_comment` |
| C93 | pcq: `C93_alnum`, `C93_exported_partial`, `C93_violated_names`, `C93_stable_partial`, `C93_violated_twice`, `C93_words_partial`, `C93_message_partial` |
| C94 | pcq: `C94_idempotent`, `C94_form`, `C94_words_partial`, `C94_violated_lost`, `C94_unknown`; pq: `C94_written_partial`, `C94_none` |
| C95 | pcq: `C95_values`, `C95_refused`, `C95_violated_word`, `C95_violated_empty`, `C95_quoted`, `C95_commas` |
| C96 | pcq: `C96_success`, `C96_status`, `C96_untouched`, `C96_panic`, `C96_violated_panic`, `C96_again` |
| C97 | pcq: `C97_idents_partial`, `C97_violated_new`, `C97_violated_path`, `C97_violated_v2`, `C97_v2_partial`, `C97_violated_v2_path`, `C97_violated_v2_operations`, `C97_v2_violated_nested` |
| C98 | p: `C98_order_partial`, `C98_quiet_partial`; pq: `C98_stopped_partial`, `C98_violated_full`; pcq: `C98_violated` |
| C99 | pq: `C99_ends_partial`, `C99_plain_partial`, `C99_violated_circle`, `C99_violated_tree`, `C99_violated_order`, `C99_violated_node` |
| C100 | pcq: `C100_direct_partial`, `C100_violated_order`; pq: `C100_chain_partial` |
| C101 | p: `C101_promoted_partial`, `C101_violated_scalars`; pcq: `C101_accepts_partial`, `C101_alone_partial`, `C101_round_trip_partial`, `C101_violated_both`, `C101_violated_types`, `C101_violated_empty`, `C101_violated_additional`; pq: `C101_violated_required` |
| C102 | pcq: `C102_address_determines_parameters_partial`, `C102_isolated_partial`, `C102_violated_separator`, `C102_violated_wildcard` |
| C103 | pcq: `C103_compiles_exactly_partial`, `C103_violated_forced_pointer`, `C103_violated_no_header`, `C103_violated_two_objects`, `C103_violated_header`, `C103_violated_payload`, `C103_violated_reference` |
| C104 | p: `C104_same_json_partial`, `C104_refused`, `C104_references_agree_partial`, `C104_violated_additional_lost`, `C104_violated_time`, `C104_plain`, `C104_violated_witness`; pq: `C104_violated_additional_unwritten` |
| C105 | pcq: `C105_composed_partial`, `C105_object_partial`, `C105_violated_composed`, `C105_violated_reference`; pq: `C105_reference_partial` |
| C106 | p: `C106_valid_partial`, `C106_forced_partial`; pcq: `C106_exact_partial`; pq: `C106_violated_alternatives`; none: `C106_violated_tree`, `C106_violated_tree2` |
| C107 | pcq: `C107_again_partial`, `C107_correlation`; none: `C107_violated_composition`, `C107_violated_composition2`, `C107_violated_chain`; pq: `C107_operations`, `C107_traits_partial`, `C107_headers_partial`, `C107_violated_examples`; p: `C107_violated_payload`, `C107_violated_correlation` |
| C108 | pcq: `C108_listed_partial`, `C108_address_read_partial`, `C108_violated_listed`, `C108_violated_created`, `C108_violated_forced`, `C108_violated_type`, `C108_violated_panic`, `C108_violated_header` |
| C109 | p: `C109_versioning`, `C109_generated_partial`, `C109_nats`, `C109_kafka_partial`, `C109_violated_jetstream_subscribe`, `C109_violated_jetstream_cancel`, `C109_violated_kafka`, `C109_violated_kafka_any`, `C109_violated_headers`; pq: `C109_jetstream_partial`, `C109_violated_generated`; pcq: `C109_generated_exactly` |
| C110 | pcq: `C110_v3_partial`, `C110_v2_partial`, `C110_v3_loaded_partial`, `C110_violated_schema`, `C110_integers`; pq: `C110_v3_standard`, `C110_v2_standard`, `C110_violated_ignored`; p: `C110_violated_boolean`, `C110_violated_security`, `C110_violated_example`, `C110_violated_case` |
| C111 | pcq: `C111_v3_partial`, `C111_v2_partial`; p: `C111_violated_reply`, `C111_violated_reply_reference`, `C111_violated_operation_trait`, `C111_violated_tag`, `C111_violated_component_address`, `C111_violated_address`, `C111_violated_message_trait`, `C111_violated_correlation`, `C111_violated_alternative`, `C111_violated_null`, `C111_violated_operation`, `C111_violated_v2_channel`, `C111_violated_v2_parameter`, `C111_violated_v2_component`, `C111_violated_v2_schema`, `C111_violated_v2_message`, `C111_violated_v2_operation`; pq: `C111_violated_v2_circular` |
| C112 | pcq: `C112_exact_partial`, `C112_required_array`, `C112_violated_large_bound`, `C112_violated_large_length`, `C112_violated_fraction`, `C112_violated_items`, `C112_violated_zero`, `C112_violated_comma`, `C112_violated_unique_objects`, `C112_violated_unique_arrays`, `C112_violated_kind`, `C112_violated_integer_texts`, `C112_violated_escape`, `C112_more_partial`, `C112_more_accepts_partial`, `C112_violated_additional`, `C112_time_partial`, `C112_violated_time`, `C112_violated_date`, `C112_time_absent` |
| C113 | pcq: `C113_text_iff_partial`, `C113_json_iff_partial`, `C113_text_whole_seconds`, `C113_reads_rfc3339_partial`, `C113_refuses_more`, `C113_reads_only_times`, `C113_writes_rfc3339`, `C113_violated_leap_second`, `C113_violated_small_letters`, `C113_violated_fraction`, `C113_violated_zone`, `C113_violated_year`, `C113_assumption_of_C37`, `C113_payload_iff` |
| C114 | pq: `C114_repairs_missing_files`, `C114_keeps_existing`, `C114_usable_partial`, `C114_violated_last_file`, `C114_violated_mixed` |
| C115 | pcq: `C115_what_arrives`, `C115_unchanged_iff_partial`, `C115_violated_names`, `C115_violated_values` |
| C116 | pcq: `C116_nats`, `C116_kafka_partial`; pq: `C116_violated`, `C116_violated_left` |
| C117 | pq: `C117_logged_partial`, `C117_kept_partial`, `C117_violated_overwritten`, `C117_violated_mixed`; pcq: `C117_ecs_partial`, `C117_text_partial` |
| C118 | pcq: `C118_gone_exactly`, `C118_no_loss_partial`, `C118_given_again`, `C118_not_again`, `C118_listener_partial`, `C118_violated_startup` |
| C119 | pq: `C119_found_exactly`, `C119_once`; pcq: `C119_examples` |
| C120 | pq: `C120_yes`, `C120_exact_partial`, `C120_ends`, `C120_violated_first`, `C120_violated_hidden`; p: `C120_violated_cycle` |
| C121 | pq: `C121_no_deadlock`, `C121_violated_forever`; pcq: `C121_returns_partial`, `C121_violated`, `C121_publish_partial` |
| C122 | pcq: `C122_functions_partial`, `C122_reference_partial`, `C122_violated_reference`, `C122_violated_created`, `C122_violated_type`, `C122_violated_gap`, `C122_violated_forced`, `C122_violated_panic` |
| C123 | pq: `C123_kafka_partial`, `C123_jetstream`; pcq: `C123_kafka_subscribe_partial`, `C123_violated_partition`, `C123_jetstream_requests`; none: `C123_violated_hosts` |
| C124 | pcq: `C124_uses`, `C124_imported_partial`, `C124_violated_unused`, `C124_names_partial`, `C124_violated_uuid`, `C124_violated_alias`, `C124_v2_uses`, `C124_v2_imported_partial`, `C124_v2_violated_unused` |
| C125 | p: `C125_direct_partial`, `C125_fit_compiles`, `C125_second_subscribe_partial`, `C125_violated_send`, `C125_violated_request`, `C125_violated_params`; none: `C125_violated_messages`, `C125_violated_third` |
| C126 | pcq: `C126_auto_partial`; pq: `C126_none_lost_partial`, `C126_idle_partial`, `C126_violated_manual`; p: `C126_violated_group` |
| C127 | pcq: `C127_nats`, `C127_group_partial`, `C127_correlated_partial`, `C127_violated_kafka`, `C127_violated_manual`, `C127_jetstream_partial`, `C127_jetstream_correlated_partial`, `C127_jetstream_once_partial`, `C127_violated_jetstream`; pq: `C127_jetstream_numbers`, `C127_jetstream_idle` |
| C128 | pcq: `C128_balance`; p: `C128_first`, `C128_single_partial`, `C128_alone_partial`, `C128_owner_partial`, `C128_violated_partition`, `C128_violated_members`, `C128_violated_refused`; none: `C128_failed` |
| C129 | pq: `C129_returned`; pcq: `C129_closed_partial`, `C129_violated`; p: `C129_published`, `C129_subscribed` |
| C130 | pcq: `C130_head_partial`, `C130_build`, `C130_violated_lines`, `C130_violated_unchecked`; none: `C130_formatted` |
| C131 | pcq: `C131_main_partial`, `C131_within`, `C131_order`, `C131_violated_folder`, `C131_violated_wrong_file`, `C131_violated_between`, `C131_violated_self`, `C131_violated_dots` |
| C132 | pcq: `C132_plain_partial`, `C132_additional_partial`, `C132_unconverted_partial`, `C132_violated_additional`, `C132_violated_method`, `C132_violated_case`, `C132_violated_unnamed` |
| C133 | pq: `C133_first_run_partial`, `C133_masked_partial`, `C133_violated_kept`; pcq: `C133_violated_usual` |
| C134 | pq: `C134_own_partial`, `C134_settled_partial`, `C134_only_partial`, `C134_returns_partial`, `C134_arrives_partial`, `C134_violated_lost`; pcq: `C134_once_partial`, `C134_each_partial` |
| C135 | pq: `C135_order_partial`, `C135_kept_partial`, `C135_drains_partial`, `C135_violated_slow`, `C135_violated_dropped` |
