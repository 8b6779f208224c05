{"id": "C01", "title": "A received message is acknowledged at most once", "statement": "Whatever sequence of Ack and Nak calls is made on one received message, the broker's acknowledgement hooks are invoked at most once in total, the hook invoked is the one of the first call, and it is invoked as soon as there is a first call.", "quantifier": "every finite sequence of Ack/Nak calls", "why_tests_cant": "The sequence is unbounded and mixes calls from the listener and the user's error handler.", "anchors": ["pkg/extensions/broker.go: AcknowledgeableBrokerMessage.Ack, Nak"]}
{"id": "C02", "title": "Cancel returns only after the subscription is torn down", "statement": "When Cancel on a broker subscription returns and its context had not expired, the broker-side cleanup has completed and the subscription's message channel is closed.", "quantifier": "every schedule of the cancelling goroutine(s), the cleanup goroutine and context expiry, for every capacity of the cancel channel", "why_tests_cant": "A race: the losing interleaving needs the canceller to read back its own token before the cleanup goroutine is scheduled.", "anchors": ["pkg/extensions/broker.go: BrokerChannelSubscription.Cancel, WaitForCancellationAsync"]}
{"id": "C03", "title": "Teardown happens at most once and in order", "statement": "In every execution the cleanup callback of a subscription runs at most once, the message channel is closed only after the cleanup, and the cancel channel is closed only after the message channel; with at most one Cancel call nothing panics.", "quantifier": "every schedule, any number of Cancel calls (panic freedom: at most one Cancel call)", "why_tests_cant": "Double close / send on closed channel only show up under specific interleavings.", "anchors": ["pkg/extensions/broker.go: BrokerChannelSubscription.Cancel, WaitForCancellationAsync"]}
{"id": "C04", "title": "Every message the broker hands over reaches the listener once and in order", "statement": "Between the broker delivering messages to a subscription and the subscription's listener taking them, no message is lost, duplicated or reordered, whatever the queue size; once the listener has stopped it has processed every message that was handed over.", "quantifier": "every schedule of producer, listener and closer, every queue capacity, every message history", "why_tests_cant": "Loss or reordering depends on scheduling and on how full the queue is.", "anchors": ["pkg/extensions/broker.go: TransmitReceivedMessage, MessagesChannel, WaitForCancellationAsync", "pkg/codegen/generators/v3/templates/controller.tmpl: SubscribeTo…, listenTo…NextMessage"]}
{"id": "C05", "title": "Cancelling a subscription never crashes the process", "statement": "Cancelling a subscription while the broker is still delivering messages never panics the process.", "quantifier": "every schedule of the delivering goroutine and the cancellation", "why_tests_cant": "The failing interleaving (delivery after close of the message channel) is a narrow race.", "anchors": ["pkg/extensions/broker.go: TransmitReceivedMessage, WaitForCancellationAsync", "pkg/extensions/brokers/nats/nats.go: messagesHandler", "pkg/extensions/brokers/kafka/kafka.go: autoCommitMessagesHandler, manualCommitMessagesHandler"]}
{"id": "C06", "title": "Middlewares run at most once each, in registration order, and the operation at most once", "statement": "For one message, each registered middleware is entered at most once, they are entered in registration order with none skipped, and the final operation (handler or publish) is executed at most once, only after every middleware was entered — however many times middlewares call next, in whatever order, whatever they return.", "quantifier": "every list of middlewares with arbitrary behaviour, every message and context", "why_tests_cant": "Middlewares are arbitrary user code; calls to next can be repeated, nested, dropped.", "anchors": ["pkg/codegen/generators/v3/templates/controller.tmpl: wrapMiddlewares, executeMiddlewares", "pkg/codegen/generators/v2/templates/controller.tmpl: wrapMiddlewares, executeMiddlewares"]}
{"id": "C07", "title": "The operation is executed even when middlewares do not call next", "statement": "If no middleware returns an error, hides an error of next or panics, then the operation is executed exactly once, whether or not the middlewares call next.", "quantifier": "every list of middlewares with arbitrary behaviour", "why_tests_cant": "Quantifies over arbitrary user code.", "anchors": ["pkg/codegen/generators/v3/templates/controller.tmpl: wrapMiddlewares, executeMiddlewares"]}
{"id": "C08", "title": "Errors surface through the middleware chain", "statement": "When every middleware reports the errors returned by next, the chain succeeds if and only if the operation was executed and succeeded and no middleware reported an error; when middlewares pass the error on unchanged, the chain's error is exactly the operation's error.", "quantifier": "every list of error-propagating middlewares, every operation outcome", "why_tests_cant": "Quantifies over arbitrary user code and nesting.", "anchors": ["pkg/codegen/generators/v3/templates/controller.tmpl: wrapMiddlewares, executeMiddlewares"]}
{"id": "C09", "title": "Middleware edits of the message are what the operation sees", "statement": "The message decoded by the handler, or published to the broker, is the message as left by the last middleware write that happened before the operation.", "quantifier": "every list of middlewares reading and writing the message", "why_tests_cant": "Depends on pointer sharing across closures for arbitrary middleware code.", "anchors": ["pkg/codegen/generators/v3/templates/controller.tmpl: executeMiddlewares, listenTo…NextMessage, Send…"]}
{"id": "C10", "title": "Provided middlewares are harmless", "statement": "Adding the logging middleware, or the recovery middleware when nothing panics, anywhere in the middleware list never changes the outcome of the chain nor the message and number of executions of the operation; with the recovery middleware outermost no panic of later middlewares or of the handler escapes.", "quantifier": "every position in every middleware list, every operation", "why_tests_cant": "Position and neighbours are arbitrary.", "anchors": ["pkg/extensions/middlewares/recovery.go", "pkg/extensions/middlewares/logging.go", "pkg/extensions/middlewares/intercepter.go", "pkg/codegen/generators/v3/templates/controller.tmpl: wrapMiddlewares"]}
{"id": "C11", "title": "A message is acknowledged only after the handler succeeded", "statement": "When the user's error handler does not acknowledge messages itself, a received message is positively acknowledged only if it was decoded and the handler returned without error on it.", "quantifier": "every message, decode result, handler, middleware list", "why_tests_cant": "Quantifies over handlers and middlewares.", "anchors": ["pkg/codegen/generators/v3/templates/controller.tmpl: listenTo…NextMessage", "pkg/codegen/generators/v2/templates/controller.tmpl: listenTo…NextMessage"]}
{"id": "C12", "title": "Every received message gets exactly one acknowledgement outcome", "statement": "Every message taken by a listener is either acked or nacked, exactly once: acked when decoding and handler succeeded, nacked — after the error handler was told the error exactly once — otherwise.", "quantifier": "every message, handler outcome (success, error, panic), middleware list", "why_tests_cant": "Fails only for particular middleware behaviours (swallowed errors, recovered panics).", "anchors": ["pkg/codegen/generators/v3/templates/controller.tmpl: listenTo…NextMessage", "pkg/extensions/middlewares/recovery.go"]}
{"id": "C13", "title": "The listener processes messages in order until the subscription is closed", "statement": "A listener handles the messages of its subscription one at a time, in order, continues after decode, handler and middleware errors, and stops exactly when the subscription is closed and drained.", "quantifier": "every message history and every handler behaviour without panic", "why_tests_cant": "Histories are unbounded.", "anchors": ["pkg/codegen/generators/v3/templates/controller.tmpl: SubscribeTo…, listenTo…NextMessage"]}
{"id": "C14", "title": "At most one live subscription per address", "statement": "A controller used sequentially holds at most one live broker subscription per channel address; subscribing again to a subscribed address fails with ErrAlreadySubscribedChannel and does not touch the broker; after unsubscribing it is possible again.", "quantifier": "every history of subscribe/unsubscribe calls and broker results", "why_tests_cant": "Histories are unbounded.", "anchors": ["pkg/codegen/generators/v3/templates/controller.tmpl: SubscribeTo…, UnsubscribeFrom…"]}
{"id": "C15", "title": "The controller's subscriptions behave like a set", "statement": "A sequentially used controller's observable subscription state is the set of addresses successfully subscribed and not since unsubscribed: live broker subscriptions are exactly that set, every unsubscribe of a member cancels exactly one broker subscription and of a non-member does nothing.", "quantifier": "every history of API calls and broker results", "why_tests_cant": "Histories are unbounded.", "anchors": ["pkg/codegen/generators/v3/templates/controller.tmpl: SubscribeTo…, UnsubscribeFrom…, SubscribeToAllChannels, UnsubscribeFromAllChannels, Close"]}
{"id": "C16", "title": "Subscribing to all channels is all or nothing", "statement": "SubscribeToAllChannels returns nil only when every parameterless receive channel is subscribed; when it fails it leaves no new subscription behind.", "quantifier": "every list of channels, every prior state, every pattern of broker failures", "why_tests_cant": "The failure point is arbitrary.", "anchors": ["pkg/codegen/generators/v3/templates/controller.tmpl: SubscribeToAllChannels"]}
{"id": "C17", "title": "Close releases every subscription", "statement": "After Close the controller holds no live broker subscription.", "quantifier": "every history of API calls before Close", "why_tests_cant": "Depends on which channels (with or without parameters) were subscribed before.", "anchors": ["pkg/codegen/generators/v3/templates/controller.tmpl: Close, UnsubscribeFromAllChannels"]}
{"id": "C18", "title": "Concurrent subscriptions to one address are safe", "statement": "Two goroutines subscribing to the same address on one controller never both create a live broker subscription.", "quantifier": "every interleaving of the two calls", "why_tests_cant": "A check-then-act race.", "anchors": ["pkg/codegen/generators/v3/templates/controller.tmpl: SubscribeTo…"]}
{"id": "C19", "title": "Published messages carry the right correlation ID", "statement": "For operations with a correlation ID, every message handed to the broker by Send/Publish carries a non-empty correlation ID before middlewares run: the caller's if it was set, a fresh one otherwise; nothing else of the message is changed.", "quantifier": "every message, every ID generator result", "why_tests_cant": "Quantifies over all messages and locations (required or optional field).", "anchors": ["pkg/codegen/generators/v3/templates/controller.tmpl: Send…", "pkg/codegen/generators/v2/templates/controller.tmpl: Publish…", "pkg/codegen/generators/v3/templates/message.tmpl: CorrelationID, SetCorrelationID"]}
{"id": "C20", "title": "Replies are correlated with their request", "statement": "ReplyTo gives the reply the correlation ID of the request before calling the user's function; a reply that ends up without correlation ID is refused with ErrNoCorrelationIDSet and nothing is published; a reply to an empty reply address is refused.", "quantifier": "every request, reply function and reply address", "why_tests_cant": "Quantifies over user functions.", "anchors": ["pkg/codegen/generators/v3/templates/controller.tmpl: ReplyTo…, Send…", "pkg/codegen/generators/v3/templates/message.tmpl: SetAsResponseFrom"]}
{"id": "C21", "title": "A send publishes at most once and success means published", "statement": "One Send call hands the message to the broker at most once, on the operation's address; if Send returns nil and no middleware hides errors, the broker accepted the message exactly once; if it fails to encode, nothing is published.", "quantifier": "every message, middleware list and broker outcome", "why_tests_cant": "Quantifies over middlewares.", "anchors": ["pkg/codegen/generators/v3/templates/controller.tmpl: Send…", "pkg/codegen/generators/v2/templates/controller.tmpl: Publish…"]}
{"id": "C22", "title": "A request returns only the matching reply", "statement": "A request with correlation ID returns a message only if that message was received on the reply channel with the request's correlation ID; it returns the first such message accepted by the middlewares; all the others received before are acknowledged and skipped.", "quantifier": "every history of messages on the reply channel", "why_tests_cant": "Histories and interleavings of other replies are unbounded.", "anchors": ["pkg/codegen/generators/v3/templates/controller.tmpl: Request…, waitFor…NextResponse", "pkg/codegen/generators/v2/templates/controller.tmpl: WaitFor…"]}
{"id": "C23", "title": "A request ends when its context ends", "statement": "When the context of a pending request is cancelled, or its reply subscription is closed, the request returns an error.", "quantifier": "every history of messages before the cancellation", "why_tests_cant": "Non-termination cannot be observed by a test in finite time; a test can only time out.", "anchors": ["pkg/codegen/generators/v3/templates/controller.tmpl: Request…, waitFor…NextResponse", "pkg/codegen/generators/v2/templates/controller.tmpl: WaitFor…"]}
{"id": "C24", "title": "A request listens before it sends and always releases its subscription", "statement": "A request subscribes to the reply channel before publishing, publishes nothing if the subscription fails, and whenever it returns, in any way, it has cancelled its subscription exactly once.", "quantifier": "every outcome of subscribe, send and wait", "why_tests_cant": "All error paths.", "anchors": ["pkg/codegen/generators/v3/templates/controller.tmpl: Request…"]}
{"id": "C25", "title": "Versioning wrapper tags published messages", "statement": "A message published through the versioning wrapper with a version in context reaches the broker with exactly that version in the version header, all other headers and the payload unchanged; without version it is unchanged.", "quantifier": "every message and context", "why_tests_cant": "Includes messages with nil headers.", "anchors": ["pkg/extensions/versioning/wrapper.go: Publish"]}
{"id": "C26", "title": "Versioned messages reach exactly the subscriber of their version", "statement": "A message received by the versioning wrapper is delivered exactly once, in order, to the subscriber of its version (the default version when it has none), and to nobody else; without version and default it is dropped.", "quantifier": "every history of subscribe, cancel and messages in which every version met is registered", "why_tests_cant": "Histories are unbounded.", "anchors": ["pkg/extensions/versioning/broker_subscription.go: launchListener"]}
{"id": "C27", "title": "A message of an unknown version is ignored", "statement": "A message whose version nobody subscribed does not affect later messages, subscriptions or cancellations.", "quantifier": "every history", "why_tests_cant": "The failure shows only on operations after the unknown version.", "anchors": ["pkg/extensions/versioning/broker_subscription.go: launchListener"]}
{"id": "C28", "title": "One broker subscription per channel, released with the last version", "statement": "The versioning wrapper holds exactly one broker subscription for each channel with at least one version subscribed and none for other channels; subscribing the same version twice is refused without side effect.", "quantifier": "every history of subscribe (with broker outcome) and cancel", "why_tests_cant": "Histories are unbounded.", "anchors": ["pkg/extensions/versioning/wrapper.go: Subscribe, createBrokerChannels", "pkg/extensions/versioning/broker_subscription.go: createVersionListener, removeVersionListener"]}
{"id": "C29", "title": "Versioning wrapper does not deadlock", "statement": "Concurrent Subscribe calls, cancellations and message deliveries on a versioning wrapper never deadlock.", "quantifier": "every schedule", "why_tests_cant": "Lock-order inversions need a precise interleaving.", "anchors": ["pkg/extensions/versioning/wrapper.go: Subscribe", "pkg/extensions/versioning/broker_subscription.go: removeVersionListener"]}
{"id": "C30", "title": "Subject matching follows NATS wildcard rules", "statement": "A concrete subject is matched by a subscription pattern exactly when NATS says so: literal tokens are equal, '*' stands for exactly one token, a final '>' for one or more tokens, anything else for itself.", "quantifier": "all pairs of valid subject and pattern strings", "why_tests_cant": "Infinite domain with corner cases (lengths, '>' position, empty tokens).", "anchors": ["pkg/extensions/brokers/natsjetstream/natsjetstream.go: MatchSubjectSubscription"]}
{"id": "C31", "title": "JetStream messages reach a matching subscription", "statement": "A JetStream message is handed to the subscription whose pattern matches its subject; if none matches it is acknowledged and dropped; a message is never handed to a subscription that does not match.", "quantifier": "every set of subscriptions, iteration order and message", "why_tests_cant": "Depends on map iteration order when patterns overlap.", "anchors": ["pkg/extensions/brokers/natsjetstream/natsjetstream.go: ConsumeMessage"]}
{"id": "C32", "title": "JetStream subscriptions can be opened and cancelled in any order", "statement": "Opening and cancelling JetStream subscriptions, also several on one channel, never crashes and leaves no queue behind without a reader.", "quantifier": "every history of subscribe (with broker outcome) and cancel", "why_tests_cant": "Histories are unbounded.", "anchors": ["pkg/extensions/brokers/natsjetstream/natsjetstream.go: Subscribe, ConsumeIfNeeded, StopConsumeIfNeeded"]}
{"id": "C33", "title": "Brokers transport headers and payload unchanged", "statement": "A message published through the NATS, JetStream or Kafka controller arrives with the same payload and the same headers, whatever the iteration order of the header map.", "quantifier": "every message and header iteration order", "why_tests_cant": "Map iteration order and header sets are unbounded.", "anchors": ["pkg/extensions/brokers/nats/nats.go: Publish, messagesHandler", "pkg/extensions/brokers/kafka/kafka.go: Publish, autoCommitMessagesHandler, manualCommitMessagesHandler", "pkg/extensions/brokers/natsjetstream/natsjetstream.go: Publish, HandleMessage"]}
{"id": "C34", "title": "Kafka commits a message only after it was decided on", "statement": "With manual commit, a Kafka message is committed at most once and only after the consumer decided on it (Ack or Nak, both commit as documented); with automatic commit Ack and Nak commit nothing.", "quantifier": "every sequence of acks and naks", "why_tests_cant": "Histories are unbounded.", "anchors": ["pkg/extensions/brokers/kafka/kafka.go: BrokerAcknowledgment, manualCommitMessagesHandler, autoCommitMessagesHandler, NoopCommit"]}
{"id": "C35", "title": "Kafka consumption survives read errors", "statement": "After a failed read that is not a cancellation the Kafka subscription keeps delivering the following messages.", "quantifier": "every history of read results", "why_tests_cant": "Transient errors at arbitrary points.", "anchors": ["pkg/extensions/brokers/kafka/kafka.go: autoCommitMessagesHandler, manualCommitMessagesHandler"]}
{"id": "C36", "title": "Kafka publish reports success only when written", "statement": "Kafka Publish returns nil only if one write of the message succeeded, writes it successfully at most once, retries only on unknown topic, and returns any other error at once.", "quantifier": "every sequence of write and topic-check outcomes", "why_tests_cant": "The retry loop is unbounded.", "anchors": ["pkg/extensions/brokers/kafka/kafka.go: Publish, checkTopicExistOrCreateIt"]}
{"id": "C37", "title": "Payloads survive the wire", "statement": "Decoding an encoded message yields the payload that was sent, for every payload type the generator supports.", "quantifier": "every payload value of every payload type and format", "why_tests_cant": "Value space is infinite; endianness and width errors are invisible for symmetric values.", "anchors": ["pkg/codegen/generators/v3/templates/message.tmpl: toBrokerMessage, brokerMessageTo…"]}
{"id": "C38", "title": "Headers survive the wire", "statement": "Decoding an encoded message yields the header fields that were sent, required and optional ones, whatever unknown headers are added on the way and whatever the header iteration order.", "quantifier": "every header schema, header values, extra headers, order", "why_tests_cant": "Schemas and values unbounded.", "anchors": ["pkg/codegen/generators/v3/templates/message.tmpl: toBrokerMessage, brokerMessageTo…"]}
{"id": "C39", "title": "Correlation ID accessors are lawful", "statement": "After SetCorrelationID(id), CorrelationID returns id and no other field changed; SetAsResponseFrom(req) makes CorrelationID return req's.", "quantifier": "every message and id, required or optional location at any depth", "why_tests_cant": "Location depth is unbounded.", "anchors": ["pkg/codegen/generators/v3/templates/message.tmpl: CorrelationID, SetCorrelationID, SetAsResponseFrom"]}
{"id": "C40", "title": "Marshalling additional properties yields a valid JSON object", "statement": "The JSON of an object with additional properties is a well-formed JSON object whose members are exactly the declared properties followed by the additional ones.", "quantifier": "every declared member list, every additional property map, every iteration order", "why_tests_cant": "Corner case of no declared property; key escaping.", "anchors": ["pkg/codegen/generators/v3/templates/marshaling/additional_properties.tmpl: MarshalJSON", "pkg/codegen/generators/v2/templates/marshaling/additional_properties.tmpl: MarshalJSON"]}
{"id": "C41", "title": "Objects with additional properties round-trip", "statement": "Unmarshalling the JSON of an object with additional properties gives back its declared fields and its additional properties, without any declared key among the latter.", "quantifier": "every object value", "why_tests_cant": "Property types may clash with the additional property type.", "anchors": ["pkg/codegen/generators/v3/templates/marshaling/additional_properties.tmpl: UnmarshalJSON"]}
{"id": "C42", "title": "Generated names are valid, stable Go identifiers", "statement": "Naming a text yields only letters and digits, starts with an upper-case letter when not empty, and naming the result again changes nothing.", "quantifier": "every text", "why_tests_cant": "Infinite domain; names are re-namified at many places in the templates.", "anchors": ["pkg/utils/template/helpers.go: DefaultNamifier, Namify"]}
{"id": "C43", "title": "Distinct names stay distinct", "statement": "Two different channels, messages or properties of a document never get the same generated Go name.", "quantifier": "every pair of names", "why_tests_cant": "Infinite domain of pairs.", "anchors": ["pkg/utils/template/helpers.go: DefaultNamifier", "pkg/asyncapi/v3/utils.go: generateFullName"]}
{"id": "C44", "title": "Channel addresses are built by substituting parameters", "statement": "The address used by the generated code is the channel address of the document with each {parameter} replaced by the caller's value, everything else unchanged.", "quantifier": "every channel address and every parameter values", "why_tests_cant": "Addresses may contain formatting metacharacters.", "anchors": ["pkg/codegen/generators/v3/templates/helpers.go: GenerateChannelAddr", "pkg/codegen/generators/v2/templates/helpers.go: GenerateChannelPath"]}
{"id": "C45", "title": "Descriptions cannot escape their comment", "statement": "Whatever text a document's description contains, every line generated from it starts with //.", "quantifier": "every text", "why_tests_cant": "Infinite domain; a miss is a code injection in generated code.", "anchors": ["pkg/utils/template/helpers.go: MultiLineComment", "pkg/codegen/generators/v3/templates/message.tmpl"]}
{"id": "C46", "title": "References resolve to the designated element", "statement": "Resolving a reference yields exactly the element at that path in the referenced document, an error when the document, the kind or the element does not exist.", "quantifier": "every document, dependency set and reference", "why_tests_cant": "Infinite domain of references.", "anchors": ["pkg/asyncapi/v2/specification.go: reference, getDependencyBasedOnRef", "pkg/asyncapi/v3/specification.go: reference, getDependencyBasedOnRef"]}
{"id": "C47", "title": "Malformed references are reported, not fatal", "statement": "No reference text makes the generator crash: malformed references are reported as errors.", "quantifier": "every reference text", "why_tests_cant": "Infinite domain.", "anchors": ["pkg/asyncapi/v2/specification.go: reference", "pkg/asyncapi/v2/schema.go: referenceFrom", "pkg/asyncapi/v3/specification.go: reference"]}
{"id": "C48", "title": "Schema composition keeps every property", "statement": "Merging schemas (allOf, anyOf, oneOf) gives an object schema with the union of the properties, the first definition winning, a duplicate-free union of the required names, and merging the same schema twice changes nothing.", "quantifier": "every pair of schemas with or without references", "why_tests_cant": "Infinite domain of schemas.", "anchors": ["pkg/asyncapi/v2/schema.go: MergeWith", "pkg/asyncapi/v3/schema.go: MergeWith", "pkg/utils/slice.go: RemoveDuplicateFromSlice"]}
{"id": "C49", "title": "Referenced constraints are inherited", "statement": "A schema that references another one ends up with every validation constraint declared by the referenced schema, and keeps its own where the referenced schema declares none; inheriting twice changes nothing.", "quantifier": "every pair of constraint sets", "why_tests_cant": "Many fields, zero values.", "anchors": ["pkg/asyncapi/schema.go: Validations.Merge"]}
{"id": "C50", "title": "Validation tags enforce the declared constraints", "statement": "Every length, bound, uniqueness, enum and const constraint declared in the document appears in the generated validation tag.", "quantifier": "every set of constraints", "why_tests_cant": "Zero-valued bounds are a corner case of every numeric constraint.", "anchors": ["pkg/codegen/generators/helpers.go: GenerateValidateTags, appendDirectiveIfDefined"]}
{"id": "C51", "title": "Required fields are always serialised, optional ones omitted when absent", "statement": "A required property is always present in the JSON unless x-omitempty asks otherwise, an absent optional property is not, and decoding gives back the same field.", "quantifier": "every property declaration and value", "why_tests_cant": "Interplay of required, x-omitempty and pointer generation.", "anchors": ["pkg/codegen/generators/helpers.go: GenerateJSONTags, shouldAddOmitEmpty", "pkg/codegen/generators/v3/templates/helpers.go: isFieldPointer"]}
{"id": "C52", "title": "The correlation ID location always exists", "statement": "After processing a message with a correlation ID location, following that location in the message schema reaches a string property, and all properties that existed before are unchanged.", "quantifier": "every message schema and location", "why_tests_cant": "Depth unbounded.", "anchors": ["pkg/asyncapi/v2/message.go: createTreeUntilCorrelationID, downToCorrelationID", "pkg/asyncapi/v3/message.go: createTreeUntilLocation, downToLocation"]}
{"id": "C53", "title": "Application and user sides are dual", "statement": "What the application can receive is exactly what the user can send and vice versa, and each declared operation appears on both sides.", "quantifier": "every document", "why_tests_cant": "Documents unbounded.", "anchors": ["pkg/codegen/generators/v2/controller.go: NewControllerGenerator", "pkg/codegen/generators/v3/common.go: NewActionOperations", "pkg/codegen/generators/v3/controller.go"]}
{"id": "C54", "title": "Every request has its reply function", "statement": "For every receive operation with a reply the generated controller has the function that sends that reply.", "quantifier": "every document and operation iteration order", "why_tests_cant": "Collisions depend on several operations sharing a channel, and on map order.", "anchors": ["pkg/codegen/generators/v3/common.go: NewActionOperations"]}
{"id": "C55", "title": "Only supported versions are accepted and drive the right generator", "statement": "A document is accepted exactly when its asyncapi field is a supported version string, and it is processed by the implementation of its major version; dependencies of another major version are refused.", "quantifier": "every document", "why_tests_cant": "Infinite domain of version fields.", "anchors": ["pkg/asyncapi/parser/parse.go", "pkg/asyncapi/versions.go", "pkg/codegen/codegen.go: FromFile"]}
{"id": "C56", "title": "Generate flags select exactly the requested parts", "statement": "The generate option enables exactly the parts it names, in any order and multiplicity, and is refused if it names anything else.", "quantifier": "every option text", "why_tests_cant": "Infinite domain.", "anchors": ["cmd/asyncapi-codegen/config.go: ToCodegenOptions"]}
{"id": "C57", "title": "Conflicting custom imports are reported", "statement": "Custom Go imports are collected from every schema, once per path; two different names for one path are reported as an error, whatever the iteration order.", "quantifier": "every set of schemas and iteration order", "why_tests_cant": "Map iteration order.", "anchors": ["pkg/asyncapi/v2/extensions.go: CustomImports, goTypeImports", "pkg/asyncapi/v3/extensions.go"]}
{"id": "C58", "title": "Structured logs keep every field", "statement": "Every log field given to the structured loggers is found in the output under its dotted path.", "quantifier": "every list of fields", "why_tests_cant": "Conflicting paths and order.", "anchors": ["pkg/extensions/loggers/common.go: structureLogs, insertLogIntoStruct"]}
{"id": "C59", "title": "Generation depends only on its own options", "statement": "The output of one generation depends only on its specification and options, not on generations done earlier in the process.", "quantifier": "every sequence of generations", "why_tests_cant": "Histories of option sets; leaks through package-level variables.", "anchors": ["pkg/codegen/codegen.go: Generate", "pkg/utils/template/helpers.go: DisableDateOrTimeGeneration", "pkg/codegen/generators/v3/templates/helpers.go: ForcePointerOnFields"]}
{"id": "C60", "title": "A failed generation leaves the output untouched", "statement": "If any step of a generation fails before the final write, the output file is not modified; on success it contains the formatted content, or the raw content when formatting is disabled.", "quantifier": "every failure point", "why_tests_cant": "All failure points.", "anchors": ["pkg/codegen/codegen.go: Generate"]}
{"id": "C61", "title": "Traits complete but never override", "statement": "Applying a trait to a message fills what the message does not define and never changes what it defines; payload properties of the trait are added to the payload.", "quantifier": "every message and list of traits", "why_tests_cant": "Infinite domain.", "anchors": ["pkg/asyncapi/v3/message.go: ApplyTrait, mergeHeaders, mergePayload", "pkg/asyncapi/v3/operation.go: ApplyTrait"]}
{"id": "C62", "title": "Message alternatives are merged into the payload", "statement": "A message declared as alternatives (oneOf) has, in its payload, every property of every alternative, including alternatives given by reference.", "quantifier": "every list of alternatives", "why_tests_cant": "Reference and inline alternatives mix.", "anchors": ["pkg/asyncapi/v2/message.go: setOneOfDependencies, MergeWith", "pkg/asyncapi/v3/message.go: MergeWith"]}
{"id": "C63", "title": "Following references terminates at a definition", "statement": "Following a chain of references ends at an element that is not a reference; cyclic references are reported.", "quantifier": "every reference graph", "why_tests_cant": "Chains and cycles of any length.", "anchors": ["pkg/asyncapi/v2/message.go: Follow", "pkg/asyncapi/v2/schema.go: Follow", "pkg/asyncapi/v3/message.go: Follow"]}
{"id": "C64", "title": "Duplicate removal keeps first occurrences", "statement": "Removing duplicates from a list of names, tags or security schemes keeps exactly the first occurrence of each, in order.", "quantifier": "every list", "why_tests_cant": "Infinite domain.", "anchors": ["pkg/utils/slice.go: RemoveDuplicateFromSlice", "pkg/asyncapi/v3/tag.go: RemoveDuplicateTags", "pkg/asyncapi/v3/security_scheme.go: RemoveDuplicateSecuritySchemes"]}
{"id": "C65", "title": "A Kafka topic is usable only once the broker lists it", "statement": "The topic check made before subscribing, and before retrying a publication, succeeds only if the broker listed the topic after every previous call succeeded; the first error of the broker is returned.", "quantifier": "every sequence of broker answers", "why_tests_cant": "Unbounded number of retries and answers.", "anchors": ["pkg/extensions/brokers/kafka/kafka.go: checkTopicExistOrCreateIt"]}
{"id": "C66", "title": "Malformed payloads are reported, not crashed on", "statement": "Whatever bytes arrive as payload, decoding a message returns the message or an error; it never panics.", "quantifier": "every payload bytes and payload type", "why_tests_cant": "Adversarial inputs of any length.", "anchors": ["pkg/codegen/generators/v3/templates/message.tmpl: brokerMessageTo", "pkg/codegen/generators/v2/templates/message.tmpl: brokerMessageTo"]}
{"id": "C67", "title": "Composition by reference does not depend on map order", "statement": "A schema composed of references to other component schemas ends up with all the properties they have, directly or through further composition, whatever order the components are processed in.", "quantifier": "every set of component schemas, composition graph and processing order", "why_tests_cant": "The order is Go's map iteration order, different at each run; a test that passes once can fail the next time.", "anchors": ["pkg/asyncapi/v3/schema.go: setDependencies, MergeWith", "pkg/asyncapi/v3/components.go"]}
{"id": "C68", "title": "Generated code only uses types it declares", "statement": "Every type name a generated file refers to (in the fields of structs, in type definitions, in the signatures of controller functions) is declared in that file, unless it was given by the author of the specification with x-go-type.", "quantifier": "every document: schemas of any depth and shape, messages, operations, references, dependencies", "why_tests_cant": "Tests generate code for a few documents; whether the code of another document compiles depends on the shape of its schemas and on how they are referenced.", "anchors": ["pkg/codegen/generators/v3/templates/schema_name.tmpl", "pkg/codegen/generators/v3/templates/schema_definition.tmpl", "pkg/codegen/generators/v3/templates/message.tmpl", "pkg/codegen/generators/v3/templates/types.tmpl", "pkg/codegen/generators/v3/templates/helpers.go: GetChildrenObjectSchemas, OpToMsgTypeName"]}
{"id": "C69", "title": "No type is declared twice", "statement": "No generated file declares the same type name twice.", "quantifier": "every document, including schemas shared by composition and messages without headers", "why_tests_cant": "Collisions come from combinations of names and from sharing introduced by merges.", "anchors": ["pkg/codegen/generators/v3/templates/schema_definition.tmpl", "pkg/asyncapi/v3/schema.go: generateMetadata, mergeWithSchemaReferenceProperties", "pkg/asyncapi/v3/message.go: createTreeUntilLocationFromMessageType", "pkg/asyncapi/v3/utils.go: generateFullName"]}
{"id": "C70", "title": "Generation is deterministic", "statement": "Generating twice from the same document and options gives the same declarations and the same message types in the controllers.", "quantifier": "every document and every iteration order of Go maps", "why_tests_cant": "Go randomises map iteration at each run, a test sees a few orders.", "anchors": ["pkg/asyncapi/v3/channel.go: GetMessage", "pkg/asyncapi/v3/operation.go: GetMessage", "pkg/codegen/generators/v3/templates/helpers.go: GetChildrenObjectSchemas", "pkg/utils/map.go: MapToList"]}
{"id": "C71", "title": "Fields keep their JSON name", "statement": "Every field generated for a property carries the struct tag with the name of that property, so that encoding and decoding use the name of the specification.", "quantifier": "every property schema, including schemas without a type and descriptions of any content", "why_tests_cant": "The tag is text following other generated text on the same line, which may turn it into a comment.", "anchors": ["pkg/codegen/generators/v3/templates/schema_definition.tmpl", "pkg/codegen/generators/v3/templates/schema_name.tmpl", "pkg/utils/template/helpers.go: DescribeStruct"]}
{"id": "C72", "title": "Conforming payloads are accepted and survive", "statement": "A JSON payload that conforms to the schema of a message is decoded by the generated types without error, and publishing the decoded value again sends the same JSON value (members may be reordered).", "quantifier": "every schema of objects, arrays, references and scalars of any depth, recursive ones included, and every conforming value", "why_tests_cant": "Tests decode a few literal payloads; the schemas and values are infinite, and optional, required, empty and nested cases combine.", "anchors": ["pkg/codegen/generators/v3/templates/schema_name.tmpl", "pkg/codegen/generators/v3/templates/schema_definition.tmpl", "pkg/codegen/generators/v3/templates/message.tmpl", "pkg/codegen/generators/helpers.go: GenerateJSONTags, shouldAddOmitEmpty", "pkg/codegen/generators/v3/templates/helpers.go: isFieldPointer"]}
{"id": "C73", "title": "A handler receives the message that was sent", "statement": "For messages sent one after the other to an address on which a receiver listens, every send succeeds and publishes once, and the receiver's handler is called exactly once per message, in order, with the headers and payload that were sent; each message is acknowledged once, according to the outcome of the handler.", "quantifier": "every message type, every list of messages, every broker (NATS, JetStream, Kafka) with or without the versioning wrapper, every iteration order of Go maps, every handler and chain of middlewares that do not write messages", "why_tests_cant": "Involves both sides, the broker and the templates at once; tests exchange one or two literal messages over a given broker.", "anchors": ["pkg/codegen/generators/v3/templates/message.tmpl", "pkg/codegen/generators/v3/templates/controller.tmpl", "pkg/codegen/generators/v3/templates/subscriber.tmpl", "pkg/extensions/versioning/wrapper.go", "pkg/extensions/brokers/nats/controller.go", "pkg/extensions/brokers/natsjetstream/controller.go", "pkg/extensions/brokers/kafka/controller.go"]}
{"id": "C74", "title": "Every reference of a document is resolved or reported", "statement": "When a document and its dependencies are processed without error, every reference they contain is resolved to the element it designates, which is of the kind its place requires; otherwise an error is returned. Whether a document is accepted does not depend on the iteration order of maps.", "quantifier": "every document of both versions, of any size and depth, every reference at any place of it", "why_tests_cant": "References occur in twenty kinds of elements at any depth; a test exercises the few places its document uses, and a place that is forgotten is silent.", "anchors": ["pkg/asyncapi/v3: setDependencies (all files)", "pkg/asyncapi/v2: setDependencies (all files)", "pkg/asyncapi/v3/operation.go: generateReply", "pkg/asyncapi/v3/operation_reply_address.go: isLocationRequired", "pkg/asyncapi/v3/specification.go: reference, ReferenceX"]}
{"id": "C75", "title": "Every requester gets the reply to its own request", "statement": "When any number of clients make requests carrying different correlation IDs over a shared reply channel, and the server answers each request it receives with one reply, a request that returns a message returns what the server made of that very request, whatever messages are lost, repeated or reordered on the way and whatever other messages appear on the reply channel. Every request subscribes to its reply address before it is published, it is published once, the reply goes to that address, and a request that receives a copy of the reply returns.", "quantifier": "all message types, all sets of requests with different correlation IDs, all server functions that leave the correlation ID in place, NATS, JetStream and Kafka with or without versioning, all losses, duplications and reorderings, all orders of header iteration", "why_tests_cant": "the interplay of correlation IDs, encoding, brokers and concurrent requests ranges over all histories; tests cover one request at a time", "anchors": ["pkg/codegen/generators/v3/templates/controller.tmpl: Request…, waitFor…NextResponse, ReplyTo…, listenTo…NextMessage, Send…", "pkg/codegen/generators/v3/templates/message.tmpl: CorrelationID, SetCorrelationID, SetAsResponseFrom", "pkg/extensions/brokers/nats/nats.go: Subscribe, WithQueueGroup"]}
{"id": "C76", "title": "Connections are closed exactly once, and only by their owner", "statement": "Whatever the options given to a NATS or JetStream controller and whatever the outcome of its creation, a connection given by the user is never closed by the controller, the connection in use is open, every other connection the controller opened on the way was closed once, and after Close all of them were. A JetStream controller uses the stream and consumer of its configurations, else those named, independently of the order of options, after having created or updated them.", "quantifier": "all lists of options, all outcomes of connecting and of the calls to the server, any number of calls of Close", "why_tests_cant": "options compose in any order and number, with failures in between; tests use a few fixed lists", "anchors": ["pkg/extensions/brokers/natsjetstream/natsjetstream.go: NewController, setNatsConnection, WithConnection, WithConnectionOpts, registerStream, registerConsumer, Close", "pkg/extensions/brokers/nats/nats.go: NewController, WithConnectionOpts, Close"]}
{"id": "C77", "title": "Options configure the controller they are given to, and no other", "statement": "For every history of creations of Kafka controllers in a program, each controller reads, writes and connects with the settings of its own options, and defaults for the others: group, partition, sizes, commit mode, logger, TLS configuration and SASL mechanism.", "quantifier": "all histories of creations, all lists of options, successful or failed creations", "why_tests_cant": "interference between controllers depends on the whole history of the program; tests create one controller per process or use the same options", "anchors": ["pkg/extensions/brokers/kafka/kafka.go: NewController, WithTLS, WithSasl, WithGroupID, WithPartition, WithMaxBytes, WithAutoCommit"]}
{"id": "C78", "title": "Handlers of different subscriptions do not wait for each other", "statement": "When one source of messages (a JetStream consumer, or a channel behind the versioning wrapper) feeds several subscriptions, every handler is called with the messages of its subscription, in order, without loss or repetition, and a handler that does not return does not keep the others from getting their messages.", "quantifier": "all sequences of messages, any number of subscriptions, all schedules of dispatcher, listeners and handlers, all buffer sizes", "why_tests_cant": "the property quantifies over all interleavings and over buffers filling up; tests use few messages and fast handlers", "anchors": ["pkg/extensions/brokers/natsjetstream/natsjetstream.go: Subscribe, ConsumeMessage, HandleMessage", "pkg/extensions/versioning/broker_subscription.go: launchListener", "pkg/extensions/broker.go: TransmitReceivedMessage", "pkg/extensions/brokers/common.go: BrokerMessagesQueueSize"]}
{"id": "C79", "title": "Middlewares, handlers and logs are told the truth about the message at hand", "statement": "For every message sent, received or awaited, whatever the context of the caller and through any number of middlewares that pass their context on, the context given to middlewares, broker and handlers names the version of the document, the side, the channel, the direction, the content and the correlation ID of this very message, and no correlation ID if it has none; other values of the caller's context reach the middlewares of a publication.", "quantifier": "all contexts, messages, lists of middlewares, addresses, handlers", "why_tests_cant": "contexts are passed on by user code: a handler sending with its own context, or a middleware nesting calls, gives contexts tests do not build", "anchors": ["pkg/extensions/context.go", "pkg/codegen/generators/v3/templates/controller.tmpl: add…ContextValues, listen…, Send…, waitFor…", "pkg/extensions/middlewares/logging.go: Logging", "pkg/extensions/versioning/wrapper.go: Publish"]}
{"id": "C80", "title": "Refused messages are not retained", "statement": "The memory held by the listener of a versioned channel does not depend on the number of messages it refused.", "quantifier": "all histories of messages, all sets of registered versions", "why_tests_cant": "retention only shows after long runs; a test refuses one message", "anchors": ["pkg/extensions/versioning/broker_subscription.go: launchListener"]}
{"id": "C81", "title": "A human-readable log text gives back the fields that were logged", "statement": "Reading the text printed by the text logger line by line gives back the time, the message and, under its path, the value of each field that was logged, and no other field, whatever the order in which Go iterates over maps.", "quantifier": "all contexts, messages and lists of fields, all orders of iteration at all levels", "why_tests_cant": "the order of map iteration is random and the values include payloads chosen by remote parties", "anchors": ["pkg/extensions/loggers/text.go: humanizeStructuredLogs, setInfoFromContext, formatLog", "pkg/extensions/loggers/common.go: structureLogs"]}
{"id": "C82", "title": "A broker is told the outcome of a delivery at most once, whoever acknowledges it", "statement": "Whatever goroutines hold a received message or copies of it, and however their calls to Ack and Nak interleave, the broker is told an outcome at most once for that delivery.", "quantifier": "all numbers of goroutines, copies of the message, calls and interleavings of their statements", "why_tests_cant": "Unit tests call Ack and Nak one after the other from a single goroutine; the interleavings and the copies are unbounded.", "anchors": ["pkg/extensions/broker.go: AcknowledgeableBrokerMessage.Ack, AcknowledgeableBrokerMessage.Nak", "pkg/extensions/errorhandler.go: ErrorHandler"]}
{"id": "C83", "title": "A Kafka subscriber that crashes and restarts loses no message and is given no decided message again", "statement": "At any crash point of a Kafka subscriber, the next process is given every message nothing was decided about, and it is not given messages whose outcome was recorded.", "quantifier": "all logs of messages, histories of reads, decisions, failed commits and crashes over any number of processes", "why_tests_cant": "A test would have to crash the process at every point of every history against a real Kafka.", "anchors": ["pkg/extensions/brokers/kafka/kafka.go: Subscribe, autoCommitMessagesHandler, manualCommitMessagesHandler, WithGroupID, WithAutoCommit", "pkg/extensions/brokers/common.go: DefaultQueueGroupID", "pkg/extensions/middlewares/recovery.go: Recovery"]}
{"id": "C84", "title": "Requests acknowledge what they take from the reply channel, and only what they are done with", "statement": "A request acknowledges every message it takes from the reply channel, so that a broker delivering at least once gives none of them to a later request; and it acknowledges no reply to itself that its caller will not get.", "quantifier": "all messages, middlewares, reply addresses and sequences of messages received, for requests with and without correlation ID", "why_tests_cant": "A test uses one request against a broker that forgets what it delivered; the redelivery of unacknowledged replies to later requests depends on histories of several requests.", "anchors": ["pkg/codegen/generators/v3/templates/controller.tmpl: Request…, waitFor…NextResponse", "pkg/codegen/generators/v2/templates/controller.tmpl: WaitFor…", "pkg/extensions/broker.go: AcknowledgeableBrokerMessage.Ack"]}
{"id": "C85", "title": "A request awaits the correlation ID that it publishes", "statement": "The correlation ID whose reply a request awaits is the one in the message published for that request, also when the caller's message has none and one is generated.", "quantifier": "all messages with and without correlation ID, generated IDs, middlewares and sequences of replies", "why_tests_cant": "The tests set the correlation ID before the request; the behaviour without it is an endless wait for all replies, which a finite test cannot show.", "anchors": ["pkg/codegen/generators/v2/templates/controller.tmpl: WaitFor…, Publish…", "pkg/codegen/generators/v3/templates/controller.tmpl: Request…, Send…"]}
{"id": "C86", "title": "No handler is called once an unsubscription has returned", "statement": "Once UnsubscribeFrom… has returned (its context not expired), the handler given to the subscription is not called any more, and a later subscription to the same address does not overlap with it.", "quantifier": "all channel capacities, messages, interleavings of the broker's deliveries, the listener, the teardown and the callers, and continuations of them", "why_tests_cant": "Which messages are still queued when the call returns depends on the interleaving of four goroutines; a test sees one of them.", "anchors": ["pkg/extensions/broker.go: BrokerChannelSubscription.Cancel, WaitForCancellationAsync, TransmitReceivedMessage", "pkg/codegen/generators/v3/templates/controller.tmpl: SubscribeTo…, UnsubscribeFrom…, listenTo…NextMessage"]}
{"id": "C87", "title": "The functions generated for a request and its reply fit together", "statement": "For every v3 document, the functions generated for a request and its reply are generated whatever the iteration order of maps, and agree: calls match signatures, the reply type is the same everywhere and is one declared for the reply, and only methods of declared message types are called.", "quantifier": "all operations with replies, channels with any messages, parameters and addresses, and all orders of iteration over the maps of messages", "why_tests_cant": "The types are recomputed at some thirty places of the template in random map order; a test sees one order for one document.", "anchors": ["pkg/codegen/generators/v3/templates/controller.tmpl: Send…, Request…, waitFor…NextResponse, SubscribeTo…, ReplyTo…", "pkg/codegen/generators/v3/templates/helpers.go: ChannelToMessageTypeName, OpToMsgTypeName, GenerateChannelAddr", "pkg/asyncapi/v3/operation.go: GetMessage, generateReply", "pkg/asyncapi/v3/channel.go: GetMessage"]}
{"id": "C88", "title": "Releases get increasing versions, once per announced change", "statement": "Publishing a commit of the main branch whose title announces a breaking change, a feature or a fix releases exactly the version that is due after the last one; other commits, and commits of other branches, release nothing; publishing a commit again releases nothing; along any history versions strictly increase.", "quantifier": "all commit titles, branches, last tags and sequences of publications", "why_tests_cant": "The release pipeline has no tests, and a wrong tag is visible only after it was pushed; histories and titles are unbounded.", "anchors": ["build/ci/dagger/git.go: GetLastSemanticVersionedTag, GetNewSemVerIfNeeded, PushNewSemVerIfNeeded", "build/ci/dagger/docker_image.go: publishDocker", "build/ci/dagger/module.go: Publish"]}
{"id": "C89", "title": "The text of a broker message shows its headers and payload and tells messages apart", "statement": "For every broker message, the text that loggers and middlewares get for it is a JSON object with exactly the message's headers and its payload, messages with different headers or payloads have different texts, and a message has one text.", "quantifier": "every list of headers in every iteration order, every key, value and payload text", "why_tests_cant": "Tests look at the text of one or two messages with plain headers; the headers and payloads that break the format, and the orders of map iteration, are unbounded.", "anchors": ["pkg/extensions/broker.go: BrokerMessage.String"]}
{"id": "C90", "title": "JetStream messages may arrive at any time while subscriptions come and go", "statement": "Whatever the interleaving of arriving messages with subscriptions and cancellations on a JetStream controller, the process does not crash, no goroutine blocks for ever, a message is dropped only when its channel has no subscription, and every other message is delivered to a subscription to its channel, in order of arrival.", "quantifier": "every schedule of the consumer, the reader goroutines, subscriptions and cancellations, for any number of channels, subscriptions and messages", "why_tests_cant": "The failures need a cancellation in a window of a few instructions while a message is being handed over, or before a goroutine has started; tests do not hit these schedules.", "anchors": ["pkg/extensions/brokers/natsjetstream/natsjetstream.go: Subscribe, ConsumeMessage, HandleMessage, StopConsumeIfNeeded", "pkg/extensions/broker.go: WaitForCancellationAsync"]}
{"id": "C91", "title": "A generated controller declares each of its functions once, and those it calls", "statement": "For every document and side, no two methods of the generated controller and no two functions of the generated subscriber interface have the same name, and every method of the controller and function of the subscriber that the generated code calls is declared.", "quantifier": "every document: any number of channels and operations, any names and operationIds of any bytes, with or without parameters, correlation IDs and replies, both sides, v2 and v3", "why_tests_cant": "Tests compile the code of a few documents; clashes come from pairs of names, and names are unbounded.", "anchors": ["pkg/codegen/generators/v2/templates/controller.tmpl", "pkg/codegen/generators/v3/templates/controller.tmpl", "pkg/codegen/generators/v2/templates/helpers.go: OperationName", "pkg/codegen/generators/v3/common.go: NewActionOperations", "pkg/asyncapi/v3/operation.go: generateMetadata, generateReply"]}
{"id": "C92", "title": "Texts of the document are the values of the literals generated for them", "statement": "Wherever the generated code holds a text of the document in a string literal — the version of the document, paths of channels, names of headers where they are read and written, names of declared properties — Go reads exactly that text from it, the path constant of a channel is the address its functions use, and no text of the document becomes code, neither from a literal nor from a comment.", "quantifier": "every text (any characters), every place of the templates of both versions that prints a text of the document in a literal or a comment as it is", "why_tests_cant": "Example documents only use letters, dots and slashes; quotation marks, backslashes and line breaks need every text to be considered.", "anchors": ["pkg/codegen/generators/v3/templates/types.tmpl", "pkg/codegen/generators/v3/templates/message.tmpl", "pkg/codegen/generators/v3/templates/controller.tmpl", "pkg/codegen/generators/v3/templates/marshaling/additional_properties.tmpl", "pkg/codegen/generators/v2/templates/controller.tmpl"]}
{"id": "C93", "title": "Every naming scheme gives valid and stable names", "statement": "With each value of the option --naming-scheme, the name generated for a text is an exported Go identifier, and naming it again does not change it, so that types are declared under the names by which they are used.", "quantifier": "every text, every naming scheme, any number of applications", "why_tests_cant": "The tests of the option use one document with two properties; the failures depend on one-letter words, digits and punctuation.", "anchors": ["pkg/utils/template/helpers.go: SetNamifyFn, Namify", "pkg/asyncapi/v2/message.go: generateMetadata", "pkg/codegen/generators/v2/templates/message.tmpl", "pkg/codegen/generators/v2/templates/controller.tmpl"]}
{"id": "C94", "title": "Key conversions keep properties apart", "statement": "With each value of the option --convert-keys, every property of a generated type is written and read under its converted key, converting is stable and has the announced form (no capitals, one kind of separator), and unknown values are refused.", "quantifier": "every object schema with any number of properties of any names, every conversion", "why_tests_cant": "The tests convert one key; that two keys meet after conversion depends on pairs of unbounded names.", "anchors": ["pkg/utils/template/helpers.go: SetConvertKeyFn, ConvertKey", "pkg/codegen/generators/helpers.go: GenerateJSONTags", "pkg/codegen/generators/v3/templates/marshaling/additional_properties.tmpl"]}
{"id": "C95", "title": "Every way to write an option on the command line means the same, and nothing on the command line is ignored", "statement": "The options `--name value`, `--name=value`, `-x value`, `-xvalue`, `-x=value` and, for switches, `--name` and `-x`, in any order and number, set the same options: the documents of all `input` options add up in order (separated by commas or not), of every other option the last value counts, and an option that is not given has its documented default. A command line with an option that does not exist, or that misses its value, is refused. Arguments that are no options are not silently ignored, and no accepted command line leaves the command without a document.", "quantifier": "All command lines: any number of arguments, each any string; any values of options.", "why_tests_cant": "There are infinitely many command lines, and the syntaxes combine freely; tests call the generator functions and never the command with its flags.", "anchors": ["cmd/asyncapi-codegen/config.go: Flags, SetToCommand", "cmd/asyncapi-codegen/main.go: cmd, main"]}
{"id": "C96", "title": "The command ends with status 0 exactly when its output holds the generated code, touches nothing else, and can be run again", "statement": "For every command line that asks for a generation, the command ends with status 0 exactly when the documents it names load, its options are valid, and the code generated from them with these options could be written to the output path, which then holds this code. No other file ever changes; when the command ends with another status no file changes at all, unless the write itself failed. It never panics. When the output is none of the documents, running the same command again ends in the same way and changes no file.", "quantifier": "All command lines, all contents of the file system, all outcomes of loading, processing, generating, formatting and writing.", "why_tests_cant": "Tests call the steps one by one with documents that are valid; the composition with its failures, and running it repeatedly over any files, is not tested.", "anchors": ["cmd/asyncapi-codegen/main.go: cmd, main", "cmd/asyncapi-codegen/config.go: ToCodegenOptions", "pkg/codegen/codegen.go: FromFile, Generate"]}
{"id": "C97", "title": "No name is declared twice in the generated file", "statement": "Every name the generated file declares at the level of its package (controllers, subscribers, types of schemas, messages, payloads and headers, the functions that make and decode messages, parameters and paths of channels) is a Go identifier, and no name is declared twice.", "quantifier": "Every document: any number of channels, messages, schemas and properties with any keys, channels given by reference; every choice of parts to generate.", "why_tests_cant": "Whether two names meet depends on all pairs of keys of unbounded documents; the tests generate from a few documents whose names do not meet.", "anchors": ["pkg/codegen/generators/v3/templates/types.tmpl", "pkg/codegen/generators/v3/templates/message.tmpl", "pkg/codegen/generators/v3/templates/schema_definition.tmpl", "pkg/codegen/generators/v3/templates/controller.tmpl", "pkg/asyncapi/v3/utils.go: generateFullName"]}
{"id": "C98", "title": "Cancelling a subscription while messages arrive does not crash the process", "statement": "A subscription can be cancelled at any moment, whatever messages are being delivered to it: the process does not panic; messages delivered before are received once and in order.", "quantifier": "Every number of messages, every size of the queue, every interleaving of the goroutine that delivers the messages, the user that receives them and the cancellation (NATS, Kafka, one version of a versioned channel).", "why_tests_cant": "The outcome depends on which of two goroutines comes first and on how full the queue is; tests cancel subscriptions that are idle.", "anchors": ["pkg/extensions/broker.go: TransmitReceivedMessage, WaitForCancellationAsync", "pkg/extensions/brokers/nats/nats.go: Subscribe, messagesHandler", "pkg/extensions/brokers/kafka/kafka.go: Subscribe, autoCommitMessagesHandler, manualCommitMessagesHandler", "pkg/extensions/versioning/broker_subscription.go: launchListener, removeVersionListener"]}
{"id": "C99", "title": "Processing a document ends", "statement": "Processing the schemas of a document (resolving references, composing allOf, anyOf and oneOf) ends, for every document; recursive types are allowed.", "quantifier": "Every document: any number of schemas, any nesting, any references including circular ones; every order in which the schemas and properties are ranged over.", "why_tests_cant": "Circular documents are infinitely many shapes and the outcome depends on the random order of map iteration; a test that does not end shows nothing about the other shapes.", "anchors": ["pkg/asyncapi/v3/schema.go: setDependencies, setReference, MergeWith", "pkg/asyncapi/v2/schema.go: setDependencies, MergeWith", "pkg/asyncapi/schema.go: Validations.Merge"]}
{"id": "C100", "title": "Inherited constraints do not depend on the order of processing", "statement": "A schema that refers to another has the constraints of the schema it refers to (over its own), through chains of references of any length, whatever the order in which the schemas are processed; so the generated validation tags are the same each time.", "quantifier": "Every set of schemas with any constraints and any references between them, every order in which they are processed, schemas processed several times.", "why_tests_cant": "The order is the random iteration order of Go maps: a test sees some orders only, and chains can be of any length.", "anchors": ["pkg/asyncapi/v3/schema.go: setReference", "pkg/asyncapi/v2/schema.go: setDependencies", "pkg/asyncapi/schema.go: Validations.Merge"]}
{"id": "C101", "title": "A composition accepts the values of its alternatives and gives them back", "statement": "For a schema with alternatives (allOf, anyOf, oneOf), every JSON value that conforms to the schema and to the alternatives it has to conform to (all of them, or at least one) is decoded into the generated type without error, and publishing the decoded value again gives the same JSON value.", "quantifier": "all schemas with any number of alternatives, given in place or by reference, objects or not; all JSON values that conform", "why_tests_cant": "Tests decode a few values of a few compositions of objects. The set of compositions and of conforming values is infinite, and the failures are in combinations: alternatives that are not objects, that disagree on a type, or of which only one requires a property.", "anchors": ["pkg/asyncapi/v3/schema.go: MergeWith, mergeWithSchemaProperties, setAllOfDependenciesAndMerge, setAnyOfDependenciesAndMerge, setOneOfDependenciesAndMerge", "pkg/asyncapi/v2/schema.go: MergeWith", "pkg/codegen/generators/v3/templates/schema_name.tmpl", "pkg/codegen/generators/v3/templates/schema_definition.tmpl", "pkg/codegen/generators/helpers.go: shouldAddOmitEmpty"]}
{"id": "C102", "title": "A subscription to a channel with parameters receives what is sent with the same parameters, and nothing else", "statement": "When a channel's address has parameters, a subscription made by the generated code with some parameter values receives a message published by the generated code with some parameter values exactly when the values are the same.", "quantifier": "all addresses with any number of parameters; all values given by the subscriber and by the publisher; every broker address as computed by the generated code, and NATS' matching rules", "why_tests_cant": "Tests subscribe and publish with one or two plain values. Collisions between addresses come from particular values (with separators or wildcards) among infinitely many, and from the shape of the address.", "anchors": ["pkg/codegen/generators/v3/templates/helpers.go: GenerateChannelAddr", "pkg/codegen/generators/v2/templates/helpers.go: GenerateChannelPath", "pkg/codegen/generators/v3/templates/types.tmpl: Parameters", "pkg/extensions/brokers/natsjetstream/natsjetstream.go: MatchSubjectSubscription", "pkg/extensions/brokers/nats/nats.go: Subscribe"]}
{"id": "C103", "title": "The conversion functions of every message compile", "statement": "For every message of a valid document, the two functions generated for it (from a broker message and to a broker message) are accepted by the Go compiler: their expressions are well typed, no variable is declared twice in a block or left unused.", "quantifier": "all payload schemas (any type, format, reference) and all lists of headers of any length, with or without forced pointers and date types; all packages the types may be declared in", "why_tests_cant": "Whether the generated text compiles depends on the combination of payload kind, reference, every header's type, format, required flag and the other headers. Tests compile a dozen generated files; each combination outside of them is untested, and the number of headers is unbounded.", "anchors": ["pkg/codegen/generators/v3/templates/message.tmpl: brokerMessageTo, toBrokerMessage", "pkg/codegen/generators/v2/templates/message.tmpl: brokerMessageTo, toBrokerMessage", "pkg/codegen/generators/v3/templates/schema_name.tmpl", "pkg/codegen/generators/v3/templates/helpers.go: IsFieldPointer", "pkg/utils/template/helpers.go: IsDateOrDateTimeGenerated"]}
{"id": "C104", "title": "A schema that refers to another one has the same JSON", "statement": "A named schema that is only a reference to another named schema accepts the same JSON texts as the schema it refers to, reads the same values from them and writes the same texts.", "quantifier": "all named schemas (objects with or without additional properties, date-times, other types), chains of references of any length, all texts and all values", "why_tests_cant": "The generated types are different Go types with different method sets; tests decode a few documents into one of them. Loss of data shows only for values with additional properties or times, behind a reference.", "anchors": ["pkg/codegen/generators/v3/templates/schema_definition.tmpl", "pkg/codegen/generators/v3/templates/schema_name.tmpl", "pkg/codegen/generators/v3/templates/marshaling/additional_properties.tmpl: MarshalJSON, UnmarshalJSON", "pkg/codegen/generators/v3/templates/marshaling/time.tmpl: MarshalJSON, UnmarshalJSON"]}
{"id": "C105", "title": "A property is required exactly when its object requires it", "statement": "In the generated code, the field of a property is always present in the written JSON (not omitted when empty), and is a plain field instead of a pointer, exactly when the object, or one of the schemas it is composed of, names the property as required. What the property refers to, and the order in which the schemas are processed, make no difference.", "quantifier": "all documents: any number of schemas nested and composed to any depth, all reference graphs for which processing ends, all orders in which maps are walked", "why_tests_cant": "Whether a field is required is decided by a mark that is set on schemas while the document is walked, copied along references and merged through compositions, in the order Go walks maps. Tests look at a few documents with one object each; a wrong mark needs two schemas that share a property.", "anchors": ["pkg/asyncapi/v3/schema.go: generateMetadata, setDependencies, MergeWith", "pkg/asyncapi/v2/schema.go: generateMetadata, setDependencies, MergeWith", "pkg/asyncapi/schema.go: Validations.Merge", "pkg/codegen/generators/v3/templates/helpers.go: isFieldPointer", "pkg/codegen/generators/helpers.go: GenerateJSONTags", "pkg/codegen/generators/v3/templates/schema_definition.tmpl"]}
{"id": "C106", "title": "Recursive schemas have Go types", "statement": "For every schema that at least one JSON value conforms to, the generated Go type is one that the compiler accepts as far as recursion goes: no value of the type would have to contain another value of the same type in place. Schemas that refer to themselves, directly or through others, are no exception.", "quantifier": "all documents: any number of named schemas, objects nested to any depth, all graphs of references and alternatives, with and without forced pointers", "why_tests_cant": "A type is invalid because of a cycle through any number of schemas; whether an edge of the cycle counts depends on the required names, on arrays, on forced pointers and on what compositions merge. Tests generate code for a handful of recursive documents.", "anchors": ["pkg/codegen/generators/v3/templates/schema_definition.tmpl", "pkg/codegen/generators/v3/templates/schema_name.tmpl", "pkg/codegen/generators/v3/templates/helpers.go: isFieldPointer, ForcePointerOnFields", "pkg/codegen/generators/v2/templates/helpers.go: isFieldPointer, ForcePointerOnFields", "pkg/asyncapi/v3/schema.go: MergeWith, setDependencies"]}
{"id": "C107", "title": "Generating again from a loaded document changes nothing", "statement": "Calling Generate again on the same loaded document, any number of times, leaves the processed schemas as they were after the first call, so the generated code is the same.", "quantifier": "every document, every number of calls, every order in which Go ranges over the maps in each call", "why_tests_cant": "Processing changes the loaded document in place and runs again at every call; whether a second run adds something depends on the shape of references and compositions and on map order. Tests generate once per document.", "anchors": ["pkg/codegen/codegen.go: Generate", "pkg/asyncapi/v3/specification.go: Process", "pkg/asyncapi/v3/schema.go: generateMetadata, setDependencies, setReference, MergeWith", "pkg/asyncapi/v2/schema.go: generateMetadata, setDependencies", "pkg/asyncapi/schema.go: Validations.Merge"]}
{"id": "C108", "title": "The reply address is read from the request where the document says it is", "statement": "For an operation whose reply address is given by a runtime expression ($message.header#/a/b or $message.payload#/a/b), the generated code compiles, and replying to a received request uses exactly the text at that place of the request, or returns an error if the request has no such text; it never panics.", "quantifier": "every document, every operation with a reply address location, both parts of the message, every path, every received request", "why_tests_cant": "The generated expression is assembled from the path while the pointer test depends on a separate walk of the document; the combinations of references, required and optional fields on the path and options are unbounded, and the generator's own tests cover one.", "anchors": ["pkg/asyncapi/v3/operation_reply_address.go:isLocationRequired", "pkg/asyncapi/v3/operation_reply_address.go:setDependencies", "pkg/asyncapi/v3/message.go:createTreeUntilLocation", "pkg/codegen/generators/v3/templates/controller.tmpl:ReplyTo", "pkg/codegen/generators/v3/templates/helpers.go:ReferenceToStructAttributePath"]}
{"id": "C109", "title": "Objects shared by goroutines are used without data races", "statement": "Controllers, brokers and the versioning wrapper can be used by several goroutines at once, their own goroutines included: under no schedule are two goroutines about to access the same variable or map, one of them writing, without one of them having to wait for the other.", "quantifier": "all numbers of goroutines, all sequences of calls of each, all schedules", "why_tests_cant": "A race needs two accesses to meet; the race detector only sees the schedules that happen, and the maps are rarely accessed at the same moment.", "anchors": ["pkg/extensions/versioning/wrapper.go:Subscribe", "pkg/extensions/versioning/broker_subscription.go:removeVersionListener", "pkg/codegen/generators/v3/templates/controller.tmpl", "pkg/codegen/generators/v2/templates/controller.tmpl", "pkg/extensions/brokers/natsjetstream/natsjetstream.go:Subscribe", "pkg/extensions/brokers/kafka/kafka.go:WithTLS"]}
{"id": "C110", "title": "Documents are read as AsyncAPI defines them", "statement": "Every document that AsyncAPI 3.0.0 or 2.6.0 allows is accepted, and every value in it is found again, under its keyword and unchanged, in the structures the code is generated from; names that are no keywords have no effect.", "quantifier": "all documents, with objects, maps and schemas nested to any depth, and all places in them", "why_tests_cant": "Tests decode a few documents with common keywords; a wrong tag or a wrong type of one of some 250 fields shows only in a document that uses that keyword in that form.", "anchors": ["pkg/asyncapi/parser/parse.go:FromJSON", "pkg/asyncapi/schema.go:Validations", "pkg/asyncapi/v3/schema.go:Schema", "pkg/asyncapi/v3/server.go:Server", "pkg/asyncapi/v3/message_example.go:MessageExample", "pkg/asyncapi/v3/operation.go:Operation", "pkg/asyncapi/v2/schema.go:Schema", "pkg/asyncapi/v2/parameter.go:Parameter"]}
{"id": "C111", "title": "No document crashes the generator", "statement": "Whatever a decoded AsyncAPI document of version 2 or 3 says — null where an object may stand, replies without a channel, references between files — generating code either succeeds or ends with an error that is reported; it never ends with a crash (nil dereference, index out of range, endless recursion).", "quantifier": "every decoded document with the files given to it, every order in which maps are walked, every depth of nesting, code for types alone or for sides", "why_tests_cant": "nulls and absent parts can be combined in any number of places, and whether they meet a dereference depends on references, traits and merges processed before; tests use complete documents", "anchors": ["pkg/asyncapi/v3/specification.go:Process", "pkg/asyncapi/v3/schema.go:setDependencies", "pkg/asyncapi/v3/message.go:ApplyTrait", "pkg/asyncapi/v3/message.go:createTreeUntilLocation", "pkg/asyncapi/v3/operation.go:generateReply", "pkg/asyncapi/v3/operation_reply_address.go:setDependencies", "pkg/asyncapi/v3/extensions.go:CustomImports", "pkg/codegen/generators/v3/common.go:NewActionOperations", "pkg/asyncapi/v2/specification.go:Process", "pkg/asyncapi/v2/operation.go:generateMetadata", "pkg/asyncapi/v2/message.go:Follow", "pkg/asyncapi/v2/extensions.go:CustomImports"]}
{"id": "C112", "title": "Validation accepts exactly the conforming values", "statement": "Validating a value of a generated type with its validate tags accepts the value exactly when it meets the constraints the document declares for it (lengths, bounds, uniqueness, enumerations, constants, required properties), at every depth, and never crashes.", "quantifier": "all objects of scalars, arrays and nested objects with any combination of constraints, and all values of the generated Go types", "why_tests_cant": "Whether a bound is enforced depends on how its number is printed and read back, on the kind of the field, on pointers and on omitempty; tests validate a handful of small bounds and values.", "anchors": ["pkg/codegen/generators/helpers.go: GenerateValidateTags, appendDirectiveIfDefined, appendEnumDirectives", "pkg/codegen/generators/v3/templates/schema_definition.tmpl", "pkg/codegen/generators/v3/templates/helpers.go: isFieldPointer"]}
{"id": "C113", "title": "Date-times arrive as the same point in time", "statement": "A date-time sent in a header, as a payload or inside of a JSON object is received as the same point in time, and every date-time text that RFC 3339 allows is read as the time it stands for.", "quantifier": "every time (year, fraction of a second, offset of the zone) and every RFC 3339 text", "why_tests_cant": "Fractions of a second, zones with seconds, far years, leap seconds and small letters lie outside of what examples use, and the losses are silent.", "anchors": ["pkg/codegen/generators/v3/templates/message.tmpl", "pkg/codegen/generators/v2/templates/message.tmpl", "pkg/codegen/generators/v3/templates/marshaling/time.tmpl"]}
{"id": "C114", "title": "Generated certificates belong together", "statement": "After a run of the tool that generates the certificates for the NATS and Kafka brokers has ended normally, the key, the certificate and the authority it leaves are complete and from the same generation, whatever runs were stopped before and whichever files were deleted; and files that are all there are not replaced.", "quantifier": "all lists of paths, all histories of complete runs, runs stopped at any write, and deletions", "why_tests_cant": "A test runs the tool from an empty directory; the states left by a run stopped between or inside two writes are never produced.", "anchors": ["tools/generate-certs/main.go:createNATSCerts", "tools/generate-certs/main.go:createKafkaCerts", "tools/generate-certs/main.go:checkIfOneOfFilesIsMissing"]}
{"id": "C115", "title": "Headers arrive unchanged over NATS", "statement": "Every header of a message published through the NATS or the JetStream controller arrives with its name and its value unchanged, and so does the payload.", "quantifier": "all messages with any header names (any text) and header values (any bytes), and all orders in which Go walks the header maps", "why_tests_cant": "The client library writes headers as lines of text: names that are no tokens are left out and values are trimmed and put in one line, without an error; tests publish plain names and values.", "anchors": ["pkg/extensions/brokers/nats/nats.go:Publish", "pkg/extensions/brokers/nats/nats.go:messagesHandler", "pkg/extensions/brokers/natsjetstream/natsjetstream.go:Publish", "pkg/extensions/brokers/natsjetstream/natsjetstream.go:HandleMessage"]}
{"id": "C116", "title": "A subscription does not depend on the contexts of others", "statement": "A subscription that was not cancelled and whose own context lasts receives the messages for it, whatever happens to the contexts with which other subscriptions were opened: with NATS and JetStream always, with Kafka, and through the versioning wrapper in front of any of them.", "quantifier": "every history of subscriptions, cancellations, ends of contexts and messages, on any number of channels and versions", "why_tests_cant": "Contexts end at any moment; a test would have to try every order of subscriptions and ends, and to wait for messages that never come.", "anchors": ["pkg/extensions/versioning/wrapper.go: Subscribe, createBrokerChannels", "pkg/extensions/versioning/broker_subscription.go: launchListener", "pkg/extensions/brokers/kafka/kafka.go: Subscribe, autoCommitMessagesHandler, manualCommitMessagesHandler", "pkg/extensions/brokers/nats/nats.go: Subscribe", "pkg/extensions/brokers/natsjetstream/natsjetstream.go: Subscribe"]}
{"id": "C117", "title": "Logging leaves the fields of callers alone", "statement": "A call of a logger writes the fields it was given and its own, and nothing of other calls; and the slices of fields of the caller read the same before and after, whatever the number of goroutines that log with them.", "quantifier": "every number of goroutines and calls, every schedule, every slice of fields with any capacity, every growth of slices", "why_tests_cant": "Go slices share arrays depending on capacities, and mixing needs particular schedules; a test sees one growth and one schedule.", "anchors": ["pkg/extensions/loggers/ecs.go: setInfoFromContext, logWithLevel", "pkg/extensions/loggers/text.go: setInfoFromContext, formatLog"]}
{"id": "C118", "title": "JetStream messages are not lost when processes stop and start", "statement": "At any point of the life of a JetStream subscriber, crashes and restarts included, the server gives a message up only when a consumer of the subscriber acknowledged it; every other message is delivered again to the next process that subscribes to its channel, and no message that was given up is delivered again.", "quantifier": "all streams and subjects; all histories of subscriptions, cancellations, deliveries, decisions (heard by the server or not) and crashes over any number of processes; all orders in which the channels are ranged over", "why_tests_cant": "The interesting points are between the first and the last subscription of a starting process and between delivery and acknowledgement; a test would have to stop the process, and the server would have to deliver, exactly there.", "anchors": ["pkg/extensions/brokers/natsjetstream/natsjetstream.go: Subscribe, ConsumeMessage, HandleMessage", "pkg/extensions/broker.go: Ack, Nak", "pkg/codegen/generators/v3/templates/controller.tmpl: SubscribeToAllChannels"]}
{"id": "C119", "title": "Every example is run by the continuous integration, once", "statement": "The directories listed for a number of levels are exactly the directories that many levels below the given one, each once, whatever files and other directories there are; an error is returned exactly when something on the way can be opened neither as a directory nor as a file. So the examples that are run are exactly those on the third level.", "quantifier": "all trees of files and directories, all numbers of levels", "why_tests_cant": "The examples of the repository are one tree; the claim is about all trees, in particular about files between directories, empty directories and deeper ones.", "anchors": ["build/ci/dagger/utils.go: directoriesAtSublevel, isDir", "build/ci/dagger/module.go: Examples"]}
{"id": "C120", "title": "FieldValueExists says whether a field has a value", "statement": "FieldValueExists(v, name, value) ends and returns true exactly when some field with that name, anywhere inside v, has that value; it does not panic.", "quantifier": "all Go values made of structs, pointers (nil or not, shared or cyclic) and other values, all names, types and values", "why_tests_cant": "Values may be nested to any depth and share or repeat parts through pointers; a test shows single values.", "anchors": ["pkg/utils/reflect.go: FieldValueExists"]}
{"id": "C121", "title": "Waiting for a broker ends with the context, and holds up nobody else", "statement": "A subscription or publication that waits for the broker returns once its context has ended, and does not keep calls for other channels from returning.", "quantifier": "every number of goroutines, every schedule, every sequence of broker answers and every point at which contexts end", "why_tests_cant": "A test uses a broker that answers quickly; it cannot try every schedule of several calls against every sequence of answers, nor show that a loop goes on for ever.", "anchors": ["pkg/extensions/versioning/wrapper.go: Subscribe, createBrokerChannels", "pkg/extensions/brokers/kafka/kafka.go: Publish, Subscribe, checkTopicExistOrCreateIt"]}
{"id": "C122", "title": "The correlation ID functions of every message compile and work", "statement": "For every message with a correlation ID, the functions generated for it (New, CorrelationID, SetCorrelationID, SetAsResponseFrom) are accepted by the Go compiler, never panic, and do what they say: a new message has the identifier that was made for it, reading gives the text at the location of the document or nothing, and setting changes nothing but that text.", "quantifier": "every message, every location in its headers or its payload, every schema on the way (written in place or by reference, required or not, of any type), with and without forced pointers, and every value of the message", "why_tests_cant": "A test compiles the functions of a few documents; whether they compile depends on types, requirements and references along a path of any length.", "anchors": ["pkg/codegen/generators/v3/templates/message.tmpl: New, CorrelationID, SetCorrelationID, SetAsResponseFrom", "pkg/codegen/generators/v2/templates/message.tmpl: the same", "pkg/codegen/generators/v3/templates/helpers.go: ReferenceToStructAttributePath, isFieldPointer", "pkg/asyncapi/v3/message.go: createCorrelationIDFieldIfMissing, isCorrelationIDRequired"]}
{"id": "C123", "title": "Options of broker controllers: the last of a kind counts, and none crashes", "statement": "A controller made with any list of options has the settings of the last option of each kind, and the default where none is given, whatever the order of the kinds. JetStream asks the server for nothing but the last configurations given, and uses the stream and consumer they name. Neither making a controller nor subscribing with it crashes the process: what cannot work is reported as an error.", "quantifier": "every list of options in every order, with repetitions and any values, every list of hosts, every topic, and every answer of the servers", "why_tests_cant": "A test makes a controller with a few usual options; combinations, orders and refusals of the server are unbounded.", "anchors": ["pkg/extensions/brokers/kafka/kafka.go: NewController, With…, Subscribe", "pkg/extensions/brokers/natsjetstream/natsjetstream.go: NewController, With…, registerStream, registerConsumer"]}
{"id": "C124", "title": "The generated file imports what it uses, each package under one name", "statement": "Every package the generated code uses is imported under the name the code uses; no two imports declare one name; and with formatting disabled, when nothing removes unneeded imports, no import is unused.", "quantifier": "every document, every choice of parts to generate, dates on or off, every set of custom imports", "why_tests_cant": "A test generates code for a few documents and always formats it; which packages are used depends on every message, header, schema and operation of the document.", "anchors": ["pkg/codegen/generators/v3/templates/imports.tmpl, types.tmpl, message.tmpl, schema_definition.tmpl, controller.tmpl, subscriber.tmpl", "pkg/codegen/generators/v3/generator.go: Generate, generateImports", "pkg/codegen/codegen.go: Generate", "pkg/asyncapi/v3/extensions.go: CustomImports"]}
{"id": "C125", "title": "A channel given by reference gives the functions of the channel it stands for", "statement": "For every v3 document and operation, however many references lead from the operation to its channel: the generated functions take parameters exactly when the channel has parameters, take an address from the caller exactly when it has none, and otherwise use its address; a request listens where its reply is sent; and an operation that lists no messages is for those of its channel.", "quantifier": "every document, every channel and every chain of references from an operation to it", "why_tests_cant": "The reference is followed a different number of times in each place of the templates. Tests use operations whose channel is written in place, where every number of steps from one on gives the same channel.", "anchors": ["pkg/codegen/generators/v3/templates/helpers.go: GenerateChannelAddrFromOp, GenerateChannelAddr, OpToMsgTypeName", "pkg/codegen/generators/v3/templates/controller.tmpl", "pkg/asyncapi/v3/channel.go: Follow, GetMessage", "pkg/asyncapi/v3/operation.go: generateReply, GetMessage"]}
{"id": "C126", "title": "Cancelling a Kafka subscription and subscribing again loses no message and repeats none", "statement": "In a process that keeps running, however often a Kafka subscription is cancelled and made again, and whatever waits in its queue at that time: every message the next subscription does not start with is handled by some listener, and no message is handled twice.", "quantifier": "all histories of subscriptions, reads, handled messages and cancellations of any length, with listeners of cancelled subscriptions still at work; automatic and manual commits", "why_tests_cant": "What is repeated depends on what waits in the queue at the moment the reader is closed, and the listener of the cancelled subscription goes on while the next one starts. Tests cancel a subscription once, at the end.", "anchors": ["pkg/extensions/brokers/kafka/kafka.go: Subscribe, autoCommitMessagesHandler, manualCommitMessagesHandler", "pkg/extensions/broker.go: WaitForCancellationAsync, Cancel", "pkg/codegen/generators/v3/templates/controller.tmpl: listenTo…NextMessage"]}
{"id": "C127", "title": "A request does not return a message that was on the reply channel before it was made", "statement": "For requests made one after the other over one reply channel, with or without correlation ID: the message a request returns was published after the request subscribed to the reply channel.", "quantifier": "all sequences of requests, all contents of the reply channel, all messages published meanwhile; NATS and Kafka with and without group and automatic commits", "why_tests_cant": "A stale reply is only seen by a later request on a channel that keeps its messages. Tests make one request on a fresh reply channel.", "anchors": ["pkg/codegen/generators/v3/templates/controller.tmpl: Request…, waitFor…NextResponse", "pkg/extensions/brokers/kafka/kafka.go: Subscribe", "pkg/extensions/brokers/nats/nats.go: Subscribe"]}
{"id": "C128", "title": "Messages published over Kafka reach the subscriptions of the channel", "statement": "Every message that a Kafka controller publishes on a channel is received, in the order of publishing, by a subscription made with the options the controller offers (a partition, or a group with one or several members), and the members of a group share the messages when the topic has several partitions.", "quantifier": "every number of partitions, every history of publications with any payloads and any answers of the server to each attempt, every partition option and every assignment of partitions to members", "why_tests_cant": "The tests use topics that the controller created, with one partition, one member and partition 0; the partition that is written to depends on the payload and the attempts before.", "anchors": ["pkg/extensions/brokers/kafka/kafka.go: Publish", "pkg/extensions/brokers/kafka/kafka.go: Subscribe", "pkg/extensions/brokers/kafka/kafka.go: WithPartition"]}
{"id": "C129", "title": "The connections a Kafka controller dials are closed", "statement": "When making a Kafka controller, subscribing and publishing have returned, with success or an error, none of the connections that they dialled themselves is open any more.", "quantifier": "every sequence of calls, every answer of the server to each dial, listing, creation, reading and write, and any number of rounds and attempts", "why_tests_cant": "A connection that stays open is not seen by a test that checks results; it needs a server that can be dialled but does not list its brokers, and repeated attempts.", "anchors": ["pkg/extensions/brokers/kafka/kafka.go: NewController", "pkg/extensions/brokers/kafka/kafka.go: checkTopicExistOrCreateIt", "pkg/extensions/brokers/kafka/kafka.go: Publish"]}
{"id": "C130", "title": "A generated file says that it is generated, and is of the package asked for", "statement": "Every file the generator writes is taken as generated by Go tools (a line that begins with \"// Code generated \" and ends with \" DO NOT EDIT.\" comes before anything that is no comment), and its package clause has the name given as option, which is a name Go accepts.", "quantifier": "every package name (any text), every build information of the program or none, every rest of the file, with and without formatting", "why_tests_cant": "Tests generate with a few well-formed names and one build; the head has to be right for every text given as name and every build.", "anchors": ["pkg/codegen/generators/v3/templates/imports.tmpl", "pkg/codegen/generators/v2/templates/imports.tmpl", "pkg/codegen/codegen.go: modulePathVersion", "pkg/codegen/codegen.go: Generate"]}
{"id": "C131", "title": "References between files lead to the file they name", "statement": "A reference with a file part, in any of the files given to one command, finds exactly the elements of the file it names, seen from the file it stands in; a reference without a file part finds those of its own file. The folder the command runs in, how a path is written and the order of the files make no difference.", "quantifier": "all folders, all lists of files with their documents, all references in each of the files", "why_tests_cant": "Tests run the command in one folder, with the files next to each other and references from the main document only; which folders, spellings and files refer to each other is unbounded.", "anchors": ["pkg/asyncapi/v3/specification.go: AddDependency, getDependencyBasedOnRef, setDependencies", "pkg/asyncapi/v2/specification.go: AddDependency, reference, setDependencies", "pkg/codegen/codegen.go: FromFile"]}
{"id": "C132", "title": "The properties of an object become different fields of its struct", "statement": "The struct generated for an object has a field with a name of its own for each property: no two fields have the same name, no field has the name of a method of the struct, the cases that tell known keys from additional properties differ, and no field is left without a name.", "quantifier": "for all lists of property keys (and of parameter keys of a channel), with and without additional properties, and all conversions of keys", "why_tests_cant": "Tests have a few hand-chosen keys; two keys meeting, or one meeting a name the templates write, needs the particular pair, and what matters is which pairs meet at all.", "anchors": ["pkg/codegen/generators/v3/templates/schema_definition.tmpl", "pkg/codegen/generators/v2/templates/schema_definition.tmpl", "pkg/codegen/generators/v3/templates/marshaling/additional_properties.tmpl", "pkg/codegen/generators/v3/templates/types.tmpl", "pkg/utils/template/helpers.go: Namify, ConvertKey"]}
{"id": "C133", "title": "Private keys the certificate tool writes are for their owner only", "statement": "After every run of the tool that generates certificates, no user other than the one that ran it can read the private keys it wrote.", "quantifier": "every umask, every state of the directories and files before a run, every history of runs and deletions", "why_tests_cant": "Tests run under one umask in one fresh directory and read the files as their owner.", "anchors": ["tools/generate-certs/main.go: createNATSCerts, createKafkaCerts, checkIfOneOfFilesIsMissing"]}
{"id": "C134", "title": "A message published over NATS after a subscription was made reaches it", "statement": "Once subscribing to a channel over NATS has returned without an error, every message that any controller publishes on the channel afterwards reaches the subscription, or, if it is in a queue group, one of that group, at most one if the message is published once, and nobody else gets anything that was not published on their channel.", "quantifier": "all numbers of controllers on one server, all channels, queue groups and messages, all interleavings of subscriptions, publications and what the server takes from the connections, and all choices of the server in queue groups", "why_tests_cant": "A test that subscribes and publishes in one process nearly always finds the subscription registered in time; the loss needs the server to read one connection before another.", "anchors": ["pkg/extensions/brokers/nats/nats.go: Controller.Subscribe, Controller.Publish"]}
{"id": "C135", "title": "A slow handler loses no message received over NATS", "statement": "The handler of a subscription over NATS is called with every message the server sends to the subscription, once and in order, however long the handler takes.", "quantifier": "all messages, all speeds of the handler, all interleavings of arriving messages, the client library and the listener, all limits of the library and sizes of the channel between them", "why_tests_cant": "The loss needs more messages than the buffers hold, which is half a million with the defaults, while the handler is busy; no test sends that many.", "anchors": ["pkg/extensions/brokers/nats/nats.go: Controller.Subscribe, Controller.messagesHandler", "pkg/extensions/broker.go: BrokerChannelSubscription.TransmitReceivedMessage", "pkg/extensions/brokers/common.go: BrokerMessagesQueueSize"]}
