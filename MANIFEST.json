{
 "claims": [
  {
   "property": "C01",
   "status": "proved",
   "theorems": [
    "Verif.Ack.C01_hooks_are_the_first_call",
    "Verif.Ack.C01_at_most_one_hook"
   ],
   "note": ""
  },
  {
   "property": "C02",
   "status": "partial",
   "theorems": [
    "Verif.Cancel.C02_cancel_postcondition_partial",
    "Verif.Cancel.C02_waiting_partial",
    "Verif.Cancel.C02_closed_return_partial",
    "Verif.Cancel.C02_pending_cancel_can_progress",
    "Verif.Cancel.C02_cancel_terminates",
    "Verif.Cancel.C02_violated",
    "Verif.Cancel.C02_violated_forever",
    "Verif.Cancel.C02_violated_two_callers"
   ],
   "note": "Violated for the capacity-1 cancel channel every broker uses (C02_violated, C02_violated_forever) and for two callers (C02_violated_two_callers). Proved for an unbuffered channel with one caller, for any capacity when the waiter receives directly, plus progress and termination for one caller at any capacity."
  },
  {
   "property": "C03",
   "status": "proved",
   "theorems": [
    "Verif.Cancel.C03_teardown_once_in_order",
    "Verif.Cancel.C03_only_when_cancelled",
    "Verif.Cancel.C03_one_cancel_never_panics",
    "Verif.Cancel.C03_second_cancel_panics"
   ],
   "note": "Also records that a second Cancel panics (C03_second_cancel_panics)."
  },
  {
   "property": "C04",
   "status": "proved",
   "theorems": [
    "Verif.Pipeline.C04_no_loss_no_dup_in_order",
    "Verif.Pipeline.C04_stopped_listener_handled_everything",
    "Verif.Pipeline.C04_listener_never_stuck",
    "Verif.Pipeline.C04_listener_terminates"
   ],
   "note": ""
  },
  {
   "property": "C05",
   "status": "partial",
   "theorems": [
    "Verif.Pipeline.C05_violated",
    "Verif.Pipeline.C05_violated_inevitably",
    "Verif.Pipeline.C05_quiet_close_never_panics_partial"
   ],
   "note": "Violated (C05_violated, C05_violated_inevitably): closing while a delivery is pending panics. Partial: no panic when the broker is quiet at close."
  },
  {
   "property": "C06",
   "status": "proved",
   "theorems": [
    "Verif.Middleware.C06_starts_in_order",
    "Verif.Middleware.C06_operation_at_most_once"
   ],
   "note": ""
  },
  {
   "property": "C07",
   "status": "proved",
   "theorems": [
    "Verif.Middleware.C07_operation_executed"
   ],
   "note": ""
  },
  {
   "property": "C08",
   "status": "proved",
   "theorems": [
    "Verif.Middleware.C08_success_iff",
    "Verif.Middleware.C08_error_passed_on",
    "Verif.Middleware.C08_hiding_middleware_hides"
   ],
   "note": ""
  },
  {
   "property": "C09",
   "status": "proved",
   "theorems": [
    "Verif.Middleware.C09_world_changed_by_operation_only",
    "Verif.Middleware.C09_outcomes_are_real",
    "Verif.Middleware.C09_operation_sees_last_write"
   ],
   "note": ""
  },
  {
   "property": "C10",
   "status": "proved",
   "theorems": [
    "Verif.Middleware.C10_logging_harmless",
    "Verif.Middleware.C10_intercepter_harmless",
    "Verif.Middleware.C10_recovery_harmless",
    "Verif.Middleware.C10_recovery_first_no_panic"
   ],
   "note": ""
  },
  {
   "property": "C11",
   "status": "proved",
   "theorems": [
    "Verif.Listen.C11_ack_only_after_success"
   ],
   "note": ""
  },
  {
   "property": "C12",
   "status": "partial",
   "theorems": [
    "Verif.Listen.C12_acked_when_handled",
    "Verif.Listen.C12_nacked_when_failed_partial",
    "Verif.Listen.C12_exactly_one_outcome_partial",
    "Verif.Listen.C12_violated_by_recovery",
    "Verif.Listen.C12_violated_by_hiding_middleware"
   ],
   "note": "Violated by the recovery middleware and by error-hiding middlewares (witnesses). Proved for middlewares that report failures and handlers that do not crash."
  },
  {
   "property": "C13",
   "status": "proved",
   "theorems": [
    "Verif.Listen.C13_handles_all_then_stops",
    "Verif.Listen.C13_keeps_listening",
    "Verif.Listen.C13_panic_crashes"
   ],
   "note": ""
  },
  {
   "property": "C14",
   "status": "proved",
   "theorems": [
    "Verif.Controller.C14_at_most_one_live_per_address",
    "Verif.Controller.C14_second_subscribe_refused",
    "Verif.Controller.C14_resubscribe_after_unsubscribe"
   ],
   "note": "Sequential use of one controller; the broker's answers are arbitrary."
  },
  {
   "property": "C15",
   "status": "proved",
   "theorems": [
    "Verif.Controller.C15_refines_a_set",
    "Verif.Controller.C15_unsubscribe_cancels_exactly_that_one"
   ],
   "note": "Refinement to a plain set of addresses, for every history."
  },
  {
   "property": "C16",
   "status": "partial",
   "theorems": [
    "Verif.Controller.C16_success_means_all_subscribed_partial",
    "Verif.Controller.C16_succeeds_when_broker_accepts",
    "Verif.Controller.C16_violated",
    "Verif.Controller.C16_two_operations_on_one_address_fail"
   ],
   "note": "Violated on failure: earlier subscriptions stay (C16_violated), and two receive operations on one address always fail (C16_two_operations_on_one_address_fail). Proved: success means all subscribed."
  },
  {
   "property": "C17",
   "status": "partial",
   "theorems": [
    "Verif.Controller.C17_close_releases_all_partial",
    "Verif.Controller.C17_violated"
   ],
   "note": "Violated for channels with parameters (C17_violated). Proved when only channels without parameter were subscribed."
  },
  {
   "property": "C18",
   "status": "partial",
   "theorems": [
    "Verif.SubRace.C18_serialised_calls_are_safe_partial",
    "Verif.SubRace.C18_violated"
   ],
   "note": "Violated by an interleaving of two callers (C18_violated). Proved for calls that do not overlap."
  },
  {
   "property": "C19",
   "status": "proved",
   "theorems": [
    "Verif.Send.C19_published_message",
    "Verif.Send.C19_correlation_id"
   ],
   "note": "Correlation ID accessors are assumed lawful here; C39 proves it for the generated ones. uuid.New().String() is assumed non-empty."
  },
  {
   "property": "C20",
   "status": "partial",
   "theorems": [
    "Verif.Send.C20_reply_correlated",
    "Verif.Send.C20_uncorrelated_reply_refused",
    "Verif.Send.C20_request_without_id_refused",
    "Verif.Send.C20_absent_address_refused_partial",
    "Verif.Send.C20_violated_empty_address"
   ],
   "note": "Violated for a reply address that is present but empty (C20_violated_empty_address). Everything else proved."
  },
  {
   "property": "C21",
   "status": "proved",
   "theorems": [
    "Verif.Send.C21_at_most_one_publication",
    "Verif.Send.C21_success_means_accepted",
    "Verif.Send.C21_encode_failure"
   ],
   "note": ""
  },
  {
   "property": "C22",
   "status": "proved",
   "theorems": [
    "Verif.Send.C22_returns_first_matching_reply",
    "Verif.Send.C22_acknowledges_all_received",
    "Verif.Send.C22_awaits_the_id_it_sent",
    "Verif.Send.C22_v2_returns_first_matching_reply"
   ],
   "note": "Assumes the middlewares do not panic on replies and that decoding returns."
  },
  {
   "property": "C23",
   "status": "partial",
   "theorems": [
    "Verif.Send.C23_waiting_step_reports_partial",
    "Verif.Send.C23_violated_forever",
    "Verif.Send.C23_violated"
   ],
   "note": "Violated for every request still waiting (C23_violated_forever, C23_violated). Only the inner waiting step reports the error."
  },
  {
   "property": "C24",
   "status": "proved",
   "theorems": [
    "Verif.Send.C24_no_publication_without_subscription",
    "Verif.Send.C24_subscribes_first_releases_last",
    "Verif.Send.C24_released_exactly_once",
    "Verif.Send.C24_v2_subscribes_first_releases_last"
   ],
   "note": ""
  },
  {
   "property": "C25",
   "status": "partial",
   "theorems": [
    "Verif.Versioning.C25_version_tagged_partial",
    "Verif.Versioning.C25_violated_nil_headers"
   ],
   "note": "Violated for a nil header map, which panics (C25_violated_nil_headers). Proved for all messages with a header map."
  },
  {
   "property": "C26",
   "status": "proved",
   "theorems": [
    "Verif.Versioning.C26_routes_like_a_directory",
    "Verif.Versioning.C26_delivered_once_to_its_version",
    "Verif.Versioning.C26_dropped_without_version"
   ],
   "note": "For histories in which every version met is registered, as the property says; unknown versions are C27."
  },
  {
   "property": "C27",
   "status": "partial",
   "theorems": [
    "Verif.Versioning.C27_violated",
    "Verif.Versioning.C27_violated_forever",
    "Verif.Versioning.C27_ignored_on_unused_channel_partial",
    "Verif.Versioning.C27_violated_spreads"
   ],
   "note": "Violated, for ever, once an unregistered version is met on a channel in use (C27_violated, C27_violated_forever)."
  },
  {
   "property": "C28",
   "status": "proved",
   "theorems": [
    "Verif.Versioning.C28_one_broker_subscription_per_channel",
    "Verif.Versioning.C28_known_without_messages",
    "Verif.Versioning.C28_second_subscription_refused"
   ],
   "note": "For histories in which every version met is registered (in particular all histories without messages)."
  },
  {
   "property": "C29",
   "status": "partial",
   "theorems": [
    "Verif.VersionLocks.C29_violated",
    "Verif.VersionLocks.C29_no_deadlock_partial"
   ],
   "note": "Violated: lock-order inversion between Subscribe and cancellation (C29_violated). Proved for any number of goroutines when the two do not overlap."
  },
  {
   "property": "C30",
   "status": "proved",
   "theorems": [
    "Verif.JetStream.C30_matches_like_nats",
    "Verif.JetStream.C30_covers_all_strings"
   ],
   "note": "For all pairs of strings, the matcher agrees with an inductive NATS matching relation on tokens and never indexes out of range."
  },
  {
   "property": "C31",
   "status": "proved",
   "theorems": [
    "Verif.JetStream.C31_routed_to_a_match",
    "Verif.JetStream.C31_never_misrouted",
    "Verif.JetStream.C31_order_independent_without_overlap",
    "Verif.JetStream.C31_overlap_depends_on_order"
   ],
   "note": "For every set of patterns and iteration order. With overlapping patterns exactly one of the matching subscriptions gets the message and which one depends on Go's map order (C31_overlap_depends_on_order)."
  },
  {
   "property": "C32",
   "status": "partial",
   "theorems": [
    "Verif.JetStream.C32_healthy_partial",
    "Verif.JetStream.C32_violated_orphan_queue",
    "Verif.JetStream.C32_violated_two_subscriptions"
   ],
   "note": "Violated in general: failure to start consuming leaves a queue without reader, two subscriptions to one channel crash on the second cancellation. Proved for one subscription per channel at a time with consuming starting. The data race on the unguarded channel map between the consumer callback and Subscribe is in C90 and C109."
  },
  {
   "property": "C33",
   "status": "proved",
   "theorems": [
    "Verif.Transport.C33_nats_transports_unchanged",
    "Verif.Transport.C33_kafka_transports_unchanged"
   ],
   "note": "The controllers' own part, with a wire that carries header maps and data unchanged (Kafka's protocol is binary; for the text that NATS sends headers as, see C115). Servers are not modelled."
  },
  {
   "property": "C34",
   "status": "proved",
   "theorems": [
    "Verif.Kafka.C34_committed_at_most_once",
    "Verif.Kafka.C34_committed_iff_decided",
    "Verif.Kafka.C34_auto_commit_ignores_decisions"
   ],
   "note": "For every interleaving of reads and decisions. Commit calls are counted; a failing CommitMessages is only logged by the code."
  },
  {
   "property": "C35",
   "status": "partial",
   "theorems": [
    "Verif.Kafka.C35_delivers_until_first_failure_partial",
    "Verif.Kafka.C35_delivers_all_without_failure_partial",
    "Verif.Kafka.C35_violated"
   ],
   "note": "Violated: any read error ends the loop for ever (C35_violated). Proved: exactly the messages before the first failed read are delivered in order."
  },
  {
   "property": "C36",
   "status": "proved",
   "theorems": [
    "Verif.Kafka.C36_nil_iff_written_once",
    "Verif.Kafka.C36_retries_only_unknown_topic",
    "Verif.Kafka.C36_other_errors_returned",
    "Verif.Kafka.C36_returned_error_is_real"
   ],
   "note": ""
  },
  {
   "property": "C37",
   "status": "partial",
   "theorems": [
    "Verif.Payload.C37_strings_survive_partial",
    "Verif.Payload.C37_json_survives_partial",
    "Verif.Payload.C37_times_survive_iff_partial",
    "Verif.Payload.C37_violated_int64_survive_iff",
    "Verif.Payload.C37_violated_int32_survive_iff",
    "Verif.Payload.C37_violated_int32_by_reference",
    "Verif.Payload.C37_violated_numbers",
    "Verif.Payload.C37_violated_witness",
    "Verif.PayloadRef.C37_text_by_reference_partial",
    "Verif.PayloadRef.C37_violated_text_by_two_references",
    "Verif.PayloadRef.C37_violated_text_witness"
   ],
   "note": "Violated for integers (written big-endian, read little-endian; exact surviving set proved), 32-bit integers behind a reference (only 0 and -1 survive), numbers (value dropped, Go would reject the unused variable) and texts behind two references (written as they are, read as JSON: no text at all arrives). Proved for strings in place or behind one reference, JSON values (given the JSON law), and times up to the wire precision."
  },
  {
   "property": "C38",
   "status": "partial",
   "theorems": [
    "Verif.Headers.C38_headers_survive_partial",
    "Verif.Headers.C38_absent_is_zero",
    "Verif.Headers.C38_encoding_fails_only_if",
    "Verif.Headers.C38_violated"
   ],
   "note": "Violated: an object sent in an optional header (or any object header with forced pointers) is unmarshalled into a nil pointer and decoding fails. Proved for all other header schemas, values, extra headers and orders, given the JSON and time laws."
  },
  {
   "property": "C39",
   "status": "partial",
   "theorems": [
    "Verif.Headers.C39_set_then_get_partial",
    "Verif.Headers.C39_response_correlated_partial",
    "Verif.Headers.C39_violated",
    "Verif.Headers.C39_lawful_message_type"
   ],
   "note": "Violated when an optional struct lies on the path to the ID: NewX itself dereferences nil. Proved when no nil pointer lies on the path, at any depth."
  },
  {
   "property": "C40",
   "status": "partial",
   "theorems": [
    "Verif.AddProps.C40_v3_marshals_members_partial",
    "Verif.AddProps.C40_v2_marshals_members_partial",
    "Verif.AddProps.C40_violated_v2_comma",
    "Verif.AddProps.C40_violated_control_character"
   ],
   "note": "Violated in v2 (leading comma without declared member, Go quoting of values) and in both versions for keys Go quotes with non-JSON escapes. Proved for all members, values and iteration orders when keys are quoted as JSON does. Parser is an RFC 8259 parser, the printer models encoding/json without HTML escaping options."
  },
  {
   "property": "C41",
   "status": "partial",
   "theorems": [
    "Verif.AddProps.C41_round_trip_partial",
    "Verif.AddProps.C41_violated_declared_type",
    "Verif.AddProps.C41_violated_case"
   ],
   "note": "Violated when a declared property is not of the additional type (decoding fails) and when an additional key equals a declared one up to case. Proved otherwise for all fields, values and iteration orders."
  },
  {
   "property": "C42",
   "status": "proved",
   "theorems": [
    "Verif.Naming.C42_valid",
    "Verif.Naming.C42_idempotent",
    "Verif.Naming.C42_empty_iff_no_letter"
   ],
   "note": "For the default naming scheme, on arbitrary bytes including invalid UTF-8; only the ASCII behaviour of package unicode is assumed. The camel scheme (strcase) is C93. C42_empty_iff_no_letter tells when the name is empty (not an identifier)."
  },
  {
   "property": "C43",
   "status": "partial",
   "theorems": [
    "Verif.Naming.C43_same_name_iff_same_words_partial",
    "Verif.Naming.C43_violated",
    "Verif.Naming.C43_violated_parameters",
    "Verif.Naming.C43_no_parameters_partial",
    "Verif.Naming.C43_violated_between",
    "Verif.Naming.C43_any_separators_partial",
    "Verif.Naming.C43_violated_shift"
   ],
   "note": "Violated by texts that differ only in separators or case, by texts without ASCII letters, by parameter types of channels with two parameters (C43_violated_between: whatever stands between the first opening and the last closing brace is ignored), and by characters outside of ASCII, which shift capitals (C43_violated_shift). Proved: texts of lower-case words, joined by any non-letters the code treats as separators, collide exactly when their words are the same; an address without parameters keeps its name (C43_no_parameters_partial)."
  },
  {
   "property": "C44",
   "status": "partial",
   "theorems": [
    "Verif.ChannelAddr.C44_substitutes_partial",
    "Verif.ChannelAddr.C44_without_parameters",
    "Verif.ChannelAddr.C44_segments",
    "Verif.ChannelAddr.C44_violated",
    "Verif.ChannelAddr.C44_violated_unnamed"
   ],
   "note": "Violated when the address contains a percent sign, and by a parameter whose name has no Go name (C44_violated_unnamed). Proved end to end otherwise: the generated Go text is parsed and evaluated (string literals, Sprintf with %s/%v, struct fields). Non-ASCII parameter names are not covered."
  },
  {
   "property": "C45",
   "status": "proved",
   "theorems": [
    "Verif.ChannelAddr.C45_every_line_is_comment",
    "Verif.ChannelAddr.C45_lines_start_with_slashes"
   ],
   "note": "For every text and every comment prefix without newline."
  },
  {
   "property": "C46",
   "status": "partial",
   "theorems": [
    "Verif.Refs.C46_resolves_partial",
    "Verif.Refs.C46_unknown_is_error",
    "Verif.Refs.C46_v2_supports",
    "Verif.Refs.C46_violated_json_pointer",
    "Verif.Refs.C46_violated_tail",
    "Verif.Refs.C46_violated_escape",
    "Verif.Refs.C46_violated_root"
   ],
   "note": "Violated for standard JSON pointers into schemas (crash), for trailing path elements (ignored), for escaped names (not found) and for servers and operations at the root of a document (not supported). Proved otherwise for every document, reference and set of dependencies."
  },
  {
   "property": "C47",
   "status": "partial",
   "theorems": [
    "Verif.Refs.C47_no_panic_partial",
    "Verif.Refs.C47_crashes_iff_partial",
    "Verif.Refs.C47_violated"
   ],
   "note": "Violated. C47_crashes_iff_partial characterises exactly, for every document and every reference text, when resolution crashes the generator (index out of range, nil dereference)."
  },
  {
   "property": "C48",
   "status": "partial",
   "theorems": [
    "Verif.SchemaMerge.C48_properties",
    "Verif.SchemaMerge.C48_adopted",
    "Verif.SchemaMerge.C48_alternatives",
    "Verif.SchemaMerge.C48_alternative_reference",
    "Verif.SchemaMerge.C48_required",
    "Verif.SchemaMerge.C48_idempotent_partial",
    "Verif.SchemaMerge.C48_violated_alternatives",
    "Verif.SchemaMerge.C48_violated_two_references",
    "Verif.SchemaMerge.C48_required_not_marked"
   ],
   "note": "For all schemas and iteration orders: object type, union of properties with the first definition winning, duplicate-free union of required names, the alternatives that are merged, stable when merged again. Violated: lists of alternatives grow when merged again; properties behind two references are lost."
  },
  {
   "property": "C49",
   "status": "partial",
   "theorems": [
    "Verif.Validations.C49_inherits_partial",
    "Verif.Validations.C49_idempotent",
    "Verif.Validations.C49_violated_zero"
   ],
   "note": "For all schemas and every constraint: inherited when declared with a value other than zero, kept otherwise; inheriting twice changes nothing. Violated for constraints whose value is zero."
  },
  {
   "property": "C50",
   "status": "partial",
   "theorems": [
    "Verif.Types.C50_tag_read_partial",
    "Verif.Validations.C50_enforced_partial",
    "Verif.Validations.C50_justified",
    "Verif.Validations.C50_required",
    "Verif.Validations.C50_violated_ignored",
    "Verif.Validations.C50_violated_zero_and_numbers",
    "Verif.Validations.C50_violated_comma"
   ],
   "note": "For all schemas printable in a tag: lengths, bounds, uniqueness, string enumerations and string constants are read back from the tag by a model of the validator's tag syntax; no directive is invented. Violated: item counts, pattern, multipleOf, property counts, zero bounds, enumerations or constants that are not strings, values with separators."
  },
  {
   "property": "C51",
   "status": "partial",
   "theorems": [
    "Verif.Fields.C51_required_present_partial",
    "Verif.Fields.C51_optional_absent",
    "Verif.Fields.C51_round_trip_partial",
    "Verif.Fields.C51_violated_merged_requirement",
    "Verif.Fields.C51_violated_empty_array"
   ],
   "note": "For all values and tags: a property marked required is written, an absent optional one is not, decoding gives the value back except for omitted empty arrays. Violated for properties that became required by a merge, and for empty optional arrays."
  },
  {
   "property": "C52",
   "status": "partial",
   "theorems": [
    "Verif.CorrTree.C52_exactly",
    "Verif.CorrTree.C52_reached_partial",
    "Verif.CorrTree.C52_unchanged",
    "Verif.CorrTree.C52_location",
    "Verif.CorrTree.C52_required",
    "Verif.CorrTree.C52_elsewhere",
    "Verif.CorrTree.C52_violated_type",
    "Verif.CorrTree.C52_violated_reference",
    "Verif.CorrTree.C52_violated_reference_required",
    "Verif.CorrTree.C52_violated_panic"
   ],
   "note": "Exact effect of the creation on a tree without references (C52_exactly), the location is reached whenever no intermediate element has another type; violated when an element on the path has another type, when payload or headers are given by reference, and for a location with an empty path (generator panic)."
  },
  {
   "property": "C53",
   "status": "partial",
   "theorems": [
    "Verif.Sides.V2.C53_v2",
    "Verif.Sides.V2.C53_v2_count",
    "Verif.Sides.V2.C53_v2_subscriber",
    "Verif.Sides.V3.C53_v3_receive",
    "Verif.Sides.V3.C53_v3_dual_partial",
    "Verif.Sides.V3.C53_v3_both_sides_partial",
    "Verif.Sides.V3.C53_violated_clash",
    "Verif.Sides.V3.C53_v3_counts",
    "Verif.Sides.V3.C53_v3_entries_partial",
    "Verif.Sides.V3.C53_violated_reference"
   ],
   "note": "Full for v2. For v3 the two sides are dual unless a reply operation name collides with a declared operation name; the collision is exhibited as a violation. An operation given by a reference to the components, which AsyncAPI allows, is on neither side: C53_violated_reference, for every document."
  },
  {
   "property": "C54",
   "status": "partial",
   "theorems": [
    "Verif.Sides.V3.C54_reply_partial",
    "Verif.Sides.V3.C54_violated_shared_channel"
   ],
   "note": "A reply is sent and received on the declared reply channel when reply channels are not shared; the shared case is exhibited as a violation."
  },
  {
   "property": "C55",
   "status": "partial",
   "theorems": [
    "Verif.Parse.C55_accepted",
    "Verif.Parse.C55_refused",
    "Verif.Parse.C55_reason",
    "Verif.Parse.C55_main_not_nil",
    "Verif.Parse.C55_generator",
    "Verif.Parse.C55_dependencies",
    "Verif.Parse.C55_violated_dependency"
   ],
   "note": "Acceptance of a document and choice of the implementation are characterised exactly; dependencies of another major version are NOT refused (C55_violated_dependency), C55_dependencies says exactly which are accepted."
  },
  {
   "property": "C56",
   "status": "proved",
   "theorems": [
    "Verif.Cli.C56_enabled",
    "Verif.Cli.C56_refused",
    "Verif.Cli.C56_empty",
    "Verif.Cli.C56_total",
    "Verif.Cli.C56_parts",
    "Verif.Cli.C56_fails"
   ],
   "note": "For every option string: exactly the named parts are enabled, or the first unknown name is reported; and the generated content consists of exactly the enabled parts."
  },
  {
   "property": "C57",
   "status": "partial",
   "theorems": [
    "Verif.Imports.C57_conflict",
    "Verif.Imports.C57_collected",
    "Verif.Imports.C57_order",
    "Verif.Imports.C57_reorder",
    "Verif.Imports.C57_every_partial",
    "Verif.Imports.C57_violated_additional",
    "Verif.Imports.C57_violated_inline"
   ],
   "note": "Collection from components (properties and items, any depth), conflicts and independence of the iteration order are exact; imports on additionalProperties, composition branches, inline channel messages and v3 parameters are not collected (C57_violated_additional, C57_violated_inline)."
  },
  {
   "property": "C58",
   "status": "partial",
   "theorems": [
    "Verif.Logs.C58_exactly",
    "Verif.Logs.C58_found_partial",
    "Verif.Logs.C58_violated",
    "Verif.Logs.C58_ecs_field",
    "Verif.Logs.C58_ecs_message",
    "Verif.Logs.C58_ecs_level",
    "Verif.Logs.C58_ecs_context",
    "Verif.Logs.C58_ecs_action",
    "Verif.Logs.C58_violated_ecs",
    "Verif.Logs.C58_sorted",
    "Verif.Logs.C58_printed"
   ],
   "note": "Exact characterisation of what is found; fields lost by clashing dotted keys are exhibited (C58_violated, C58_violated_ecs). The ECS text is one JSON text that reads back to the record (C58_printed)."
  },
  {
   "property": "C59",
   "status": "partial",
   "theorems": [
    "Verif.Codegen.C59_isolated_partial",
    "Verif.Codegen.C59_settings",
    "Verif.Codegen.C59_violated"
   ],
   "note": "Holds for histories without the two sticky options and for other specifications; violated by ignore-string-format and force-pointers, which are never reset."
  },
  {
   "property": "C60",
   "status": "proved",
   "theorems": [
    "Verif.Codegen.C60_other_files",
    "Verif.Codegen.C60_untouched",
    "Verif.Codegen.C60_written",
    "Verif.Codegen.C60_options_first"
   ],
   "note": "Processing, templates, formatting and the file system are parameters; all failure points covered."
  },
  {
   "property": "C61",
   "status": "partial",
   "theorems": [
    "Verif.Message.C61_fields",
    "Verif.Message.C61_first_wins",
    "Verif.Message.C61_headers_partial",
    "Verif.Message.C61_missing",
    "Verif.Message.C61_untouched",
    "Verif.Message.C61_violated_payload",
    "Verif.Message.C61_violated_headers",
    "Verif.Message.C61_operation",
    "Verif.Message.C61_violated_correlation",
    "Verif.Message.C61_own_correlation"
   ],
   "note": "Violated: a trait's payload is merged into the headers (or dropped) when the message has a payload, and a correlation ID that comes from a trait never gets its property created. Proved: texts, tags, documentation and examples are filled and never overridden; headers merged property by property; headers and payload taken when missing; operation traits."
  },
  {
   "property": "C62",
   "status": "partial",
   "theorems": [
    "Verif.Message.C62_inline_partial",
    "Verif.Message.C62_no_payload_partial",
    "Verif.Message.C62_every",
    "Verif.Message.C62_violated_reference",
    "Verif.Message.C62_missing",
    "Verif.Message.C62_violated_cycle"
   ],
   "note": "Violated: an alternative given by reference adds nothing, a self-reference never ends. Proved: every property of every alternative written in place, first wins."
  },
  {
   "property": "C63",
   "status": "partial",
   "theorems": [
    "Verif.Message.C63_all",
    "Verif.Message.C63_acyclic_partial",
    "Verif.Message.C63_violated_cycle",
    "Verif.Message.C63_one",
    "Verif.Message.C63_violated_chain"
   ],
   "note": "Violated: only v2 messages follow a chain to its end, and they never return on a cycle. Proved: exact characterisation of both kinds of following."
  },
  {
   "property": "C64",
   "status": "proved",
   "theorems": [
    "Verif.Dedup.C64_names",
    "Verif.Dedup.C64_named",
    "Verif.Dedup.C64_idempotent"
   ],
   "note": "For every list, of names or of named elements."
  },
  {
   "property": "C65",
   "status": "proved",
   "theorems": [
    "Verif.Kafka.C65_topic_check_means_listed",
    "Verif.Kafka.C65_topic_check_reports_errors"
   ],
   "note": ""
  },
  {
   "property": "C66",
   "status": "partial",
   "theorems": [
    "Verif.Payload.C66_panics_iff_short_partial",
    "Verif.Payload.C66_violated"
   ],
   "note": "Violated: integer and number payloads shorter than their width panic. Proved that nothing else does."
  },
  {
   "property": "C67",
   "status": "partial",
   "theorems": [
    "Verif.SchemaMerge.C67_violated_order",
    "Verif.SchemaMerge.C67_complete_partial",
    "Verif.SchemaMerge.C67_requirements_partial",
    "Verif.SchemaMerge.C67_reference_inherits",
    "Verif.Process.C67_sound",
    "Verif.Process.C67_deep_partial"
   ],
   "note": "Violated: a component processed before one it references misses that one's composed properties (C67_violated_order, version 3; in version 2 with a reference to a reference, see C107_violated_composition2). Proved for both versions: nothing gets a property the document does not give it, for every document and order (C67_sound); every schema at any depth, also inside properties and items and in recursive types, ends up with exactly its properties when every reference in a composition leads to a schema processed earlier (C67_deep_partial); properties and required names for flat documents (C67_complete_partial, C67_requirements_partial)."
  },
  {
   "property": "C68",
   "status": "partial",
   "theorems": [
    "Verif.Types.C68_schema_partial",
    "Verif.Types.C68_document_partial",
    "Verif.Types.C68_operations_partial",
    "Verif.Types.C68_violated_nested_arrays",
    "Verif.Types.C68_violated_reference_below",
    "Verif.Types.C68_violated_composed_payload",
    "Verif.Types.C68_violated_operation",
    "Verif.Types.C68_text_partial"
   ],
   "note": "Closure of the generated declarations proved for schemas of any depth (C68_schema_partial), for documents (C68_document_partial) and for operations (C68_operations_partial). Violated by arrays of arrays of objects, by references to schemas below components (also to those of dependencies), by operations listing a channel message that is itself a reference (the ordinary way to write v3 documents), and by payloads that are references and objects (v2 makes one of a reference to a schema with allOf). Texts other than type declarations are not modelled."
  },
  {
   "property": "C69",
   "status": "partial",
   "theorems": [
    "Verif.Names.C69_names_partial",
    "Verif.Names.C69_violated_names",
    "Verif.Names.C69_siblings_v2_partial",
    "Verif.Names.C69_violated_names_v2",
    "Verif.Names2.C69_v2_same_name_partial",
    "Verif.Names2.C69_v2_types_partial",
    "Verif.Names2.C69_v2_violated_nested",
    "Verif.Names2.C69_v2_violated_roots",
    "Verif.Shared.C69_traits_partial",
    "Verif.Shared.C69_violated_traits",
    "Verif.Types.C69_no_duplicates_partial",
    "Verif.Types.C69_violated_shared_items",
    "Verif.Types.C69_violated_placeholder_headers"
   ],
   "note": "Declared names form a sublist of the names the document gives, so they are distinct when those are; and different places of a v3 document get different names when the Go names of their keys do not contain the word From. Messages that take their headers from one trait declare no type twice exactly when there is one message or no object inside the headers (C69_traits_partial). Violated by such traits otherwise, by properties shared through allOf, by the placeholder headers named Header, by keys containing From, and by concatenated names in v2. v2, for keys of small words: two places of a document, however deep and through properties, items, additional properties and compositions, get the same type name exactly when the words along the two ways are the same (C69_v2_same_name_partial, C69_v2_types_partial); so for every two keys the property c of b meets the property b_c (C69_v2_violated_nested), and a property of a payload meets a schema of the components (C69_v2_violated_roots)."
  },
  {
   "property": "C70",
   "status": "partial",
   "theorems": [
    "Verif.Describe.C70_described_partial",
    "Verif.Describe.C70_violated_addresses",
    "Verif.Shared.C70_violated_traits",
    "Verif.Types.C70_types",
    "Verif.Types.C70_operations_partial",
    "Verif.Types.C70_violated_operation"
   ],
   "note": "Declarations are the same up to order whatever the iteration order of property maps (C70_types). Message types of controllers are the same when the operation lists messages or the channel has one message; violated otherwise. The comment of a schema without a type is the same wherever the schemas are in memory exactly when it holds nothing behind a pointer (C70_described_partial); violated otherwise: memory addresses are written into the file (C70_violated_addresses). Violated by objects in headers that several messages take from one trait: they are named after the message processed last (C70_violated_traits). Composition by references is C67."
  },
  {
   "property": "C71",
   "status": "partial",
   "theorems": [
    "Verif.Types.C71_names_partial",
    "Verif.Types.C71_additional_partial",
    "Verif.Types.C71_violated_untyped",
    "Verif.Types.C71_violated_names"
   ],
   "note": "Proved for fields of known type whose property name only has characters accepted by encoding/json. Violated by untyped properties (the tag becomes a comment), by names with quotes or commas and by a required property named \"-\". encoding/json and struct tag parsing are modelled in Spec/Types.lean."
  },
  {
   "property": "C72",
   "status": "partial",
   "theorems": [
    "Verif.Values.C72_accepts_partial",
    "Verif.Values.C72_round_trip_partial",
    "Verif.Values.C72_reads_only_dates",
    "Verif.Values.C72_untouched_additional_partial",
    "Verif.Values.C72_untouched_partial",
    "Verif.Values.C72_violated_untouched_date",
    "Verif.Values.C72_violated_additional",
    "Verif.Values.C72_violated_integers",
    "Verif.Values.C72_violated_undeclared",
    "Verif.Values.C72_violated_empty_array"
   ],
   "note": "Acceptance and round trip proved by induction on conforming values (recursive types, dates, date-times and version 3's additional properties included). Nothing but dates is read as a date (C72_reads_only_dates); values never set are read back as empty (C72_untouched_partial, C72_untouched_additional_partial). Violated by integers written with a fraction or an exponent or beyond 64 bits, by undeclared members (matched up to letter case, or lost), by empty optional arrays, by required dates never set (sent as 0000-00-00, which every receiver refuses), and by additional properties of another type than the declared ones (the receiver refuses the object). Without custom Go types and version 2's additional properties (C40, C41); encoding/json is modelled in Model/Values.lean."
  },
  {
   "property": "C73",
   "status": "partial",
   "theorems": [
    "Verif.EndToEnd.C73_delivered_partial",
    "Verif.EndToEnd.C73_violated_nats"
   ],
   "note": "Composition of the sender (C06, C19, C21), the generated conversions (C37, C38), the versioning wrapper (C25), the brokers (C33, C115: over NATS the headers are text on their way) and the receiving loop (C11, C13), by induction over the messages sent. Assumes a broker that delivers each accepted message once and in order, contents that survive the conversions (over NATS, headers that fit one line), middlewares that leave the message and the error alone, handlers that do not panic. Violated over NATS by every header value with a line break or blanks around it (C73_violated_nats)."
  },
  {
   "property": "C74",
   "status": "partial",
   "theorems": [
    "Verif.Walk.C74_accepted_iff_partial",
    "Verif.Walk.C74_resolved_partial",
    "Verif.Walk.C74_only",
    "Verif.Walk.C74_resolved_v2",
    "Verif.Walk.C74_files",
    "Verif.Walk.C74_error",
    "Verif.Walk.C74_crash",
    "Verif.Walk.C74_order",
    "Verif.Walk.C74_violated_correlation_id",
    "Verif.Walk.C74_violated_operation_tags",
    "Verif.Walk.C74_violated_correlation_id_components",
    "Verif.Walk.C74_violated_reply_address",
    "Verif.Walk.C74_violated_reply",
    "Verif.Walk.C74_violated_servers"
   ],
   "note": "Full for v2 (over the members its structs have). For v3: exact characterisation of the accepted documents, every reference outside three members is resolved, nothing else is set, independence of map order. Violated: correlation IDs of messages given by reference and tags of operations are never resolved, a correlation ID of the components that is a reference is always an error, reply addresses of the components and replies without channel or by reference crash, servers of channels are errors. Every failure of v3 has a cause of its own kind in the document: an error one that is an error (C74_error), a crash one that crashes (C74_crash)."
  },
  {
   "property": "C75",
   "status": "partial",
   "theorems": [
    "Verif.RequestReply.C75_own_reply_partial",
    "Verif.RequestReply.C75_answered_partial",
    "Verif.RequestReply.C75_violated_queue_group"
   ],
   "note": "Composition of the requesting call (C19, C22), the generated conversions (C37, C38), the versioning wrapper, the brokers (C33, C115), the receiving loop (C11, C13) and the replying call (C20). The broker may lose, repeat and reorder. Assumes different correlation IDs, contents that survive the conversions (over NATS, headers that fit one line), middlewares that leave message and error alone, handlers that reply once and do not panic, and a reply address that does not contain the correlation ID. Violated with a NATS queue group, which also applies to the subscriptions of requests."
  },
  {
   "property": "C76",
   "status": "partial",
   "theorems": [
    "Verif.Connect.C76_given_never_closed",
    "Verif.Connect.C76_owned_closed_once",
    "Verif.Connect.C76_violated_leak_on_failure",
    "Verif.Connect.C76_violated_nats_two_connections",
    "Verif.Connect.C76_nats_partial",
    "Verif.Connect.C76_names"
   ],
   "note": "Full for JetStream controllers that were made. Violated when the making fails (the connection opened stays open) and for NATS controllers given connection options twice. The libraries' connections are modelled by numbers and a log of closes."
  },
  {
   "property": "C77",
   "status": "partial",
   "theorems": [
    "Verif.Connect.C77_fields_partial",
    "Verif.Connect.C77_alone_partial",
    "Verif.Connect.C77_shared",
    "Verif.Connect.C77_violated"
   ],
   "note": "Proved for every setting but TLS and SASL, and for those when no other controller of the program is given any. Violated: they are stored in the dialer shared by the whole program (kafka.DefaultDialer), so that every controller uses the last ones given to any."
  },
  {
   "property": "C78",
   "status": "partial",
   "theorems": [
    "Verif.Dispatch.C78_in_order",
    "Verif.Dispatch.C78_ends",
    "Verif.Dispatch.C78_isolated_partial",
    "Verif.Dispatch.C78_violated"
   ],
   "note": "Order, absence of loss, termination and isolation proved for all schedules, the last one as long as a stalled subscription has no more messages than fit its buffer and its handler. Violated beyond: one handler that does not return stops all subscriptions fed by the same source."
  },
  {
   "property": "C79",
   "status": "partial",
   "theorems": [
    "Verif.Context.C79_publication_partial",
    "Verif.Context.C79_reception",
    "Verif.Context.C79_handler",
    "Verif.Context.C79_reply",
    "Verif.Context.C79_user_values",
    "Verif.Context.C79_received_apart",
    "Verif.Context.C79_version",
    "Verif.Context.C79_violated_stale",
    "Verif.Context.C79_violated",
    "Verif.Context.C79_logged"
   ],
   "note": "Proved for publications of messages with a correlation ID or from a context without one, for receptions, handlers, replies and versions. Violated: a message without correlation ID sent with a handler's context is reported under the correlation ID of the handled message. The logging middleware logs no reply to a request."
  },
  {
   "property": "C80",
   "status": "partial",
   "theorems": [
    "Verif.Context.C80_violated_retained",
    "Verif.Context.C80_partial"
   ],
   "note": "Proved as long as no message is refused. Violated: the context variable of the listener grows with every refused message and holds it for ever."
  },
  {
   "property": "C81",
   "status": "partial",
   "theorems": [
    "Verif.TextLog.C81_partial",
    "Verif.TextLog.C81_context_partial",
    "Verif.TextLog.C81_field_partial",
    "Verif.TextLog.C81_violated"
   ],
   "note": "Proved for values without line breaks and keys without line break, colon, leading space or a nested @Timestamp. Violated: a payload with a line break writes log lines of its own choice."
  },
  {
   "property": "C82",
   "status": "partial",
   "theorems": [
    "Verif.AckRace.C82_partial",
    "Verif.AckRace.C82_violated",
    "Verif.AckRace.C82_violated_copies"
   ],
   "note": "Proved for calls made one at a time on a message handed over from one goroutine to the next. Violated: two overlapping calls, or calls on two copies of the message, both tell the broker, possibly contradictory outcomes."
  },
  {
   "property": "C83",
   "status": "partial",
   "theorems": [
    "Verif.KafkaCrash.C83_partial",
    "Verif.KafkaCrash.C83_resumes",
    "Verif.KafkaCrash.C83_failed_commits",
    "Verif.KafkaCrash.C83_no_loss_partial",
    "Verif.KafkaCrash.C83_not_again_partial",
    "Verif.KafkaCrash.C83_listener_partial",
    "Verif.KafkaCrash.C83_violated_recovery",
    "Verif.KafkaCrash.C83_violated_auto",
    "Verif.KafkaCrash.C83_violated_order",
    "Verif.KafkaCrash.C83_violated_again"
   ],
   "note": "Proved with manual commits and a consumer group for decisions made in order, which generated listeners do when their middlewares report failures; the behaviour of kafka-go and Kafka offsets is assumed as documented. Violated with the recovery middleware, automatic commits (the default), decisions out of order and without group (the default)."
  },
  {
   "property": "C84",
   "status": "partial",
   "theorems": [
    "Verif.Send.C84_all_acknowledged_partial",
    "Verif.Send.C84_violated_never",
    "Verif.Send.C84_violated_stale",
    "Verif.Send.C84_violated_lost"
   ],
   "note": "Proved for requests with correlation ID whose middlewares do not panic: all messages taken are acknowledged, in order. Refuted otherwise: without correlation ID nothing is acknowledged (so a broker delivering at least once gives the old reply to the next request), and a matching reply refused by a middleware is acknowledged and lost."
  },
  {
   "property": "C85",
   "status": "partial",
   "theorems": [
    "Verif.Send.C85_awaits_partial",
    "Verif.Send.C85_violated_no_id"
   ],
   "note": "Proved when the caller's message has a correlation ID. Refuted for v2 requests whose message has none: the publication sets a fresh ID in its own copy and the request awaits the empty one, ignoring all replies."
  },
  {
   "property": "C86",
   "status": "partial",
   "theorems": [
    "Verif.Unsub.C86_only_the_queue_partial",
    "Verif.Unsub.C86_violated",
    "Verif.Unsub.C86_violated_goes_on",
    "Verif.Unsub.C86_violated_overlap"
   ],
   "note": "Proved: after a return through the closed cancel channel nothing more is accepted from the broker, and the handler is only called for messages that were queued, in order, at most as many as the queue has places, and never once the listener stopped. Refuted: a full queue is handled after the complete teardown; with the capacity used by the brokers Cancel may return while the subscription goes on without end (C02); handlers of the old and a new subscription overlap and reorder."
  },
  {
   "property": "C87",
   "status": "partial",
   "theorems": [
    "Verif.OpTypes.C87_fits_partial",
    "Verif.OpTypes.C87_only_these_partial",
    "Verif.OpTypes.C87_declared_types_partial",
    "Verif.OpTypes.C87_violated_two_replies",
    "Verif.OpTypes.C87_violated_uncorrelated",
    "Verif.OpTypes.C87_violated_arguments",
    "Verif.OpTypes.C87_violated_reply_messages",
    "Verif.OpTypes.C87_violated_parameter"
   ],
   "note": "Proved exactly for which operations the functions of both sides fit for all orders of iteration (an equivalence). The others refute the property: reply channels with two messages, requests with and replies without correlation ID, requests on channels without address, reply channels with parameters; the messages declared for the reply are ignored. References are taken as resolved."
  },
  {
   "property": "C88",
   "status": "partial",
   "theorems": [
    "Verif.Release.C88_publish_partial",
    "Verif.Release.C88_history_partial",
    "Verif.Release.C88_malformed_partial",
    "Verif.Release.C88_violated_branch",
    "Verif.Release.C88_violated_again",
    "Verif.Release.C88_violated_titles",
    "Verif.Release.C88_violated_overflow"
   ],
   "note": "Proved: on the main branch every announced change is published as the due version, histories have increasing versions, and malformed tags publish nothing. The code violates the rest: other branches push git tags, publishing a commit again releases again, titles that merely begin like a keyword count, and numbers overflow."
  },
  {
   "property": "C89",
   "status": "partial",
   "theorems": [
    "Verif.MsgText.C89_tells_apart",
    "Verif.MsgText.C89_json_partial",
    "Verif.MsgText.C89_violated_order",
    "Verif.MsgText.C89_violated_header",
    "Verif.MsgText.C89_violated_payload",
    "Verif.MsgText.C89_violated_forged"
   ],
   "note": "Proved for all texts: equal texts come from equal headers and payloads (in iteration order). Proved for JSON payloads and headers without control characters: the text is JSON with exactly these members. The code violates the rest: iteration order changes the text, control characters and other payloads give invalid JSON, and a payload can pass for headers."
  },
  {
   "property": "C90",
   "status": "partial",
   "theorems": [
    "Verif.JetRace.C90_careful_partial",
    "Verif.JetRace.C90_dropped_partial",
    "Verif.JetRace.C90_progress_partial",
    "Verif.JetRace.C90_ends_partial",
    "Verif.JetRace.C90_violated_crash",
    "Verif.JetRace.C90_violated_stuck",
    "Verif.JetRace.C90_violated_for_ever",
    "Verif.JetRace.C90_violated_leak",
    "Verif.JetRace.C90_violated_again",
    "Verif.JetRace.C90_violated_twice",
    "Verif.JetRace.C90_violated_shared"
   ],
   "note": "Proved by an invariant over all schedules in which a channel has one subscription at a time and cancellations happen while the reader waits and the consumer has no message: no crash, nothing stuck, conservation and order of messages, progress. The code violates the rest: four schedules crash the process, block the consumer for ever, or leak a goroutine. Two subscriptions to one channel share its Go channel in every state (C90_violated_shared)."
  },
  {
   "property": "C91",
   "status": "partial",
   "theorems": [
    "Verif.Methods.V2.C91_v2_partial",
    "Verif.Methods.V2.C91_v2_complete",
    "Verif.Methods.V2.C91_violated_v2_all",
    "Verif.Methods.V2.C91_violated_v2_id",
    "Verif.Methods.V3.C91_v3_partial",
    "Verif.Methods.V3.C91_v3_complete_partial",
    "Verif.Methods.V3.C91_violated_v3_reply_name",
    "Verif.Methods.V3.C91_violated_v3_shared",
    "Verif.Methods.V3.C91_violated_v3_keys"
   ],
   "note": "v2: an equivalence for every document, the methods are different exactly when the operation names are and none is All. v3: proved for operations with different Go names, none named like the reply to another one, and different reply channels. Refuted without these conditions: channel `all`, an operationId equal to another channel's name, `replyToPing` next to `ping` with a reply, two replies on one channel, keys with the same Go name. Also proved: every channel and operation gets its functions, named after its operationId, path or key, and all names are Go identifiers."
  },
  {
   "property": "C92",
   "status": "partial",
   "theorems": [
    "Verif.Literals.C92_literal_partial",
    "Verif.Literals.C92_lines_partial",
    "Verif.Literals.C92_path_partial",
    "Verif.Literals.C92_violated_code",
    "Verif.Literals.C92_violated_value",
    "Verif.Literals.C92_comment_partial",
    "Verif.Literals.C92_violated_comment"
   ],
   "note": "Proved as equivalences for every text and every place: the literal is the text exactly when it has no quotation mark, backslash or line break; the path constant is the address of the functions exactly then; comments end with their line exactly without line breaks. The code violates the rest: a version can contain any Go code, names of headers with backslashes denote other names. NUL and byte order marks, which Go refuses in source text, are not modelled."
  },
  {
   "property": "C93",
   "status": "partial",
   "theorems": [
    "Verif.Strcase.C93_alnum",
    "Verif.Strcase.C93_exported_partial",
    "Verif.Strcase.C93_violated_names",
    "Verif.Strcase.C93_stable_partial",
    "Verif.Strcase.C93_violated_twice",
    "Verif.Strcase.C93_words_partial",
    "Verif.Strcase.C93_message_partial"
   ],
   "note": "The default scheme is C42. For the scheme camel: names have letters and digits only, exactly when they are exported, exactly when naming them again keeps them, and v2 messages with keys of words of two or more letters are declared as they are used. Violated: names starting with digits or other characters, one-letter words. strcase is modelled from its published code, with ASCII spaces."
  },
  {
   "property": "C94",
   "status": "partial",
   "theorems": [
    "Verif.Strcase.C94_idempotent",
    "Verif.Strcase.C94_form",
    "Verif.Strcase.C94_written_partial",
    "Verif.Strcase.C94_none",
    "Verif.Strcase.C94_words_partial",
    "Verif.Strcase.C94_violated_lost",
    "Verif.Strcase.C94_unknown"
   ],
   "note": "Proved for every key: snake and kebab conversions are stable and have no capitals and one separator; keys of words are converted to the same key exactly when they have the same words; all properties are written exactly when converted keys differ. Violated: userID and user_id get different Go names but are both dropped by encoding/json under each conversion. strcase is modelled from its published code, with ASCII spaces."
  },
  {
   "property": "C95",
   "status": "partial",
   "theorems": [
    "Verif.CmdLine.C95_values",
    "Verif.CmdLine.C95_refused",
    "Verif.CmdLine.C95_violated_word",
    "Verif.CmdLine.C95_violated_empty",
    "Verif.CmdLine.C95_quoted",
    "Verif.CmdLine.C95_commas"
   ],
   "note": "C95_values, C95_refused and C95_commas are about every command line written in the listed syntaxes (clusters of letters included; values of `input` without quotation marks). Violated: words that are no options are ignored (C95_violated_word), and an empty `-i` leaves no document (C95_violated_empty)."
  },
  {
   "property": "C96",
   "status": "partial",
   "theorems": [
    "Verif.Command.C96_success",
    "Verif.Command.C96_status",
    "Verif.Command.C96_untouched",
    "Verif.Command.C96_panic",
    "Verif.Command.C96_violated_panic",
    "Verif.Command.C96_again"
   ],
   "note": "C96_success (equivalence), C96_untouched and C96_again hold for every command line, every file system and every outcome of the steps. Violated: an empty `-i` panics (C96_violated_panic), which is the only such case (C96_panic). Panics inside of the processing and the templates are not modelled."
  },
  {
   "property": "C97",
   "status": "partial",
   "theorems": [
    "Verif.Idents.C97_idents_partial",
    "Verif.Idents.C97_violated_new",
    "Verif.Idents.C97_violated_path",
    "Verif.Idents.C97_violated_v2",
    "Verif.Idents.V2.C97_v2_partial",
    "Verif.Idents.V2.C97_violated_v2_path",
    "Verif.Idents.V2.C97_violated_v2_operations",
    "Verif.Names2.C97_v2_violated_nested"
   ],
   "note": "v3: for keys in scope of C69 that give different Go names, the names are identifiers and are pairwise different exactly when no two messages of one scope have the Go names X and NewX (both directions proved). v2: for every document with ASCII keys, the names of the file (without types nested in schemas) are identifiers, and they are pairwise different exactly when the Go names of the channels, of the messages (in operations and components) and of the schemas differ and no two messages are called X and NewX. Refuted for such messages, for two v3 channels referring to one channel (path constant twice), and for v2 (two channels with one Go name; a component message next to an inline channel message; a channel with both operations next to one named like them). Missing: compositions, nested types with v2 (their names among each other are characterised under C69), keys with From (v3) or not ASCII. A nested type of v2 also meets the path constant of a channel, for every message (C97_v2_violated_nested)."
  },
  {
   "property": "C98",
   "status": "partial",
   "theorems": [
    "Verif.Feed.C98_order_partial",
    "Verif.Feed.C98_quiet_partial",
    "Verif.Feed.C98_stopped_partial",
    "Verif.Feed.C98_violated",
    "Verif.Feed.C98_violated_full"
   ],
   "note": "Proved for every schedule, queue size and list of messages: order, no duplicate, no gap, what is in the queue can be received after the cancellation (C98_order_partial); no panic without a cancellation, nor when no message is on its way at the moment the channel is closed (C98_quiet_partial); without NATS nothing is taken from the source after the cleanup (C98_stopped_partial). Violated: C98_violated gives the exact condition of the crash after the channel is closed (a message is being sent or, with NATS, still to be handed over by Drain); C98_violated_full needs no race: with a full queue and a waiting sender a cancellation crashes the process, for every queue size. JetStream is C90."
  },
  {
   "property": "C99",
   "status": "partial",
   "theorems": [
    "Verif.Process.C99_ends_partial",
    "Verif.Process.C99_plain_partial",
    "Verif.Process.C99_violated_circle",
    "Verif.Process.C99_violated_tree",
    "Verif.Process.C99_violated_order",
    "Verif.Process.C99_violated_node"
   ],
   "note": "Proved on a heap of schemas, for both versions and every order: documents in which no schema is below itself (compositions and references in compositions followed) are processed with calls nested at most as deep as the schemas (C99_ends_partial); documents without compositions are processed whatever their references (C99_plain_partial). Violated in version 2: a reference copies the alternatives of its target and visits them, so every circle through a composition, such as a recursive type written with allOf, never ends (C99_violated_circle, C99_violated_tree; a stack overflow in Go); whether that happens can depend on the random order of the components (C99_violated_order). Violated in both versions: a composition makes a schema one of its own properties, and the next visit of it never ends (C99_violated_node)."
  },
  {
   "property": "C100",
   "status": "partial",
   "theorems": [
    "Verif.Inherit.C100_direct_partial",
    "Verif.Inherit.C100_chain_partial",
    "Verif.Inherit.C100_violated_order"
   ],
   "note": "Proved for every order and any number of visits: a reference to a schema that is no reference has its constraints (C100_direct_partial); through chains of any length when every schema is processed after the one it refers to (C100_chain_partial). Violated: through two references the constraint and the tag of the field are there or not depending on the order of a Go map (C100_violated_order). Compositions are C67."
  },
  {
   "property": "C101",
   "status": "partial",
   "theorems": [
    "Verif.Values.C101_promoted_partial",
    "Verif.Values.C101_accepts_partial",
    "Verif.Values.C101_alone_partial",
    "Verif.Values.C101_round_trip_partial",
    "Verif.Values.C101_violated_scalars",
    "Verif.Values.C101_violated_required",
    "Verif.Values.C101_violated_both",
    "Verif.Values.C101_violated_types",
    "Verif.Values.C101_violated_empty",
    "Verif.Values.C101_violated_additional"
   ],
   "note": "Proved for alternatives that are objects and agree on shared properties: a value of one alternative with only declared members is accepted (C101_accepts_partial), and given back unchanged when no alternative requires a property it lacks (C101_round_trip_partial); a schema without alternatives takes every value that conforms to it (C101_alone_partial). Violated: the type of any schema with alternatives is a struct and refuses every string, number, boolean and array (C101_violated_scalars); properties required by one alternative are added, empty, to the values of the others (C101_violated_required, C101_violated_both); an empty property that only another alternative requires is lost (C101_violated_empty); a property with different types has that of the first alternative (C101_violated_types); additional properties that an alternative declares are lost (C101_violated_additional)."
  },
  {
   "property": "C102",
   "status": "partial",
   "theorems": [
    "Verif.ChannelAddr.C102_address_determines_parameters_partial",
    "Verif.ChannelAddr.C102_isolated_partial",
    "Verif.ChannelAddr.C102_violated_separator",
    "Verif.ChannelAddr.C102_violated_wildcard"
   ],
   "note": "Proved for every address that C44 covers, any number of parameters and any two choices of values, through the generated expression: if every parameter but a final one is followed by a character that its values do not contain, the two addresses are equal exactly when the values are (C102_address_determines_parameters_partial); if moreover the subscriber's address has no token * or >, the NATS rules and the JetStream controller's own matching accept the message exactly when the values are the same (C102_isolated_partial). Violated otherwise: values with the separator reach other subscriptions (C102_violated_separator), the value * subscribes to the messages of everybody (C102_violated_wildcard)."
  },
  {
   "property": "C103",
   "status": "partial",
   "theorems": [
    "Verif.Convert.C103_compiles_exactly_partial",
    "Verif.Convert.C103_violated_forced_pointer",
    "Verif.Convert.C103_violated_no_header",
    "Verif.Convert.C103_violated_two_objects",
    "Verif.Convert.C103_violated_header",
    "Verif.Convert.C103_violated_payload",
    "Verif.Convert.C103_violated_reference"
   ],
   "note": "Proved for every payload and every list of headers, against a model of the statements the template writes and of Go's rules on types, conversions, assignments, redeclarations and unused variables: the compiler accepts both functions exactly when the payload is an object, an array, an integer, a string that is no date (and no date-time behind a reference) or an untyped schema that stands for text, the headers (if any) are at least one, each an object, a string, a date-time (unless required and forced to be a pointer) or a reference to text that is not required by the list alone, and at most one header is a required object (C103_compiles_exactly_partial). Violated for all others, with witnesses. Missing: custom Go types; that field names are distinct Go names (C66, C97)."
  },
  {
   "property": "C104",
   "status": "partial",
   "theorems": [
    "Verif.Defined.C104_same_json_partial",
    "Verif.Defined.C104_refused",
    "Verif.Defined.C104_references_agree_partial",
    "Verif.Defined.C104_violated_additional_lost",
    "Verif.Defined.C104_violated_additional_unwritten",
    "Verif.Defined.C104_violated_time",
    "Verif.Defined.C104_plain",
    "Verif.Defined.C104_violated_witness"
   ],
   "note": "Proved for chains of references of any length, all texts and all values: a schema that refers to one for which no methods are generated reads and writes the same JSON (C104_same_json_partial), and all references to one schema agree with each other (C104_references_agree_partial). Violated for schemas with additional properties: the reference reads every declared property and no additional one, and writes the value as if it had none (C104_violated_additional_lost, C104_violated_additional_unwritten, both for all values); violated for date-times: every time is written as {} and every text in quotes is refused (C104_violated_time)."
  },
  {
   "property": "C105",
   "status": "partial",
   "theorems": [
    "Verif.Required.C105_composed_partial",
    "Verif.Required.C105_object_partial",
    "Verif.Required.C105_violated_composed",
    "Verif.Required.C105_violated_reference",
    "Verif.Required.C105_reference_partial"
   ],
   "note": "Proved for documents in which no reference leads to a required property of another schema (C105_object_partial: exact for plain objects; C105_composed_partial: omitted exactly when the part that has the property does not require it). Refuted for every composed object that requires a property of a part (C105_violated_composed) and for references to required properties (C105_violated_reference). x-omitempty and --force-pointers are the subject of C51, not modelled here."
  },
  {
   "property": "C106",
   "status": "partial",
   "theorems": [
    "Verif.Values.C106_valid_partial",
    "Verif.Values.C106_exact_partial",
    "Verif.Values.C106_forced_partial",
    "Verif.Values.C106_violated_alternatives",
    "Verif.Values.C106_violated_tree",
    "Verif.Values.C106_violated_tree2"
   ],
   "note": "Proved for declared types without composition: a schema with a conforming value has a valid type (C106_valid_partial); among finitely many declarations all types are valid exactly when all schemas have a conforming value (C106_exact_partial, both directions); with forced pointers all object types are valid (C106_forced_partial). Additional properties are maps, which hold nothing in place. Refuted for alternatives one of which requires the composition itself (C106_violated_alternatives, on processed documents C106_violated_tree for version 3 and C106_violated_tree2 for version 2). Without custom Go types."
  },
  {
   "property": "C107",
   "status": "partial",
   "theorems": [
    "Verif.Again.C107_again_partial",
    "Verif.Again.C107_violated_composition",
    "Verif.Again.C107_violated_composition2",
    "Verif.Again.C107_violated_chain",
    "Verif.Message.C107_operations",
    "Verif.Message.C107_traits_partial",
    "Verif.Message.C107_headers_partial",
    "Verif.Message.C107_violated_examples",
    "Verif.Message.C107_violated_payload",
    "Verif.Message.C107_violated_correlation",
    "Verif.Message.C107_correlation"
   ],
   "note": "Proved for documents without compositions in which references lead to schemas that are no references: any number of further calls, in any orders, leaves the heap as it is (C107_again_partial). Refuted for compositions (C107_violated_composition for version 3, C107_violated_composition2 for version 2) and for references to references (C107_violated_chain). Traits applied again: nothing changes for operations (C107_operations), for messages whose traits have neither headers nor payload nor examples (C107_traits_partial), for the properties of headers of their own (C107_headers_partial) and for correlation IDs of their own (C107_correlation); refuted for examples, payloads and correlation IDs that come from traits (C107_violated_examples, _payload, _correlation). Names set by generateMetadata are not part of these models."
  },
  {
   "property": "C108",
   "status": "partial",
   "theorems": [
    "Verif.ReplyLoc.C108_listed_partial",
    "Verif.ReplyLoc.C108_address_read_partial",
    "Verif.ReplyLoc.C108_violated_listed",
    "Verif.ReplyLoc.C108_violated_created",
    "Verif.ReplyLoc.C108_violated_forced",
    "Verif.ReplyLoc.C108_violated_type",
    "Verif.ReplyLoc.C108_violated_panic",
    "Verif.ReplyLoc.C108_violated_header"
   ],
   "note": "Proved for operations that list no messages of their own (those of the channel are used, followed through one reference), for every part, every path of required or optional objects and every request whose objects on the path are present: it compiles and reads exactly the text, or says there is none (C108_address_read_partial). Proved too for operations that list their messages, when the location exists and is optional (C108_listed_partial). Violated for every operation that lists its messages when the location is required (C108_violated_listed) or must be created (C108_violated_created): it does not compile; with forced pointers (C108_violated_forced); a request without an optional object on the path panics (C108_violated_panic); a property named header (C108_violated_header); a location that is not a string written in place (C108_violated_type). Compositions are not followed by the walk and are not modelled."
  },
  {
   "property": "C109",
   "status": "partial",
   "theorems": [
    "Verif.Races.C109_versioning",
    "Verif.Races.C109_generated_partial",
    "Verif.Races.C109_nats",
    "Verif.Races.C109_kafka_partial",
    "Verif.Races.C109_jetstream_partial",
    "Verif.Races.C109_violated_generated",
    "Verif.Races.C109_generated_exactly",
    "Verif.Races.C109_violated_jetstream_subscribe",
    "Verif.Races.C109_violated_jetstream_cancel",
    "Verif.Races.C109_violated_kafka",
    "Verif.Races.C109_violated_kafka_any",
    "Verif.Races.C109_violated_headers"
   ],
   "note": "Proved for the versioning wrapper (no two goroutines publish the same message) and NATS. Generated controllers: proved when one goroutine does all subscribing and unsubscribing, and violated whenever two do. JetStream: proved for one subscription that is never cancelled, violated by two subscriptions of one goroutine and by a cancellation. Kafka: proved without TLS and SASL; both options write the dialer shared by all controllers. Channels and client libraries are taken to synchronise themselves. Exact for the generated controllers when the program starts all goroutines: C109_generated_exactly."
  },
  {
   "property": "C110",
   "status": "partial",
   "theorems": [
    "Verif.Decode.C110_v3_partial",
    "Verif.Decode.C110_v2_partial",
    "Verif.Decode.C110_v3_standard",
    "Verif.Decode.C110_v2_standard",
    "Verif.Decode.C110_v3_loaded_partial",
    "Verif.Decode.C110_violated_boolean",
    "Verif.Decode.C110_violated_schema",
    "Verif.Decode.C110_violated_security",
    "Verif.Decode.C110_violated_example",
    "Verif.Decode.C110_violated_ignored",
    "Verif.Decode.C110_integers",
    "Verif.Decode.C110_violated_case"
   ],
   "note": "All structures of both versions with their tags are modelled, and encoding/json on them. Documents of narrower shapes (no boolean schemas, one type, one schema of items, integers without fraction, no multipleOf, additionalItems, propertyNames, contains, no security of servers, objects as examples) are accepted and every value is at its place, except below skipped keywords (C110_v3_partial, C110_v2_partial, C110_v3_loaded_partial); they are AsyncAPI documents (C110_*_standard). Violated, for every document with such a part: the other forms are refused (C110_violated_boolean, _schema, _security, _example); keywords without field are skipped (C110_violated_ignored); keywords in other letters are taken (C110_violated_case). Numbers beyond float64 and repeated names are not modelled."
  },
  {
   "property": "C111",
   "status": "partial",
   "theorems": [
    "Verif.Panics.C111_v3_partial",
    "Verif.Panics.C111_violated_reply",
    "Verif.Panics.C111_violated_reply_reference",
    "Verif.Panics.C111_violated_operation_trait",
    "Verif.Panics.C111_violated_tag",
    "Verif.Panics.C111_violated_component_address",
    "Verif.Panics.C111_violated_address",
    "Verif.Panics.C111_violated_message_trait",
    "Verif.Panics.C111_violated_correlation",
    "Verif.Panics.C111_violated_alternative",
    "Verif.Panics.C111_violated_null",
    "Verif.Panics.C111_violated_operation",
    "Verif.Panics2.C111_v2_partial",
    "Verif.Panics2.C111_violated_v2_channel",
    "Verif.Panics2.C111_violated_v2_parameter",
    "Verif.Panics2.C111_violated_v2_component",
    "Verif.Panics2.C111_violated_v2_schema",
    "Verif.Panics2.C111_violated_v2_message",
    "Verif.Panics2.C111_violated_v2_operation",
    "Verif.Panics2.C111_violated_v2_circular"
   ],
   "note": "Version 3, Process with nil pointers on a heap, CustomImports and NewActionOperations (panics inside of templates become errors). Proved for documents without the listed forms (Tame), for all orders of maps and depths: C111_v3_partial. With further files, references have to be fine in each of the files. Violated, with documents: a reply without channel or by reference (C111_violated_reply, _reply_reference), null traits, alternatives, tags, properties, component schemas and messages, operations (C111_violated_operation_trait, _message_trait, _tag, _alternative, _null, _operation), locations without a path or without a message to look into (C111_violated_correlation, _address, _component_address). Version 2 in the same way: C111_v2_partial, violated by null channels, parameters, schemas, messages, properties and alternatives, an operation whose message is a reference with fewer than four parts, and locations without a path (C111_violated_v2_channel, _parameter, _component, _schema, _message, _operation), and by circular message references, which end the process whatever its stack (C111_violated_v2_circular). Malformed references are C47. How deep calls may nest is a parameter: that recursions end is C63 and C99 where proved, not here."
  },
  {
   "property": "C112",
   "status": "partial",
   "theorems": [
    "Verif.Validator.C112_exact_partial",
    "Verif.Validator.C112_required_array",
    "Verif.Validator.C112_violated_large_bound",
    "Verif.Validator.C112_violated_large_length",
    "Verif.Validator.C112_violated_fraction",
    "Verif.Validator.C112_violated_items",
    "Verif.Validator.C112_violated_zero",
    "Verif.Validator.C112_violated_comma",
    "Verif.Validator.C112_violated_unique_objects",
    "Verif.Validator.C112_violated_unique_arrays",
    "Verif.Validator.C112_violated_kind",
    "Verif.Validator.C112_violated_integer_texts",
    "Verif.Validator.C112_violated_escape",
    "Verif.Validator.C112_more_partial",
    "Verif.Validator.C112_more_accepts_partial",
    "Verif.Validator.C112_violated_additional",
    "Verif.Validator.C112_time_partial",
    "Verif.Validator.C112_violated_time",
    "Verif.Validator.C112_violated_date",
    "Verif.Validator.C112_time_absent"
   ],
   "note": "Tag text with %g made concrete, validator v10.20.0 modelled after its published source for what generated structures use. Proved: C112_exact_partial (accepted exactly when conforming, no panic, nested to any depth), C112_required_array. Violated, with witnesses: bounds and lengths of a million or more (C112_violated_large_bound, _large_length, for every value), fractional bounds on integers (_fraction), constraints of items (_items), zero bounds (_zero), texts with commas (_comma), uniqueness of objects and arrays (_unique_objects, _unique_arrays), constraints of another type (_kind), texts with 0x2C (_escape), texts enumerated for an integer (_integer_texts). Dates are exact: a date-time is compared with the time of the validation, whatever the number declared (C112_time_partial, C112_violated_time), a date with any constraint makes the validator panic (C112_violated_date), absent ones are accepted (C112_time_absent). The values of additional properties of the validated object are never looked at: exact when nothing is declared for them (C112_more_partial), conforming values are accepted (C112_more_accepts_partial), and so is every value that breaks its constraints (C112_violated_additional). Missing: compositions, additional properties of objects inside."
  },
  {
   "property": "C113",
   "status": "partial",
   "theorems": [
    "Verif.Times.C113_text_iff_partial",
    "Verif.Times.C113_json_iff_partial",
    "Verif.Times.C113_text_whole_seconds",
    "Verif.Times.C113_reads_rfc3339_partial",
    "Verif.Times.C113_refuses_more",
    "Verif.Times.C113_reads_only_times",
    "Verif.Times.C113_writes_rfc3339",
    "Verif.Times.C113_violated_leap_second",
    "Verif.Times.C113_violated_small_letters",
    "Verif.Times.C113_violated_fraction",
    "Verif.Times.C113_violated_zone",
    "Verif.Times.C113_violated_year",
    "Verif.Times.C113_assumption_of_C37",
    "Verif.Times.C113_payload_iff"
   ],
   "note": "Exact conditions for text (headers, payloads) and JSON: fractions of a second are cut in headers and payloads, zones with seconds shift the time, years of five digits are refused by the receiver; leap seconds and small letters are refused although RFC 3339 allows them. Everything written in JSON is an RFC 3339 text (C113_writes_rfc3339). The package time is modelled from its published source. Also proves the assumption of C37/C38 about times."
  },
  {
   "property": "C114",
   "status": "partial",
   "theorems": [
    "Verif.Certs.C114_repairs_missing_files",
    "Verif.Certs.C114_keeps_existing",
    "Verif.Certs.C114_usable_partial",
    "Verif.Certs.C114_violated_last_file",
    "Verif.Certs.C114_violated_mixed"
   ],
   "note": "C114_usable_partial: after a complete run all files are complete and from one generation, for every history of complete runs, deletions and runs stopped before the last file in a directory where that file is missing. C114_repairs_missing_files, C114_keeps_existing: the two branches for every disk. The full claim is false: C114_violated_last_file (stopped while writing the last file) and C114_violated_mixed (key deleted, replaced, stopped before the certificate)."
  },
  {
   "property": "C115",
   "status": "partial",
   "theorems": [
    "Verif.Transport.C115_what_arrives",
    "Verif.Transport.C115_unchanged_iff_partial",
    "Verif.Transport.C115_violated_names",
    "Verif.Transport.C115_violated_values"
   ],
   "note": "Exact: what arrives is described for every message (C115_what_arrives) and nothing is changed exactly when all names are tokens and all values are of one line without blanks around them (C115_unchanged_iff_partial). Violated by other names, whose headers are left out (C115_violated_names), and by other values (C115_violated_values). The NATS client v1.31.0 (go.mod) with net/http and net/textproto is modelled from its published source; the server passes the block of headers on."
  },
  {
   "property": "C116",
   "status": "partial",
   "theorems": [
    "Verif.Lifetimes.C116_nats",
    "Verif.Lifetimes.C116_kafka_partial",
    "Verif.Lifetimes.C116_violated",
    "Verif.Lifetimes.C116_violated_left"
   ],
   "note": "C116_nats: with NATS and JetStream the ends of contexts change nothing. C116_kafka_partial: with Kafka, subscriptions receive what they should as long as the context of the subscription that was the first on their channel lasts. Violated otherwise: the wrapper opens the subscription of the broker with the context of the first version, and Kafka stops reading when it ends, for all versions and for good (C116_violated), even when the first version has been cancelled long before (C116_violated_left). Calls are run one after the other, versions met are registered (C27)."
  },
  {
   "property": "C117",
   "status": "partial",
   "theorems": [
    "Verif.LogSlices.C117_logged_partial",
    "Verif.LogSlices.C117_kept_partial",
    "Verif.LogSlices.C117_ecs_partial",
    "Verif.LogSlices.C117_text_partial",
    "Verif.LogSlices.C117_violated_overwritten",
    "Verif.LogSlices.C117_violated_mixed"
   ],
   "note": "Go slices over a store of arrays, calls interleaved append by append. C117_logged_partial: every call logs the right fields when no two calls share an array with room behind a slice, which holds of all calls with their fields written out; C117_kept_partial: what is read through a slice stays as long as no shorter slice of the same array is logged. Violated otherwise: a logger writes behind the slice it is given, so longer slices of the caller change (C117_violated_overwritten) and concurrent calls with the same fields log the level and message of each other (C117_violated_mixed)."
  },
  {
   "property": "C118",
   "status": "partial",
   "theorems": [
    "Verif.JetCrash.C118_gone_exactly",
    "Verif.JetCrash.C118_no_loss_partial",
    "Verif.JetCrash.C118_given_again",
    "Verif.JetCrash.C118_not_again",
    "Verif.JetCrash.C118_listener_partial",
    "Verif.JetCrash.C118_violated_startup"
   ],
   "note": "Proved for all histories: the server has given a message up exactly when a consumer acknowledged it or it was delivered while no subscription of the process matched its subject (C118_gone_exactly); so nothing is lost if all subscriptions are there when messages arrive (C118_no_loss_partial); other messages are given to the next process (C118_given_again); none is given again after the server gave it up (C118_not_again); with generated listeners a message is given up only when its handler succeeded or there was no subscription (C118_listener_partial). Violated for every program with two channels: between the first and the second subscription of a starting process the controller itself acknowledges the messages of the second channel, and they are lost for ever (C118_violated_startup). The server is assumed to do what NATS documents for durable consumers with explicit acknowledgements."
  },
  {
   "property": "C119",
   "status": "proved",
   "theorems": [
    "Verif.CiDirs.C119_found_exactly",
    "Verif.CiDirs.C119_once",
    "Verif.CiDirs.C119_examples"
   ],
   "note": "For every tree and every number of levels (C119_found_exactly, with the exact condition of an error), without repetition when names are different and contain no slash (C119_once), and for the examples (C119_examples). Listing a directory that could be opened is taken to succeed."
  },
  {
   "property": "C120",
   "status": "partial",
   "theorems": [
    "Verif.Reflect.C120_yes",
    "Verif.Reflect.C120_exact_partial",
    "Verif.Reflect.C120_ends",
    "Verif.Reflect.C120_violated_first",
    "Verif.Reflect.C120_violated_cycle",
    "Verif.Reflect.C120_violated_hidden"
   ],
   "note": "Proved: the answer yes is right for every value (C120_yes); the search ends on values without cycles (C120_ends); the answer is exact, without a panic, when the fields of that name have one value and are not hidden (C120_exact_partial). Violated: the first field of that name decides alone (C120_violated_first), no answer on values that point to themselves (C120_violated_cycle), a panic for fields that are unexported or inside unexported ones (C120_violated_hidden). The function is exported by pkg/utils but not called by the generator. The type asked for is no struct and no pointer in the model."
  },
  {
   "property": "C121",
   "status": "partial",
   "theorems": [
    "Verif.Waiting.C121_no_deadlock",
    "Verif.Waiting.C121_returns_partial",
    "Verif.Waiting.C121_violated_forever",
    "Verif.Waiting.C121_violated",
    "Verif.Waiting.C121_publish_partial"
   ],
   "note": "Violated: the loop that waits for a Kafka topic never looks at its context, and the versioning wrapper holds its lock meanwhile, so that no other subscription returns either (C121_violated_forever, C121_violated). Proved: no deadlock in any schedule (C121_no_deadlock), every call returns when the broker lists topics (C121_returns_partial), and a publication returns at the first write after the end of its context (C121_publish_partial)."
  },
  {
   "property": "C122",
   "status": "partial",
   "theorems": [
    "Verif.CorrFns.C122_functions_partial",
    "Verif.CorrFns.C122_reference_partial",
    "Verif.CorrFns.C122_violated_reference",
    "Verif.CorrFns.C122_violated_created",
    "Verif.CorrFns.C122_violated_type",
    "Verif.CorrFns.C122_violated_gap",
    "Verif.CorrFns.C122_violated_forced",
    "Verif.CorrFns.C122_violated_panic"
   ],
   "note": "Proved for every location that leads through required objects written in place, to a string or to nothing (C122_functions_partial), and for headers or payloads given by reference whose schema has the correlation ID and does not require it (C122_reference_partial): the functions compile, work and change nothing else. Refuted, for all such messages: references to schemas that require the ID (C122_violated_reference) or do not have it (C122_violated_created), IDs that are not strings (C122_violated_type), missing objects on the way (C122_violated_gap), forced pointers with a required ID (C122_violated_forced), optional objects on the way, where New panics (C122_violated_panic). Not modelled: formats, x-go-type and compositions on the way; correlation IDs of references and traits (C52, C61, C74)."
  },
  {
   "property": "C123",
   "status": "partial",
   "theorems": [
    "Verif.BrokerOpts.C123_kafka_partial",
    "Verif.BrokerOpts.C123_kafka_subscribe_partial",
    "Verif.BrokerOpts.C123_violated_partition",
    "Verif.BrokerOpts.C123_violated_hosts",
    "Verif.BrokerOpts.C123_jetstream",
    "Verif.BrokerOpts.C123_jetstream_requests"
   ],
   "note": "The settings of the last options, the requests and their errors are exact for all options, orders and servers (C123_kafka_partial, C123_kafka_subscribe_partial, C123_jetstream, C123_jetstream_requests); JetStream never crashes. Violated with Kafka, with the exact conditions: making a controller crashes without hosts (C123_violated_hosts), and subscribing crashes with both a group and a partition (C123_violated_partition), with a negative partition or size, a partition of 2^31-1 or more, or an empty topic. The validation of the reader is that of kafka-go v0.4.42, which is not in /repo."
  },
  {
   "property": "C124",
   "status": "partial",
   "theorems": [
    "Verif.FileImports.C124_uses",
    "Verif.FileImports.C124_imported_partial",
    "Verif.FileImports.C124_violated_unused",
    "Verif.FileImports.C124_names_partial",
    "Verif.FileImports.C124_violated_uuid",
    "Verif.FileImports.C124_violated_alias",
    "Verif.FileImports.V2.C124_v2_uses",
    "Verif.FileImports.V2.C124_v2_imported_partial",
    "Verif.FileImports.V2.C124_v2_violated_unused"
   ],
   "note": "C124_uses characterises exactly which packages a file uses, and C124_imported_partial shows each of them imported; C124_names_partial is the exact condition for distinct names. The property is violated: `errors` is imported and never used, for every document and every choice of parts (C124_violated_unused); a custom import of `github.com/google/uuid`, the example of the documentation, declares `uuid` twice (C124_violated_uuid); two paths with one name are not reported (C124_violated_alias). C124_v2_uses, C124_v2_imported_partial and C124_v2_violated_unused are the same for version 2, whose channels write their parameters and whose sides are given by publish and subscribe. An earlier model of version 3 lacked the `fmt` of sending to a channel with parameters; it was corrected. The types `schema-name` writes for a custom Go type are left out. What goimports does to the file is outside the repository and not modelled."
  },
  {
   "property": "C125",
   "status": "partial",
   "theorems": [
    "Verif.ChanRef.C125_direct_partial",
    "Verif.ChanRef.C125_fit_compiles",
    "Verif.ChanRef.C125_second_subscribe_partial",
    "Verif.ChanRef.C125_violated_send",
    "Verif.ChanRef.C125_violated_request",
    "Verif.ChanRef.C125_violated_params",
    "Verif.ChanRef.C125_violated_messages",
    "Verif.ChanRef.C125_violated_third"
   ],
   "note": "Proved for operations that refer to a channel written in place (C125_direct_partial: functions, requests and replies, messages), that these functions compile (C125_fit_compiles), and for subscriptions behind a second reference, which have the right address and are right exactly when the channel has no parameters (C125_second_subscribe_partial). The property as stated is false: behind a second reference Send asks the caller for the address (C125_violated_send), requests listen on the empty address while replies are sent on the channel's (C125_violated_request), subscriptions to channels with parameters do not compile (C125_violated_params), operations without listed messages fail (C125_violated_messages), and behind a third reference subscriptions use the empty address (C125_violated_third)."
  },
  {
   "property": "C126",
   "status": "partial",
   "theorems": [
    "Verif.KafkaLeave.C126_auto_partial",
    "Verif.KafkaLeave.C126_none_lost_partial",
    "Verif.KafkaLeave.C126_idle_partial",
    "Verif.KafkaLeave.C126_violated_manual",
    "Verif.KafkaLeave.C126_violated_group"
   ],
   "note": "Proved for every history with a group: with automatic commits what was handled and what waits in queues is, together, exactly the messages before the stored offset, each once (C126_auto_partial); with manual commits none is lost (C126_none_lost_partial), and none is repeated when subscriptions are cancelled with empty queues (C126_idle_partial). Violated with manual commits: everything that waits when the subscription is cancelled is handled by its listener, whose commits the closed reader refuses, and again by the next one (C126_violated_manual, for any number of messages); and without a group, the default (C126_violated_group). One partition; Kafka and kafka-go assumed as documented."
  },
  {
   "property": "C127",
   "status": "partial",
   "theorems": [
    "Verif.OldReplies.C127_nats",
    "Verif.OldReplies.C127_group_partial",
    "Verif.OldReplies.C127_correlated_partial",
    "Verif.OldReplies.C127_violated_kafka",
    "Verif.OldReplies.C127_violated_manual",
    "Verif.OldReplies.C127_jetstream_partial",
    "Verif.OldReplies.C127_jetstream_correlated_partial",
    "Verif.OldReplies.C127_jetstream_once_partial",
    "Verif.OldReplies.C127_jetstream_numbers",
    "Verif.OldReplies.C127_jetstream_idle",
    "Verif.OldReplies.C127_violated_jetstream"
   ],
   "note": "Proved over NATS (C127_nats), over Kafka when the group has read all there is (C127_group_partial), and over any of them for a correlation ID that is not on the reply channel yet (C127_correlated_partial). Violated for requests without correlation ID: over Kafka without group, the default, all of them return the first message that ever was on the reply channel (C127_violated_kafka); with a group and manual commits the first one not committed, for ever (C127_violated_manual). Over JetStream: proved when the server has nothing left of before (C127_jetstream_partial) and for correlation IDs that are in none of the messages it still has (C127_jetstream_correlated_partial); with a correlation ID the message returned is not there for any later request (C127_jetstream_once_partial, with C127_jetstream_numbers), nor is what the controller acknowledged itself while no request waited (C127_jetstream_idle). Violated without correlation ID, as nothing is acknowledged and the server delivers the message again (C127_violated_jetstream). The server is assumed to do what NATS documents for durable consumers."
  },
  {
   "property": "C128",
   "status": "partial",
   "theorems": [
    "Verif.Partition.C128_balance",
    "Verif.Partition.C128_first",
    "Verif.Partition.C128_single_partial",
    "Verif.Partition.C128_alone_partial",
    "Verif.Partition.C128_failed",
    "Verif.Partition.C128_owner_partial",
    "Verif.Partition.C128_violated_partition",
    "Verif.Partition.C128_violated_members",
    "Verif.Partition.C128_violated_refused"
   ],
   "note": "Proved: without an attempt that the server refused, each message is written to partition 0 and to no other, for any number of partitions (C128_first), so that a reader of partition 0 and the member of a group with partition 0 receive all of them in order (C128_single_partial, C128_alone_partial, C128_owner_partial); a publication that fails writes nothing (C128_failed). Violated: the reader of any other partition receives nothing (C128_violated_partition), a member of the group without partition 0 receives nothing (C128_violated_members), and a message that is not empty goes to partition 1 after a refused attempt (C128_violated_refused). The balancer of kafka-go is not in /repo and is modelled after its documentation; the number of partitions stays the same."
  },
  {
   "property": "C129",
   "status": "partial",
   "theorems": [
    "Verif.KafkaConns.C129_returned",
    "Verif.KafkaConns.C129_closed_partial",
    "Verif.KafkaConns.C129_violated",
    "Verif.KafkaConns.C129_published",
    "Verif.KafkaConns.C129_subscribed"
   ],
   "note": "Proved for all sequences of calls: calls that returned leave the open connections as they were (C129_returned), and nothing is open afterwards exactly when no attempt to make a controller could dial without listing the brokers (C129_closed_partial). Violated by each such attempt, which leaves one connection (C129_violated). Connections inside the readers and writers of kafka-go are not modelled, and calls are made one after the other. C129_published, C129_subscribed: what the calls answer."
  },
  {
   "property": "C130",
   "status": "partial",
   "theorems": [
    "Verif.FileHead.C130_head_partial",
    "Verif.FileHead.C130_build",
    "Verif.FileHead.C130_formatted",
    "Verif.FileHead.C130_violated_lines",
    "Verif.FileHead.C130_violated_unchecked"
   ],
   "note": "Proved for every package name of one line, every build information of one-line texts and every rest of the file: Go tools take the file as generated and the package clause has the name (C130_head_partial); what the head says of the program is exact (C130_build). Violated by every name of several lines (C130_violated_lines), and without formatting by names that are no Go identifiers, which are written unchecked (C130_violated_unchecked). Comments over several lines are not looked at; what the formatter accepts is a parameter. With formatting the file is what the formatter made (C130_formatted)."
  },
  {
   "property": "C131",
   "status": "partial",
   "theorems": [
    "Verif.RefFiles.C131_main_partial",
    "Verif.RefFiles.C131_within",
    "Verif.RefFiles.C131_order",
    "Verif.RefFiles.C131_violated_folder",
    "Verif.RefFiles.C131_violated_wrong_file",
    "Verif.RefFiles.C131_violated_between",
    "Verif.RefFiles.C131_violated_self",
    "Verif.RefFiles.C131_violated_dots"
   ],
   "note": "C131_main_partial: references in a main document in the folder the command runs in, for relative paths without . and .. (./ in front allowed), to any other file given. C131_within: references without a file part, in each file. C131_order: for every order of files with different paths. The full claim is false: a main document in another folder misses its neighbours (C131_violated_folder) or finds a file of the same name elsewhere (C131_violated_wrong_file), dependencies cannot refer to other files (C131_violated_between), the main document is not found under its own name (C131_violated_self), nor a file by a way round (C131_violated_dots)."
  },
  {
   "property": "C132",
   "status": "partial",
   "theorems": [
    "Verif.Members.C132_plain_partial",
    "Verif.Members.C132_additional_partial",
    "Verif.Members.C132_unconverted_partial",
    "Verif.Members.C132_violated_additional",
    "Verif.Members.C132_violated_method",
    "Verif.Members.C132_violated_case",
    "Verif.Members.C132_violated_unnamed"
   ],
   "note": "Proved for every list of keys made of small words with separators: the struct without additional properties, and that of the parameters of a channel, is fine exactly when no two keys have the same words (C132_plain_partial); with additional properties exactly when also no key has the words of AdditionalProperties, MarshalJSON or UnmarshalJSON and the converted keys differ (C132_additional_partial), the last being implied without conversion (C132_unconverted_partial). Violated: additionalProperties or additional_properties, marshalJSON or UnmarshalJSON among any keys of an object with additional properties; userID and user_id with any conversion of keys; the key 42 among any keys. Missing: a characterisation for keys outside small words."
  },
  {
   "property": "C133",
   "status": "partial",
   "theorems": [
    "Verif.CertModes.C133_first_run_partial",
    "Verif.CertModes.C133_masked_partial",
    "Verif.CertModes.C133_violated_usual",
    "Verif.CertModes.C133_violated_kept"
   ],
   "note": "C133_first_run_partial: after the first run a class of users can read the keys exactly when the umask leaves it the rights to read and to pass directories (0777 is asked for). C133_masked_partial: unreadable through every history of runs and deletions if every umask takes the right to read. Violated: with the usual umask everybody can read the private keys of NATS and Kafka (C133_violated_usual); a key file that can be read keeps its permissions when a later run writes a new key to it, whatever the umask (C133_violated_kept)."
  },
  {
   "property": "C134",
   "status": "partial",
   "theorems": [
    "Verif.NatsOrder.C134_own_partial",
    "Verif.NatsOrder.C134_settled_partial",
    "Verif.NatsOrder.C134_only_partial",
    "Verif.NatsOrder.C134_once_partial",
    "Verif.NatsOrder.C134_each_partial",
    "Verif.NatsOrder.C134_returns_partial",
    "Verif.NatsOrder.C134_arrives_partial",
    "Verif.NatsOrder.C134_violated_lost"
   ],
   "note": "The property is violated: `Subscribe` of the NATS controller does not flush, so the server may take a publication of another connection before the subscription; the publication returns, and the message never reaches the subscription or its group (C134_violated_lost, for every channel, message and later history that does not publish it again). What holds: messages of the subscriber's own controller have arrived when their publication returns (C134_own_partial), publications return (C134_returns_partial) and these messages arrive (C134_arrives_partial) once the server has read the connection often enough, all messages do once the subscriber's controller has published something after subscribing, as requests do (C134_settled_partial), nothing else is delivered (C134_only_partial), each queue group gets a message that is published once at most once (C134_once_partial), and so does each subscription that is made once (C134_each_partial). Channels match when they are equal, connections do not fail, and nothing is cancelled; how the client library and the server order commands is assumed as documented by NATS."
  },
  {
   "property": "C135",
   "status": "partial",
   "theorems": [
    "Verif.NatsSlow.C135_order_partial",
    "Verif.NatsSlow.C135_kept_partial",
    "Verif.NatsSlow.C135_drains_partial",
    "Verif.NatsSlow.C135_violated_slow",
    "Verif.NatsSlow.C135_violated_dropped"
   ],
   "note": "The property is violated: the controller leaves the limit of the client library as it is and does not look at its errors; whatever the goroutines do, the messages that arrive beyond those handled, those in the channel and those the library keeps are dropped (C135_violated_slow), for every limit and size (C135_violated_dropped). What holds: the handler gets messages that arrived, in order and once (C135_order_partial), all of them while it is never further behind than the library keeps (C135_kept_partial), and everything on its way once nothing more arrives and all goroutines get their turns, in any order (C135_drains_partial). The limit counts messages; that of bytes, cancellations and lost connections are not modelled. How the library counts is assumed as documented by NATS."
  }
 ]
}