{"id": "C01", "title": "Each request registration receives at most one response", "statement": "When a caller registers a request id with Protocol::register_request and later responses arrive through complete_request or complete_request_for_transport in any order and number, the receiver obtained from that registration gets at most one response; the response it gets is the first one that arrives for that id (on the registering transport) while the registration is the live one, and every later response for the id is dropped until the id is registered again.", "quantifier": "every finite history of register / complete / complete-for-transport / cancel operations, over all ids, transports and response payloads", "why_tests_cant": "a test runs one short history; the claim is an invariant over unbounded interleavings of ids, duplicates, re-registrations and cancellations", "anchors": ["src/shared/protocol.rs: Protocol::register_request, Protocol::complete_request, Protocol::complete_request_for_transport, Protocol::cancel_request"]}
{"id": "C02", "title": "A response arriving on another transport is never delivered and never consumes the pending request", "statement": "complete_request_for_transport called with a transport id different from the one that registered the request returns Ok(false), delivers nothing and leaves the request pending, so that a later response on the right transport is still delivered.", "quantifier": "all protocol states, ids, transports, responses, and all histories of wrong-transport responses before the right one", "why_tests_cant": "needs every state and every number of foreign responses, not one mismatch", "anchors": ["src/shared/protocol.rs: Protocol::complete_request_for_transport, Protocol::complete_request, TransportId"]}
{"id": "C03", "title": "Cancelling or completing one request never affects another request id", "statement": "Operations on request id a change neither the pending status nor the delivery of any request id b different from a; after cancel_request(a) no response is delivered to the cancelled registration.", "quantifier": "all histories and all pairs of distinct ids", "why_tests_cant": "non-interference ranges over all pairs of ids and all interleavings", "anchors": ["src/shared/protocol.rs: Protocol::cancel_request, Protocol::complete_request"]}
{"id": "C04", "title": "SSE parsing does not depend on how the byte stream is split into chunks", "statement": "Feeding an SSE stream to SseParser::feed in any sequence of chunks yields the same events, in the same order, and the same final state as feeding the concatenation at once.", "quantifier": "all streams of characters and all ways to cut them into chunks", "why_tests_cant": "there are exponentially many splits of unboundedly many streams; the code mixes byte and character offsets so only some splits misbehave", "anchors": ["src/shared/sse_parser.rs: SseParser::feed, SseParser::process_line"]}
{"id": "C05", "title": "The SSE parser never panics", "statement": "SseParser::feed returns for every input chunk in every parser state; it never slices a string outside a character boundary.", "quantifier": "all parser states reachable by feeding any chunks and all chunks", "why_tests_cant": "the panic needs a particular relation between byte and character offsets that example inputs do not hit", "anchors": ["src/shared/sse_parser.rs: SseParser::feed"]}
{"id": "C06", "title": "SSE output of an event parses back to that event", "statement": "Formatting an SseEvent with Display and feeding the text to a fresh SseParser yields exactly that event, for every event whose fields contain no line terminators outside data and whose data is representable.", "quantifier": "all events (all ids, event names, multi-line data, retry values)", "why_tests_cant": "round trip over all field contents, including empty lines, leading spaces and colons inside values", "anchors": ["src/shared/sse_parser.rs: impl Display for SseEvent, SseParser::feed, SseParser::dispatch_event"]}
{"id": "C07", "title": "SSE field processing follows the event-stream line rules", "statement": "For every sequence of complete lines the parser emits an event exactly at each blank line that follows at least one data field, with data the concatenation of the data values joined by newlines, event the last event field, id the last valid id (falling back to the last id seen in the stream), and comments and unknown fields have no effect.", "quantifier": "all finite sequences of lines", "why_tests_cant": "unbounded sequences of fields; sticky last-event-id links events arbitrarily far apart", "anchors": ["src/shared/sse_parser.rs: SseParser::process_line, SseParser::dispatch_event, SseEventBuilder"]}
{"id": "C08", "title": "Stdio framing: what one side writes the other side reads, message for message", "statement": "If any sequence of payloads is written with the stdio framing (Content-Length header, blank line, payload), a reader starting at the beginning of the resulting byte stream reads exactly these payloads in order and then sees end of stream, even when payloads contain newlines, header-like text or are empty.", "quantifier": "all finite sequences of byte payloads of every content and length", "why_tests_cant": "payloads may contain text that looks like framing; the claim is for every payload and sequence", "anchors": ["src/shared/stdio.rs: StdioTransport::write_message, read_headers, read_message_body, parse_content_length"]}
{"id": "C09", "title": "Content-Length parsing inverts printing and rejects everything that is not a length", "statement": "parse_content_length(\"Content-Length: n\") returns n for every length n representable in usize; a header whose value is not a decimal number in range yields no length.", "quantifier": "all natural numbers and all header values", "why_tests_cant": "unbounded numbers and strings", "anchors": ["src/shared/stdio.rs: StdioTransport::parse_content_length"]}
{"id": "C10", "title": "A closed stdio transport stays closed", "statement": "After close() or after end of input has been observed, every later send and receive returns ConnectionClosed and writes nothing; no operation ever reopens the transport.", "quantifier": "all operation histories", "why_tests_cant": "absorbing-state property over unbounded histories", "anchors": ["src/shared/stdio.rs: StdioTransport::send, receive, close, read_headers"]}
{"id": "C11", "title": "The number of sessions never exceeds the configured limit", "statement": "For every history of session operations performed one after another, the number of live sessions is at most max_sessions; create_session fails when the limit is reached and changes nothing.", "quantifier": "all operation histories, all limits, all generated ids", "why_tests_cant": "invariant over unbounded histories", "anchors": ["src/shared/session.rs: SessionManager::create_session"]}
{"id": "C12", "title": "An expired session is never accepted as valid", "statement": "validate_session succeeds at time t exactly when the session exists and its expiry is not before t; when it is expired the session is removed, so it stays unknown at every later time unless a new session with this id is created.", "quantifier": "all session tables, ids and times", "why_tests_cant": "depends on every relation between expiry and clock", "anchors": ["src/shared/session.rs: SessionManager::validate_session, SessionManager::cleanup_expired, SessionManager::get_session"]}
{"id": "C13", "title": "A destroyed session cannot come back", "statement": "After destroy_session(id) returns, no concurrent or later lookup makes the session reappear; only create_session can introduce a session.", "quantifier": "all interleavings of the atomic steps of get, update, destroy, create by any number of tasks", "why_tests_cant": "a race between the read and write halves of a lookup is hit only by particular schedules", "anchors": ["src/shared/session.rs: SessionManager::get_session, SessionManager::destroy_session"]}
{"id": "C14", "title": "Event replay returns exactly the retained events stored after the given event", "statement": "For every history of stored events with distinct ids, get_events_since(id, limit) returns, in storage order, exactly the retained events stored after id, truncated to limit; nothing is skipped, repeated or reordered.", "quantifier": "all histories of stored events, all capacity limits, all resumption points and limits", "why_tests_cant": "exactness of replay must hold after any number of evictions", "anchors": ["src/shared/event_store.rs: InMemoryEventStore::store_event, get_events_since, cleanup"]}
{"id": "C15", "title": "The event store is bounded and evicts oldest first", "statement": "After every store operation at most max_events events are retained and they are exactly the newest ones stored (no younger event is evicted while an older one is retained).", "quantifier": "all histories and capacities", "why_tests_cant": "FIFO eviction is an invariant over unbounded histories", "anchors": ["src/shared/event_store.rs: InMemoryEventStore::store_event, InMemoryEventStore::cleanup"]}
{"id": "C16", "title": "Sequence numbers given to recorded messages are strictly increasing", "statement": "Messages recorded through the resumption manager receive pairwise distinct, strictly increasing sequence numbers, also when recording continues after resuming from a token.", "quantifier": "all histories of record / token creation / resume operations", "why_tests_cant": "a rollback only shows after particular resume points in the history", "anchors": ["src/shared/event_store.rs: ResumptionManager::record_outbound, record_inbound, resume_from_token, create_resumption_token"]}
{"id": "C17", "title": "Reconnection attempts are bounded by max_retries", "statement": "With a retry limit configured, the reconnection manager starts at most max_retries attempts after a failure before it gives up, for every pattern of failures.", "quantifier": "all failure/success/disconnect histories and all configurations", "why_tests_cant": "the number of attempts depends on the whole history, including circuit breaker state", "anchors": ["src/shared/reconnect.rs: ReconnectManager::should_reconnect, on_connection_failed, reconnect_with"]}
{"id": "C18", "title": "Reconnection delay is monotone in the attempt number and capped", "statement": "Without jitter, the delay computed for the n-th attempt is initial_delay * multiplier^n capped at max_delay: it never exceeds max_delay and does not decrease with n.", "quantifier": "all attempt numbers and configurations with multiplier at least one", "why_tests_cant": "unbounded attempt numbers; growth overflows machine arithmetic unless capped", "anchors": ["src/shared/reconnect.rs: ReconnectManager::calculate_delay"]}
{"id": "C19", "title": "An open reconnection circuit blocks attempts until its timeout has passed", "statement": "Once failures reach the threshold the circuit is open and should_reconnect is false until the circuit timeout has elapsed since it opened.", "quantifier": "all histories of connection events and all times", "why_tests_cant": "requires every event order between opening and expiry", "anchors": ["src/shared/reconnect.rs: ReconnectManager::should_reconnect, on_connection_failed, on_disconnected"]}
{"id": "C20", "title": "Subscriptions behave as a set of (resource, subscriber) pairs", "statement": "After any history of subscribe / unsubscribe / unsubscribe_all, the answers of has_subscribers, get_subscriptions, get_subscribers and get_stats are those of the mathematical set of pairs obtained by adding and removing pairs; subscribing twice equals subscribing once; one subscriber's operations never change another's subscriptions.", "quantifier": "all operation histories, uris and subscriber ids", "why_tests_cant": "refinement over unbounded histories", "anchors": ["src/server/subscriptions.rs: SubscriptionManager::subscribe, unsubscribe, unsubscribe_all, has_subscribers, get_subscriptions, get_subscribers, get_stats"]}
{"id": "C21", "title": "A resource update is announced exactly once if and only if someone is subscribed", "statement": "notify_resource_updated(uri) calls the notification sender exactly once, with this uri, iff the resource has at least one subscriber (and a sender is installed); it returns the number of distinct subscribers and does not change the subscriptions.", "quantifier": "all histories followed by a notification", "why_tests_cant": "depends on the whole subscription history", "anchors": ["src/server/subscriptions.rs: SubscriptionManager::notify_resource_updated"]}
{"id": "C22", "title": "Cancelling a request cancels exactly the token of its most recent registration", "statement": "cancel_request(id) cancels the token most recently created for id and not yet removed, cancels no other token, sends exactly one notification naming id, and removes it so a second cancel is a no-op; a token once cancelled stays cancelled.", "quantifier": "all histories of create / cancel / remove / clear", "why_tests_cant": "monotonicity and non-interference over unbounded histories and ids", "anchors": ["src/server/cancellation.rs: CancellationManager::create_token, cancel_request, remove_token, clear"]}
{"id": "C23", "title": "Distinct request ids never share a cancellation key", "statement": "The string under which a request's cancellation token is looked up identifies the request id: two different request ids have different keys.", "quantifier": "all pairs of request ids (numbers and strings)", "why_tests_cant": "collisions occur between a number and the string that prints like it", "anchors": ["src/types/jsonrpc.rs: impl Display for RequestId, From<u64> for RequestId", "src/server/mod.rs: handle_call_tool (get_token(id.to_string()))"]}
{"id": "C24", "title": "Parallel batch processing answers every request once and in request order", "statement": "process_batch_parallel and process_batch_request return one response per request, the i-th response being the handler's answer to the i-th request, whatever the order in which the concurrent handlers finish.", "quantifier": "all batches, all completion orders (schedules), all concurrency limits of at least one", "why_tests_cant": "every completion permutation must give the same output", "anchors": ["src/utils/parallel_batch.rs: process_batch_parallel", "src/shared/batch.rs: process_batch_request", "src/server/batch.rs: Server::handle_batch_request"]}
{"id": "C25", "title": "No more than max_concurrency handlers run at the same time", "statement": "At every moment of every schedule of process_batch_parallel at most max_concurrency handler invocations are in progress, and with a limit of at least one the batch can always make progress until all requests are answered.", "quantifier": "all schedules and all batch sizes and limits", "why_tests_cant": "a bound on every reachable state of a concurrent system", "anchors": ["src/utils/parallel_batch.rs: process_batch_parallel (Semaphore)"]}
{"id": "C26", "title": "Every response in a batch carries the id of its request", "statement": "Every response produced for a batch, including timeouts and unparseable requests, carries the id of the request it answers.", "quantifier": "all batches and all timeout outcomes", "why_tests_cant": "needs every combination of successes, errors and timeouts", "anchors": ["src/utils/parallel_batch.rs: process_batch_parallel", "src/server/batch.rs: Server::handle_batch_request"]}
{"id": "C27", "title": "Batch metrics add up", "statement": "After any sequence of processed batches the total request count of BatchProcessor equals the number of requests processed since the last reset and equals successes plus errors plus timeouts.", "quantifier": "all sequences of batches and outcomes", "why_tests_cant": "accounting invariant over unbounded histories", "anchors": ["src/utils/parallel_batch.rs: BatchProcessor::process, reset_metrics"]}
{"id": "C28", "title": "Root registration: listing equals registrations minus unregistrations", "statement": "get_roots lists, in registration order, exactly the roots whose registration succeeded and whose unregister handle has not been called; a uri without the file:// scheme is rejected and changes nothing; each unregister handle removes its own root only.", "quantifier": "all histories of register / unregister calls, including repeated uris", "why_tests_cant": "identity of entries matters only with duplicates and particular orders", "anchors": ["src/server/roots.rs: RootsManager::register_root, get_roots, has_roots"]}
{"id": "C29", "title": "The message batcher neither loses, duplicates nor reorders messages", "statement": "In every history of add calls, timer firings and receive calls executed one after another, the concatenation of all emitted batches followed by the still buffered messages equals the sequence of added messages; each emitted batch is non-empty and no longer than max_batch_size.", "quantifier": "all operation histories and batch sizes", "why_tests_cant": "conservation law over unbounded histories and timer schedules", "anchors": ["src/utils/batching.rs: MessageBatcher::add, start_timer, receive_batch"]}
{"id": "C30", "title": "The message debouncer eventually emits the latest notification per key and only that", "statement": "For every key and every schedule, once no more notifications are added for the key and its timer has fired, the last notification added has been emitted, exactly once, and notifications superseded within the interval are not emitted.", "quantifier": "all interleavings of add, timer expiry, channel send and flush", "why_tests_cant": "the losing schedules need a specific preemption point inside the timer task", "anchors": ["src/utils/batching.rs: MessageDebouncer::add, flush"]}
{"id": "C31", "title": "The notification debouncer emits every pending notification exactly once", "statement": "Every notification submitted to NotificationDebouncer is emitted once or superseded by a later one for the same key; flushing does not make it be emitted again, and notifications of different kinds never supersede each other.", "quantifier": "all histories of submit / tick / flush", "why_tests_cant": "duplication appears only for certain flush/tick orders", "anchors": ["src/server/notification_debouncer.rs: NotificationDebouncer::submit, flush, flush_pending, flush_all, notification_key"]}
{"id": "C32", "title": "HTTP: requests with an unknown or deleted session id never reach the server", "statement": "In stateful mode a non-initialize POST is passed to the MCP server only if its session id names a session that was created and not deleted since; otherwise the response is 400 (missing) or 404 (unknown) and no state changes.", "quantifier": "all server states and request histories", "why_tests_cant": "access control over every history of init / POST / GET / DELETE", "anchors": ["src/server/streamable_http_server.rs: validate_non_init_session, handle_post_request, handle_delete_session"]}
{"id": "C33", "title": "HTTP: a session id handed out or accepted at initialization is usable afterwards", "statement": "After an initialize request is answered with a session id, a subsequent request with this session id is not rejected with 404 unless the session was deleted.", "quantifier": "all states and all initialize requests, with and without a client supplied session id", "why_tests_cant": "depends on an unusual header combination and on the previous history", "anchors": ["src/server/streamable_http_server.rs: process_init_session, update_session_after_init, validate_non_init_session"]}
{"id": "C34", "title": "HTTP: a protocol version header that is unsupported or differs from the negotiated one is rejected", "statement": "A non-initialize request is processed only if its mcp-protocol-version header, when present, is a supported version and equals the session's negotiated version when one is recorded.", "quantifier": "all headers, sessions and negotiated versions", "why_tests_cant": "decision logic over unbounded strings and session states", "anchors": ["src/server/streamable_http_server.rs: validate_protocol_version"]}
{"id": "C35", "title": "HTTP: replay never leaks events of one stream into another", "statement": "Replaying events after a Last-Event-ID on a stream sends only events that were stored for that stream, each at most once and in order.", "quantifier": "all event histories over any number of streams", "why_tests_cant": "needs interleaved histories of several sessions", "anchors": ["src/server/streamable_http_server.rs: InMemoryEventStore::store_event, replay_events_after, handle_get_sse"]}
{"id": "C36", "title": "HTTP: at most one SSE stream per session", "statement": "While a GET stream is open for a session a second GET for it is answered 409 and the first stream keeps receiving the responses of the session.", "quantifier": "all interleavings of concurrent GET, POST and DELETE requests", "why_tests_cant": "check and insert are separate steps; only some schedules break it", "anchors": ["src/server/streamable_http_server.rs: handle_get_sse, build_response, handle_delete_session"]}
{"id": "C37", "title": "Header validation decides exactly on content type and accept", "statement": "A POST passes header validation iff its content type mentions application/json and its Accept mentions application/json or text/event-stream; a GET passes iff its Accept mentions text/event-stream; the status codes of rejections are 415 and 406 respectively.", "quantifier": "all header values and methods", "why_tests_cant": "all strings", "anchors": ["src/server/streamable_http_server.rs: validate_headers"]}
{"id": "C38", "title": "The circuit breaker follows the closed / open / half-open protocol", "statement": "For every history of successes, failures and requests with nondecreasing times: while closed every request is allowed and the circuit opens exactly when the threshold of consecutive failures is reached; while open no request is allowed before the timeout has elapsed since the last failure; a failure in half-open reopens it; the success threshold in half-open closes it.", "quantifier": "all histories, thresholds and timeouts", "why_tests_cant": "unbounded state machine histories", "anchors": ["src/error/recovery.rs: CircuitBreaker::allow_request, record_success, record_failure"]}
{"id": "C39", "title": "An operation protected by an open circuit breaker is not executed", "statement": "When recovery runs an operation under a circuit breaker that is open and has not timed out, the operation is not called.", "quantifier": "all breaker states and operations", "why_tests_cant": "order of the call and the check matters for every history", "anchors": ["src/error/recovery.rs: RecoveryExecutor::execute_with_recovery, circuit_breaker"]}
{"id": "C40", "title": "Retry strategies call the operation a bounded number of times and return its first success", "statement": "with_retry calls the operation min(k, attempts) times, where k is the index of the first successful call, and returns that success or the last error; fixed and exponential recovery call it at most 1 + attempts times.", "quantifier": "all outcome sequences and attempt limits", "why_tests_cant": "all outcome sequences of unbounded length", "anchors": ["src/error/recovery.rs: with_retry, retry_fixed, retry_exponential"]}
{"id": "C41", "title": "An OAuth authorization code is redeemable at most once", "statement": "Over every history of provider operations, at most one exchange_code call with a given code succeeds, and a failed exchange of a code also invalidates it.", "quantifier": "all operation histories with distinct generated codes", "why_tests_cant": "single use is a history property", "anchors": ["src/server/auth/oauth2.rs: InMemoryOAuthProvider::create_authorization_code, exchange_code"]}
{"id": "C42", "title": "OAuth tokens are issued only to the client, redirect uri and PKCE verifier of the authorization", "statement": "exchange_code returns a token only if the code was created by create_authorization_code, is unexpired, and the request's client id, redirect uri and PKCE verifier match those of the authorization; the token carries the authorization's user and scopes.", "quantifier": "all provider states and token requests", "why_tests_cant": "security decision over all request contents and states", "anchors": ["src/server/auth/oauth2.rs: exchange_code, verify_pkce, create_access_token"]}
{"id": "C43", "title": "A refresh token can be used only once", "statement": "A successful refresh_token call invalidates the presented refresh token and the old access token; no two refreshes with the same refresh token succeed.", "quantifier": "all interleavings of refresh calls", "why_tests_cant": "double use needs two refreshes interleaved between lookup and removal", "anchors": ["src/server/auth/oauth2.rs: refresh_token, create_access_token"]}
{"id": "C44", "title": "A revoked or expired access token is never accepted", "statement": "validate_token(t) succeeds iff t was issued, not revoked or rotated out, and not expired at the time of the call.", "quantifier": "all operation histories and times", "why_tests_cant": "history property", "anchors": ["src/server/auth/oauth2.rs: validate_token, revoke_token, create_access_token"]}
{"id": "C45", "title": "OAuth provider operations cannot deadlock", "statement": "In every schedule of concurrent provider operations some operation can make progress until all complete.", "quantifier": "all schedules of any number of concurrent token operations", "why_tests_cant": "lock order inversion shows only in specific interleavings", "anchors": ["src/server/auth/oauth2.rs: create_access_token, refresh_token, revoke_token"]}
{"id": "C46", "title": "Scope checks accept exactly the tokens having the required scopes", "statement": "A request passes the scope middleware in 'all' mode iff the inner middleware accepts it and every required scope is held, and in 'any' mode iff at least one is; a bearer token lacking a required scope is never accepted through the scope middleware.", "quantifier": "all scope sets", "why_tests_cant": "set inclusion over all scope lists", "anchors": ["src/server/auth/middleware.rs: ScopeMiddleware::authenticate, BearerTokenMiddleware::authenticate, has_all_scopes, has_any_scope"]}
{"id": "C47", "title": "Composite authentication succeeds with the first accepting middleware", "statement": "CompositeMiddleware returns the context of the first middleware that accepts; when none accepts and authentication is required the request is rejected.", "quantifier": "all lists of middlewares and all outcomes", "why_tests_cant": "all list lengths and outcome patterns", "anchors": ["src/server/auth/middleware.rs: CompositeMiddleware::authenticate, is_required"]}
{"id": "C48", "title": "Requests survive the trip through JSON-RPC", "statement": "parse_request(create_request(id, r)) returns id and r for every request r the SDK can construct.", "quantifier": "all requests of every kind and all ids", "why_tests_cant": "needs every variant and every parameter value; method tables on both sides must agree", "anchors": ["src/shared/protocol_helpers.rs: create_request, parse_request, client_request_to_jsonrpc, server_request_to_jsonrpc", "src/types/protocol.rs: ClientRequest, ServerRequest"]}
{"id": "C49", "title": "Notifications survive the trip through JSON-RPC", "statement": "parse_notification(create_notification(n)) returns n for every notification n the SDK can construct.", "quantifier": "all notifications of every kind", "why_tests_cant": "as for requests", "anchors": ["src/shared/protocol_helpers.rs: create_notification, parse_notification, client_notification_to_jsonrpc, server_notification_to_jsonrpc", "src/types/protocol.rs: ClientNotification, ServerNotification"]}
{"id": "C50", "title": "Every message is classified as exactly one of request, notification or response", "statement": "A JSON object is treated as a request iff it has a method and an id, as a notification iff it has a method and no id, as a response iff it has no method but a result or error, and rejected otherwise.", "quantifier": "all JSON objects", "why_tests_cant": "all combinations of present keys and values", "anchors": ["src/shared/stdio.rs: StdioTransport::parse_message, parse_method_message", "src/types/jsonrpc.rs: RawMessage::message_type"]}
{"id": "C51", "title": "Middleware hooks run in registration order and stop at the first failure", "statement": "Processing a message through a MiddlewareChain calls the hooks of the middlewares in the order they were added, each seeing the message as modified by the previous ones, and stops at the first error without calling later ones.", "quantifier": "all chains and all middleware behaviours", "why_tests_cant": "all chain lengths and failure positions", "anchors": ["src/shared/middleware.rs: MiddlewareChain::process_request, process_response, process_send, process_receive"]}
{"id": "C52", "title": "Trace context survives header propagation", "statement": "RequestContext::from_headers(to_headers(ctx)) keeps the trace id, the request id and the baggage of ctx, and child contexts keep the trace id and point to their parent span.", "quantifier": "all contexts and chains of children", "why_tests_cant": "all baggage maps, ids and chains of propagation", "anchors": ["src/shared/context.rs: RequestContext::to_headers, from_headers, child"]}
{"id": "C53", "title": "Dynamic registration: the last registration of a name wins and removal is exact", "statement": "After any history of add / remove of tools and prompts, a name is available iff its last operation was an add, and it resolves to that handler; each change is announced once; other names are unaffected.", "quantifier": "all histories and names", "why_tests_cant": "history property", "anchors": ["src/server/dynamic.rs: DynamicServerManager::add_tool, remove_tool, add_prompt, remove_prompt, has_tool, reload_configuration"]}
{"id": "C54", "title": "Elicitation responses reach exactly the waiting request", "statement": "A response for an outstanding elicitation is delivered to its waiter once; responses for unknown, timed out, cancelled or already answered ids are errors and affect no other elicitation.", "quantifier": "all interleavings of elicit, respond, timeout, cancel", "why_tests_cant": "timeouts race with re-used ids only in particular schedules", "anchors": ["src/server/elicitation.rs: ElicitationManager::elicit_input, handle_response, cancel, cancel_all, pending_count"]}
{"id": "C55", "title": "The resource watcher reports each changed tracked resource once per quiet period", "statement": "For each tracked path with changes, one notification is emitted after no further change was seen for the debounce time, reflecting the latest change; untracked and ignored paths are never reported.", "quantifier": "all event/tick histories", "why_tests_cant": "timing histories are unbounded", "anchors": ["src/server/resource_watcher.rs: process_events, add_resource, remove_resource, matches_patterns"]}
{"id": "C56", "title": "SIMD scans find exactly the positions a byte-by-byte scan finds, and terminate", "statement": "find_whitespace and find_escapes return the increasing list of all positions of whitespace (respectively characters needing escape) and return for every input.", "quantifier": "all byte strings of every length and alignment", "why_tests_cant": "depends on position modulo the vector width, on unbounded lengths", "anchors": ["src/simd/mod.rs: find_whitespace_simd, find_escapes_simd"]}
{"id": "C57", "title": "SIMD UTF-8 validation accepts exactly well-formed UTF-8", "statement": "validate_utf8_simd returns true iff the input is well-formed UTF-8.", "quantifier": "all byte strings", "why_tests_cant": "chunk-boundary positions, overlong forms and all-high-byte chunks are outside sampled inputs", "anchors": ["src/simd/mod.rs: validate_utf8_simd, process_simd_chunk, validate_chunk_scalar, validate_multibyte_sequence, validate_remaining_bytes"]}
{"id": "C58", "title": "Base64 encoding is decodable and of standard length", "statement": "base64_encode_simd(b) has length 4*ceil(len/3), uses only the base64 alphabet and padding, and standard decoding returns b.", "quantifier": "all byte strings", "why_tests_cant": "round trip over all inputs", "anchors": ["src/simd/mod.rs: base64_encode_simd"]}
{"id": "C59", "title": "WebSocket masking is the byte-wise XOR with the repeating key and undoes itself", "statement": "xor_mask_simd replaces byte i by byte i XOR mask[i mod 4]; applying it twice restores the data.", "quantifier": "all data lengths and masks", "why_tests_cant": "vector and scalar paths must agree for every length", "anchors": ["src/simd/mod.rs: xor_mask_simd"]}
{"id": "C60", "title": "Run-length encoding is lossless", "statement": "Expanding rle_encode_simd(b) gives b back; every run length is between 1 and 255, and no other sequence of such pairs that expands to b is shorter.", "quantifier": "all byte strings", "why_tests_cant": "runs longer than 255 and across vector boundaries", "anchors": ["src/simd/mod.rs: rle_encode_simd"]}
{"id": "C61", "title": "Substring search returns the first occurrence", "statement": "find_pattern_simd(h, n) returns the smallest index at which n occurs in h, or none if there is none, for nonempty n.", "quantifier": "all haystacks and needles", "why_tests_cant": "vector boundary effects and termination", "anchors": ["src/simd/mod.rs: find_pattern_simd"]}
{"id": "C62", "title": "Batch length validation applies the same bound to every element", "statement": "batch_validate_lengths(lengths, max) gives for each element whether it is at most max, independent of the element's position.", "quantifier": "all length vectors and bounds", "why_tests_cant": "vector lanes and the scalar tail use different comparisons", "anchors": ["src/simd/mod.rs: batch_validate_lengths, batch_checksum_simd"]}
{"id": "C63", "title": "The server answers every request with the id of that request", "statement": "handle_request returns, for every request and every handler behaviour, exactly one response whose id is the request's id, holding either a result or an error.", "quantifier": "all requests, ids and handler outcomes", "why_tests_cant": "all requests and handler behaviours", "anchors": ["src/server/mod.rs: Server::handle_request, process_client_request, create_response"]}
{"id": "C64", "title": "Error codes reach the peer unchanged", "statement": "An error raised with a protocol error code by a handler is reported to the peer with that code, and a received error code is exposed to the caller unchanged.", "quantifier": "all error codes and errors", "why_tests_cant": "all 32-bit codes", "anchors": ["src/error/mod.rs: ErrorCode::from_i32, Error::from_jsonrpc_error", "src/types/jsonrpc.rs: From<Error> for JSONRPCError", "src/server/mod.rs: create_response"]}
{"id": "C65", "title": "A client call returns the response to its own request", "statement": "Client::send_request returns a response only if its id is the id of the request that was sent, also when several calls run concurrently on clones of the client and when notifications arrive in between.", "quantifier": "all interleavings of concurrent calls and all incoming message orders", "why_tests_cant": "swapped responses require interleavings of two calls", "anchors": ["src/client/mod.rs: Client::send_request"]}
{"id": "C66", "title": "The client sends nothing before initialization and nothing the server did not advertise", "statement": "Before a successful initialize no request other than initialize is sent; afterwards a request needing a capability is sent only if the server advertised that capability; initialize succeeds at most once and only with a supported protocol version.", "quantifier": "all call histories and capability sets", "why_tests_cant": "history property over all methods and capability combinations", "anchors": ["src/client/mod.rs: Client::initialize, ensure_initialized, assert_capability, subscribe_resource, create_message"]}
{"id": "C67", "title": "Fast JSON parsing accepts the same inputs as the standard parser", "statement": "parse_json_fast yields the same result as serde_json::from_slice for every input: removing whitespace never changes the meaning nor makes invalid input valid.", "quantifier": "all byte strings", "why_tests_cant": "all inputs with any whitespace placement", "anchors": ["src/utils/json_simd.rs: parse_json_fast, pretty_print_fast"]}
{"id": "C68", "title": "URI template expansion substitutes every variable and keeps literals", "statement": "Expanding a template replaces each expression by the encoded value of its variable (the last binding given wins) and copies literal text unchanged; reserved characters in simple expansions are percent-encoded so they cannot alter the structure.", "quantifier": "all templates and bindings", "why_tests_cant": "all templates and values", "anchors": ["src/shared/uri_template.rs: UriTemplate::parse, expand, encode_value"]}
{"id": "C69", "title": "Matching a URI against a template inverts expansion", "statement": "If a uri was produced by expanding a template, match_uri binds each variable to the value it was expanded with.", "quantifier": "all templates and values", "why_tests_cant": "capture numbering breaks only for particular expression combinations", "anchors": ["src/shared/uri_template.rs: UriTemplate::match_uri, to_regex_pattern"]}
{"id": "C70", "title": "Queued server notifications are delivered without waiting for client input", "statement": "A notification queued by the server is eventually written to the transport even if the client sends nothing more; one malformed incoming message does not stop the server from serving later requests.", "quantifier": "all schedules of the message loop and the notification task", "why_tests_cant": "liveness under every schedule", "anchors": ["src/server/mod.rs: Server::run, spawn_message_handler, receive_message_from_transport, spawn_notification_handler"]}
{"id": "C71", "title": "Prefix completion returns exactly the matching options in order", "statement": "Static completion returns, in the configured order, exactly the options whose value or label starts with the typed prefix.", "quantifier": "all option lists and prefixes", "why_tests_cant": "all lists and strings", "anchors": ["src/types/completable.rs: StaticCompletable::complete"]}
{"id": "C72", "title": "Connection retry performs a bounded number of attempts and stops at the first success", "statement": "WebSocket connect_with_retry and OIDC discovery try at most the configured number of times, stop at the first success and return it, and otherwise return the last error.", "quantifier": "all outcome sequences and limits", "why_tests_cant": "all outcome sequences", "anchors": ["src/shared/websocket.rs: connect_with_retry", "src/client/auth.rs: discover, should_retry"]}
{"id": "C73", "title": "A successful send hands the message to the wire", "statement": "When a client transport's send returns Ok, the message has been written to the connection (exactly once); when it returns an error because the transport is not connected, nothing was written.", "quantifier": "all transport states and send options", "why_tests_cant": "depends on states and options rarely combined in tests", "anchors": ["src/shared/websocket.rs: WebSocketTransport::send", "src/shared/streamable_http.rs: send_with_options"]}
{"id": "C74", "title": "Resuming from a token replays exactly what happened since the token", "statement": "resume_from_token returns, in order, exactly the retained events stored after the token was created; an unknown token is refused and changes nothing; the pending messages are exactly the outbound ones among them.", "quantifier": "all histories before and after the token, all capacities", "why_tests_cant": "exactness after evictions and later tokens depends on the whole history", "anchors": ["src/shared/event_store.rs: ResumptionManager::resume_from_token, get_pending_events, InMemoryEventStore::create_resumption_token"]}
{"id": "C75", "title": "A session resuming from its token is sent only its own events", "statement": "Events replayed by resume_from_token were recorded by the same session, also when several sessions share one event store.", "quantifier": "all histories of recording by any sessions sharing a store", "why_tests_cant": "needs another session recording at the right moment", "anchors": ["src/shared/event_store.rs: ResumptionManager::resume_from_token, get_pending_events"]}
{"id": "C76", "title": "Session life-cycle callbacks are balanced", "statement": "For every session: creation is reported at most once; while it lives neither its destruction nor its expiry has been reported; once it is gone exactly one of them has been reported, exactly once.", "quantifier": "all histories of session operations with fresh ids", "why_tests_cant": "balance must hold over every history of destroy, failed validation and sweep", "anchors": ["src/shared/session.rs: SessionManager::create_session, destroy_session, validate_session, cleanup_expired, SessionCallbacks"]}
{"id": "C77", "title": "The HTTP middleware hands the handler the live session named by the request", "statement": "For every cookie jar the session id is the value of the first mcp-session-id cookie, else of the X-Session-ID header; the handler receives the session stored under that id only while it has not expired.", "quantifier": "all header maps, cookie jars, session tables and times", "why_tests_cant": "parsing must be right for every surrounding cookie; expiry must hold at every time", "anchors": ["src/shared/session.rs: extract_session_id, SessionMiddleware::process"]}
{"id": "C78", "title": "Updates of a session are not lost", "statement": "After update_session or authenticate_session returned, every later lookup shows the update as long as the session exists and is not updated again.", "quantifier": "all interleavings of lookups, updates and destructions", "why_tests_cant": "lost updates need a lookup to straddle the update", "anchors": ["src/shared/session.rs: SessionManager::get_session, update_session, authenticate_session"]}
{"id": "C79", "title": "No input makes the stdio receiver panic", "statement": "For every byte stream on standard input, receive returns a message or an error; it never aborts the process.", "quantifier": "all input byte streams", "why_tests_cant": "the failing inputs are particular header values", "anchors": ["src/shared/stdio.rs: StdioTransport::receive, read_headers, read_message_body"]}
{"id": "C80", "title": "A batch array is answered with an array", "statement": "A JSON-RPC batch sent as an array is answered with an array of responses, and a single request with a single response.", "quantifier": "all batches (any number of requests)", "why_tests_cant": "must hold for every batch size", "anchors": ["src/shared/batch.rs: BatchResponse::from_responses, process_batch_request"]}
{"id": "C81", "title": "The rate-limited processor lets at most the configured number of requests through per second", "statement": "rate_limited_processor(N, ...) releases at most N requests in any interval of one second.", "quantifier": "all rates N and all schedules", "why_tests_cant": "a bound on every window of every schedule", "anchors": ["src/utils/parallel_batch.rs: rate_limited_processor"]}
{"id": "C82", "title": "The average processing time of a batch processor is always a number", "statement": "After any sequence of processed batches the average processing time reported by BatchProcessor::metrics is a finite number.", "quantifier": "all sequences of batches, including empty ones", "why_tests_cant": "the bad value appears only after particular first batches and then stays forever", "anchors": ["src/utils/parallel_batch.rs: BatchProcessor::process"]}
{"id": "C83", "title": "A message accepted by the batcher is not lost when another caller gives up", "statement": "If MessageBatcher::add returned Ok for a message, the message is buffered, on its way or emitted, whatever other callers do, including abandoning their own add while it waits.", "quantifier": "all interleavings of add, timer, receive and dropped add futures", "why_tests_cant": "the loss needs a full channel and a caller abandoning its call at that moment", "anchors": ["src/utils/batching.rs: MessageBatcher::add"]}
{"id": "C84", "title": "Configured per-type debounce intervals apply", "statement": "A notification whose type has an entry in type_intervals (in particular resource list changes, progress and log messages under the default configuration) is debounced with that interval.", "quantifier": "all notifications", "why_tests_cant": "requires comparing the key of every notification with every configured name", "anchors": ["src/server/notification_debouncer.rs: notification_key, flush_pending, NotificationDebouncerConfig::default"]}
{"id": "C85", "title": "The notification batcher neither loses nor duplicates notifications", "statement": "In every interleaving of add, full-batch sends, timeouts and flush, every added notification is in exactly one of: an emitted batch, a batch on its way, the buffer of its key; batches are non-empty, no longer than max_batch_size and contain one key only.", "quantifier": "all interleavings", "why_tests_cant": "conservation over unbounded interleavings of timeouts and sends", "anchors": ["src/server/notification_debouncer.rs: NotificationBatcher::add, flush"]}
{"id": "C86", "title": "A pending notification is not delayed beyond max_wait_time", "statement": "However often a notification is submitted again, a round of the flush task at least max_wait_time after its first submission emits it, and a round at least its interval after the last submission emits it.", "quantifier": "all histories of submissions and timer rounds", "why_tests_cant": "starvation under continued updates is a statement about all schedules", "anchors": ["src/server/notification_debouncer.rs: flush_pending"]}
{"id": "C87", "title": "HTTP: a client can resume its stream after a dropped connection", "statement": "A client whose SSE stream was cut can open a GET stream for its session again with its Last-Event-ID and receives the messages stored after that event.", "quantifier": "all histories of init, POST, GET, DELETE, disconnects and deliveries", "why_tests_cant": "needs the history open / disconnect / reopen in every interleaving with other requests", "anchors": ["src/server/streamable_http_server.rs: handle_get_sse, replay_events_after"]}
{"id": "C88", "title": "HTTP: the response to an accepted POST reaches the client", "statement": "The response to every admitted request is contained in the HTTP response or is queued, in order, on an open stream of the client's session.", "quantifier": "all states, requests, server responses and connection states", "why_tests_cant": "depends on when the stream's client disconnects relative to the request", "anchors": ["src/server/streamable_http_server.rs: build_response, handle_post_request, handle_get_sse"]}
{"id": "C89", "title": "HTTP: every accepted message reaches the MCP server exactly once", "statement": "Each POST that is not rejected is passed to the MCP server exactly once: requests, notifications and responses.", "quantifier": "all histories and interleavings of requests waiting for the server", "why_tests_cant": "counting over all interleavings of concurrent requests", "anchors": ["src/server/streamable_http_server.rs: handle_post_request"]}
{"id": "C90", "title": "Exponential recovery waits min(initial * multiplier^i, max) before retry i", "statement": "Before retry i (from 0) the exponential strategy sleeps min(initial_delay * multiplier^i, max_delay); in particular no delay exceeds max_delay.", "quantifier": "all parameters, outcome sequences and retry counts", "why_tests_cant": "unbounded sequences of delays and all parameters", "anchors": ["src/error/recovery.rs: retry_exponential"]}
{"id": "C91", "title": "A token request must authenticate the client", "statement": "An exchange_code request succeeds only if its client id is that of the authorization and its client secret is the registered one.", "quantifier": "all states and token requests", "why_tests_cant": "security decision over all request contents", "anchors": ["src/server/auth/oauth2.rs: exchange_code"]}
{"id": "C92", "title": "Refreshing and exchanging never widen a grant", "statement": "In every schedule every valid access token carries the client, user and scopes of a create_access_token or create_authorization_code call.", "quantifier": "all interleavings of provider operations", "why_tests_cant": "provenance over chains of exchanges and refreshes of any length", "anchors": ["src/server/auth/oauth2.rs: exchange_code, refresh_token, create_access_token"]}
{"id": "C93", "title": "Authorization requests are accepted only within the client's registration", "statement": "validate_authorization returns Ok iff the client is registered with the requested redirect uri, response type and scopes, and no one else can replace the registration.", "quantifier": "all registration histories and requests", "why_tests_cant": "history and request contents are unbounded", "anchors": ["src/server/auth/oauth2.rs: register_client, validate_authorization"]}
{"id": "C94", "title": "No identity without a valid credential", "statement": "For every tree of middlewares, a request is accepted with a non-anonymous identity only if it carries a token or client credentials the provider accepts, and with exactly their identity and scopes; a tree of required middlewares accepts nothing else.", "quantifier": "all middleware trees, requests and provider histories", "why_tests_cant": "trees and histories are unbounded; security decision", "anchors": ["src/server/auth/middleware.rs: AuthMiddleware implementations"]}
{"id": "C95", "title": "is_required tells whether unauthenticated requests are refused", "statement": "is_required() is true iff authenticate(None) is refused.", "quantifier": "all middleware trees", "why_tests_cant": "trees of any depth", "anchors": ["src/server/auth/middleware.rs: is_required"]}
{"id": "C96", "title": "Messages survive the byte transports", "statement": "parse_message(serialize_message(m)) returns m for every transport message m (stdio, WebSocket, HTTP).", "quantifier": "all messages", "why_tests_cant": "needs every variant, id and parameter value", "anchors": ["src/shared/stdio.rs: StdioTransport::serialize_message, parse_message"]}
{"id": "C97", "title": "Messages survive the streamable HTTP transport", "statement": "Deserializing the serialized form of any TransportMessage gives the same message.", "quantifier": "all messages", "why_tests_cant": "untagged decoding tries alternatives in order: every variant has to be checked against every other", "anchors": ["src/shared/transport.rs: TransportMessage", "src/shared/streamable_http.rs: send_with_options", "src/server/streamable_http_server.rs: handle_post_request"]}
{"id": "C98", "title": "The streamable HTTP server understands JSON-RPC", "statement": "Every JSON-RPC message as the other transports of the library send it is understood by the streamable HTTP server as the same message.", "quantifier": "all messages", "why_tests_cant": "all variants on both sides", "anchors": ["src/server/streamable_http_server.rs: handle_post_request", "src/shared/transport.rs: TransportMessage", "src/shared/protocol_helpers.rs: create_request"]}
{"id": "C99", "title": "Optional parameters may be left out", "statement": "A request all of whose parameters are optional is understood with params absent just as with empty params.", "quantifier": "all methods", "why_tests_cant": "depends on how each variant of the tagged enum treats missing and null content", "anchors": ["src/shared/protocol_helpers.rs: parse_request", "src/types/protocol.rs: ClientRequest, ServerRequest"]}
{"id": "C100", "title": "Results survive the trip to the client", "statement": "Every result a server handler returns is read by the client as the same value.", "quantifier": "all results of every kind", "why_tests_cant": "all field combinations including free-form JSON, options and nested lists", "anchors": ["src/types/protocol.rs: InitializeResult, ListToolsResult, CallToolResult, ListPromptsResult, GetPromptResult, ListResourcesResult, ListResourceTemplatesResult, ReadResourceResult, CompleteResult, CreateMessageResult", "src/types/completable.rs: CompletionConfig"]}
{"id": "C101", "title": "Unknown members and member order do not change a message", "statement": "Adding members with other names to a message or reordering its members does not change how parse_message reads it.", "quantifier": "all JSON objects, all reorderings, all additions", "why_tests_cant": "infinitely many objects and orders", "anchors": ["src/shared/stdio.rs: StdioTransport::parse_message", "src/types/jsonrpc.rs: JSONRPCRequest, JSONRPCResponse, JSONRPCNotification"]}
{"id": "C102", "title": "Resource contents of other implementations can be read", "statement": "The client reads resource contents in the form of the protocol schema (uri, mimeType, text).", "quantifier": "all contents", "why_tests_cant": "all field values and orders", "anchors": ["src/types/protocol.rs: Content, ReadResourceResult"]}
{"id": "C103", "title": "A vector copy is an exact copy within bounds", "statement": "copy_simd(src, dst) makes the first src.len() bytes of dst equal to src and leaves the rest unchanged; it panics exactly if dst is shorter than src.", "quantifier": "all source and target lengths", "why_tests_cant": "vector and scalar parts must meet for every length", "anchors": ["src/simd/mod.rs: copy_simd"]}
{"id": "C104", "title": "Announced capabilities describe what is currently available", "statement": "After any change through the runtime manager, the capabilities handed to the registered listeners say for every kind (tools, prompts, resources, sampling) whether something of this kind is available at that moment.", "quantifier": "all histories of runtime changes and listeners", "why_tests_cant": "each announcement is built from the static capabilities and one change, so a wrong one needs two changes of different kinds in some order", "anchors": ["src/server/dynamic.rs: DynamicServerManager::update_capabilities, add_capability_listener"]}
{"id": "C105", "title": "A tool added at runtime can be called by clients", "statement": "After add_tool succeeded on the manager of a running server, a tools/call request for that name reaches the handler.", "quantifier": "all histories and names", "why_tests_cant": "needs the server and the manager together; unit tests look only at the manager's own map", "anchors": ["src/server/dynamic.rs: DynamicServerManager::add_tool", "src/server/mod.rs: Server::handle_call_tool"]}
{"id": "C106", "title": "Registering a handler advertises its capability", "statement": "A server built with a tool, prompt, resource or sampling handler announces the corresponding capability in its answer to initialize, so that clients may use the handler.", "quantifier": "all sequences of builder calls and all states", "why_tests_cant": "the effect of an order of builder calls; tests build a handful of servers, usually with explicit capabilities", "anchors": ["src/server/mod.rs: ServerBuilder::tool, prompt, resources, sampling, capabilities, build, handle_request"]}
{"id": "C107", "title": "Cancelling a request reaches its running handler", "statement": "Server::cancel_request for a request in progress cancels the token its handler was given.", "quantifier": "all histories of requests and cancellations", "why_tests_cant": "tests of the manager create the token by hand; whether the server ever does so is a statement about all histories", "anchors": ["src/server/mod.rs: handle_call_tool, cancel_request", "src/server/cancellation.rs: CancellationManager"]}
{"id": "C108", "title": "A resources/subscribe request subscribes the client", "statement": "After a client's subscribe request for a uri was answered with success, updates of that resource are notified to that client.", "quantifier": "all states and uris", "why_tests_cant": "the request is acknowledged with success, so a test of the answer cannot see that nothing happened", "anchors": ["src/server/mod.rs: process_client_request, subscribe_resource"]}
{"id": "C109", "title": "initialize negotiates the protocol version", "statement": "The server answers initialize with the version asked for if it supports it, otherwise with its newest one.", "quantifier": "all requested versions", "why_tests_cant": "the space of versions is unbounded and tests use one", "anchors": ["src/server/mod.rs: handle_request", "src/lib.rs: SUPPORTED_PROTOCOL_VERSIONS"]}
{"id": "C110", "title": "Successful answers have the type the client expects", "statement": "Every success the server sends for a request can be read by the client as the result type of that request, and holds what the handler returned.", "quantifier": "all requests, servers and handler results", "why_tests_cant": "all handler results and all requests; a unit test parses a few", "anchors": ["src/server/mod.rs: process_client_request, handle_call_tool, handle_get_prompt, handle_read_resource", "src/client/mod.rs"]}
{"id": "C111", "title": "Listed tools and prompts are exactly the registered ones, and calls reach the last registration", "statement": "tools/list and prompts/list name exactly the tools and prompts registered with the builder, each once; a call runs the handler registered last under the name, with the arguments and id of the request, and a call of another name runs nothing.", "quantifier": "all sequences of builder calls, requests and states", "why_tests_cant": "all registration orders including repeated names", "anchors": ["src/server/mod.rs: ServerBuilder::tool, prompt, handle_list_tools, handle_call_tool"]}
{"id": "C112", "title": "Requests before initialize are refused", "statement": "Until a client has sent initialize, no handler runs for it and its other requests are answered with an error.", "quantifier": "all states and requests", "why_tests_cant": "a statement about every request in every state", "anchors": ["src/server/mod.rs: handle_request, process_client_request, initialized"]}
{"id": "C113", "title": "A user's answer reaches the elicitation that asked for it", "statement": "An elicitation response sent by the client is handed to the elicitation manager of the server and wakes the waiting caller.", "quantifier": "all histories", "why_tests_cant": "the response is acknowledged in any case, so a test of the answer cannot see that it was dropped", "anchors": ["src/server/mod.rs: process_client_request, ServerBuilder::build", "src/server/elicitation.rs: handle_response"]}
{"id": "C114", "title": "Notifications sent through the server reach the client", "statement": "A notification given to Server::send_notification, or caused by notify_resource_updated for a resource with subscribers, is put into the channel of the notification task.", "quantifier": "all histories of calls, before and after run", "why_tests_cant": "the methods report success whether or not there is a channel; that no history has both is not testable", "anchors": ["src/server/mod.rs: send_notification, notify_resource_updated, run, ServerBuilder::build"]}
{"id": "C115", "title": "active_requests holds exactly the calls in progress", "statement": "A client's table of active requests contains a call's id exactly while the call is in progress; when the call returns, fails or is dropped its entry is gone.", "quantifier": "all schedules of concurrent calls, failures and dropped calls", "why_tests_cant": "a leak shows only over long histories with failures", "anchors": ["src/client/mod.rs:1315-1348"]}
{"id": "C116", "title": "A client of this library can use everything a server of this library has registered", "statement": "After initialize, every handler registered with the server's builder can be called from the client, its result reaches the caller unchanged, and its errors with their code.", "quantifier": "all servers, builders' calls, handlers and requests", "why_tests_cant": "client and server tests use mocks; their composition is never run for all configurations", "anchors": ["src/client/mod.rs:244-296", "src/client/mod.rs:1279-1312", "src/server/mod.rs"]}
{"id": "C117", "title": "Pretty printing keeps the document", "statement": "pretty_print_fast returns, for every serializable value, a text that differs from the compact JSON only in whitespace outside strings, so parsing it gives the value back; and it always returns.", "quantifier": "all compact JSON texts, of any length and alphabet", "why_tests_cant": "Whether it loops depends on which byte sits at position 31 of some 32-byte block, and corruption needs non-ASCII text; tests print one small ASCII object.", "anchors": ["src/utils/json_simd.rs:113-183", "src/simd.rs"]}
{"id": "C118", "title": "Fast serialization never refuses a value", "statement": "serialize_json_fast returns exactly the bytes serde_json::to_vec produces, for every value that serializes.", "quantifier": "all serialized texts of any length", "why_tests_cant": "The UTF-8 check on the output depends on where multi-byte characters fall relative to 32-byte blocks; tests serialize short ASCII values.", "anchors": ["src/utils/json_simd.rs:79-96"]}
{"id": "C119", "title": "File completion lists the matching entries", "statement": "FileCompletable returns the entries of the directory the typed text names whose name starts with the typed last component (and has an allowed extension or is a directory), each once, sorted; it never lists anything outside the configured base directory.", "quantifier": "all directory contents, base directories, extension filters and typed texts", "why_tests_cant": "Behaviour depends on how std::path splits the typed text (trailing '.', '..', slashes, absolute paths); tests try a couple of prefixes.", "anchors": ["src/types/completable.rs: FileCompletable::complete"]}
{"id": "C120", "title": "Connection back-off respects the maximum delay", "statement": "Between connection attempts the WebSocket client waits the configured delay doubled each time and never longer than the configured maximum.", "quantifier": "all delays, maxima and attempt numbers", "why_tests_cant": "The bound is over all attempts and all settings, including settings where the first delay exceeds the maximum; tests do not measure sleeps.", "anchors": ["src/shared/websocket.rs:100-126"]}
{"id": "C121", "title": "Discovery retries exactly the transient errors and trusts only the issuer it asked", "statement": "OIDC discovery asks <issuer>/.well-known/openid-configuration, retries exactly network and server errors, and returns only metadata whose issuer is the one asked for.", "quantifier": "all error texts, issuers and answers", "why_tests_cant": "The retry decision is a substring test on error texts that quote addresses; every text matters.", "anchors": ["src/client/auth.rs:136-214"]}
{"id": "C122", "title": "Session and protocol-version headers follow the server's answers", "statement": "After the server has assigned a session id, every later request of the streamable HTTP client carries the latest assigned id; the protocol version likewise.", "quantifier": "all sequences of sends, answers and stream events", "why_tests_cant": "Depends on the whole history of answers.", "anchors": ["src/shared/streamable_http.rs:215-330"]}
{"id": "C123", "title": "Messages streamed by the server are delivered", "statement": "Every message the server sends on an event stream is delivered to receive once, in order, as it arrives.", "quantifier": "all streams, chunkings and interleavings with other operations", "why_tests_cant": "Streams may break or be replaced at any point; tests use complete short streams.", "anchors": ["src/shared/streamable_http.rs:260-477"]}
{"id": "C124", "title": "The client opens the stream for server messages", "statement": "After initialization is accepted the streamable HTTP client opens the GET stream on which the server sends its own requests and notifications.", "quantifier": "all sequences of operations", "why_tests_cant": "The branch that opens it is guarded by a condition on answers to particular messages; all answer sequences matter.", "anchors": ["src/shared/streamable_http.rs:330-420"]}
{"id": "C125", "title": "Resumption uses the last event id seen", "statement": "The last event id the streamable HTTP client keeps is that of the latest event received on any stream.", "quantifier": "all sequences of stream events", "why_tests_cant": "Depends on the whole history.", "anchors": ["src/shared/streamable_http.rs:260-330"]}
{"id": "C126", "title": "The HTTP client accepts notifications and sends the configured headers", "statement": "Sending a message over the HTTP transport succeeds if the server accepts it (any 2xx status; notifications are answered 202 without body), and every request carries the configured headers.", "quantifier": "all messages, configurations and answers", "why_tests_cant": "Tests have no server answering 202 and never look at the headers.", "anchors": ["src/shared/http.rs:182-234", "src/shared/http.rs: HttpConfig"]}
{"id": "C127", "title": "Sending over HTTP does not block on unread answers", "statement": "send returns once the server has answered; answers are received in the order of the sends.", "quantifier": "all sequences of sends and receives", "why_tests_cant": "The queue has 100 places: only the 101st unread answer shows the difference.", "anchors": ["src/shared/http.rs:50-97", "src/shared/http.rs:182-234"]}
{"id": "C128", "title": "The WebSocket client knows whether it is connected", "statement": "is_connected is true exactly while a connection is established: false before connect, after close, and once the peer or the network has ended it.", "quantifier": "all sequences of operations and connection events", "why_tests_cant": "Depends on when the peer leaves relative to the program's calls.", "anchors": ["src/shared/websocket.rs:128-278"]}
{"id": "C129", "title": "The WebSocket client receives exactly the peer's messages in order", "statement": "receive returns the messages of the text frames the server sent, each once and in order.", "quantifier": "all sequences of frames and operations", "why_tests_cant": "All interleavings of frames and calls.", "anchors": ["src/shared/websocket.rs:128-262"]}
{"id": "C130", "title": "The WebSocket server writes each message to the connection it was sent on", "statement": "A message for which send returned Ok is written, in order and once, on the connection current at the time of the send and on no other.", "quantifier": "all schedules of accepts, sends, writer steps, frames and closes", "why_tests_cant": "Writer tasks outlive the connection they belong to; tests have one connection.", "anchors": ["src/server/transport/websocket.rs:81-245"]}
{"id": "C131", "title": "The WebSocket server delivers every message of a connection", "statement": "receive returns the messages of the text frames that arrived, each once and in order, also when another client connects; is_connected tells whether the peer is there.", "quantifier": "all schedules", "why_tests_cant": "Depends on when a second client connects relative to receive.", "anchors": ["src/server/transport/websocket.rs:81-245"]}
{"id": "C132", "title": "Streamed messages do not depend on how the network cuts the body", "statement": "The messages the HTTP transport receives on an event stream are those of the bytes the server wrote, whatever the sizes of the frames in which they arrive.", "quantifier": "all bodies and all ways of cutting them into frames", "why_tests_cant": "The cut points are chosen by the network; the failing ones lie inside a multi-byte character, which tests with ASCII bodies never hit.", "anchors": ["src/shared/http.rs:98-180"]}
{"id": "C133", "title": "The HTTP transport knows whether a stream is being read, and close ends it", "statement": "is_connected is true exactly while an event stream is being read; after close no stream is read any more.", "quantifier": "all histories of streams opened, started, ended, failed and closed", "why_tests_cant": "Depends on the order in which several tasks end and on failures of a task; tests never open two streams.", "anchors": ["src/shared/http.rs:98-180", "src/shared/http.rs:236-264"]}
{"id": "C134", "title": "Messages of a stream are received in order, none lost or duplicated", "statement": "What receive returned and what waits for it is exactly what the stream contained and the posts were answered, in order per source, and never more than a hundred messages wait.", "quantifier": "all interleavings of frames of any number of streams, answers to posts and receives", "why_tests_cant": "All interleavings of several reader tasks with a bounded queue.", "anchors": ["src/shared/http.rs:50-234"]}
{"id": "C135", "title": "HTTP: a session is initialized exactly once", "statement": "An initialize request naming an existing session is accepted until an initialization of the session has been answered and refused with 400, changing nothing, afterwards.", "quantifier": "all states, histories and interleavings of requests", "why_tests_cant": "Depends on everything that happened to the session since it was created, including concurrent requests.", "anchors": ["src/server/streamable_http_server.rs:351-395", "src/server/streamable_http_server.rs:448-460"]}
{"id": "C136", "title": "HTTP: every response carries the negotiated protocol version", "statement": "The answer to initialize and to every later request of the client carries the protocol version that was negotiated.", "quantifier": "all histories", "why_tests_cant": "The version travels through the session table; other sessions and concurrent requests intervene.", "anchors": ["src/server/streamable_http_server.rs:612-667"]}
{"id": "C137", "title": "HTTP: DELETE ends exactly the session it names", "statement": "A DELETE is answered 200 exactly if it names an existing session; that session and no other is gone afterwards and its stream gets nothing more; otherwise 404 and nothing changes.", "quantifier": "all histories and header values", "why_tests_cant": "All interleavings with requests in progress matter.", "anchors": ["src/server/streamable_http_server.rs:797-833"]}
{"id": "C138", "title": "HTTP: session callbacks are called once per session", "statement": "on_session_initialized is called exactly once for every session that comes into being, on_session_closed exactly once when it is deleted, and never for anything that was not a session.", "quantifier": "all histories", "why_tests_cant": "A counting property over unbounded histories and overlapping requests.", "anchors": ["src/server/streamable_http_server.rs:386-388", "src/server/streamable_http_server.rs:709-711", "src/server/streamable_http_server.rs:797-833"]}
{"id": "C139", "title": "The debouncer's statistics count what is waiting", "statement": "NotificationDebouncer::stats reports the number of keys with something waiting, the number of submissions for them since each was last sent, and the age of the oldest of them.", "quantifier": "all histories of submissions, rounds and flushes", "why_tests_cant": "The count of a key depends on every earlier submission and on which rounds sent it.", "anchors": ["src/server/notification_debouncer.rs:137-194"]}
{"id": "C140", "title": "The message batcher's memory is bounded and adding waits only behind unread batches", "statement": "At most 100 batches are unread; add waits exactly when its message completes a batch while 100 batches are unread, and a batch can be lost by an abandoned call only in that situation.", "quantifier": "all interleavings of callers, timer and reader", "why_tests_cant": "Needs every schedule of an unbounded number of callers.", "anchors": ["src/utils/batching.rs:76-130", "src/utils/batching.rs:160-177"]}
{"id": "C141", "title": "Reconnection statistics count what happened", "statement": "ReconnectManager::stats reports the calls of on_connecting, the calls of on_connected, the failures since retries were last forgiven and the failures since the last success or reset; reset, documented to reset all counters, sets all four to zero.", "quantifier": "all histories of calls and all configurations", "why_tests_cant": "Every number depends on the whole history, including how long earlier connections lasted.", "anchors": ["src/shared/reconnect.rs:290-415"]}
{"id": "C142", "title": "The guard of a lost connection never makes the manager forget a newer connection", "statement": "While a connection made through the manager is alive, should_reconnect is false, whatever guards of earlier connections are dropped and whenever their reports are processed.", "quantifier": "all interleavings of connecting, dropping guards and the tasks that report them", "why_tests_cant": "The report is sent by a spawned task, so the failing order depends on the scheduler.", "anchors": ["src/shared/reconnect.rs:420-460", "src/shared/reconnect.rs:215-260"]}
{"id": "C143", "title": "The default recovery policy bounds calls and waits per kind of error", "statement": "With the default policy a failing operation is called at most four times for internal errors, three times for invalid requests and once for every other error, with waits of 100, 200, 400 ms and 500, 500 ms; the last error is returned; a strategy added for a code applies to that code only.", "quantifier": "all operations, errors and strategies", "why_tests_cant": "Quantifies over every operation behaviour and error code.", "anchors": ["src/error/recovery.rs:128-173", "src/error/recovery.rs:458-608"]}
{"id": "C144", "title": "Resetting the event-stream parser forgets the stream but not the last event id", "statement": "After reset, every text gives the events a fresh parser gives, whatever was read before, except that events before the first id of the new stream carry the last id seen; last_event_id is the last id of everything read.", "quantifier": "all parser states and all later texts", "why_tests_cant": "The state left behind by an interrupted stream is arbitrary: half a line, half an event, an id without its event.", "anchors": ["src/shared/sse_parser.rs:169-278"]}
{"id": "C145", "title": "The HTTP client transport hands out every answer once and in order", "statement": "The messages returned by receive, followed by those not yet received, are the answers of the sends that returned Ok, in order, each exactly once; at most 100 wait.", "quantifier": "all programs of sends and receives and all server answers", "why_tests_cant": "All interleavings of sends, failures, full queues and receives.", "anchors": ["src/shared/http.rs:71-260"]}
{"id": "C146", "title": "The WebSocket server answers pings", "statement": "Every ping that arrives on a connection while its tasks run is answered once, in order and with its payload; the next accepted write of a pong is the oldest one waiting.", "quantifier": "all interleavings of connections, frames, sends and writes", "why_tests_cant": "Depends on all interleavings of reader and writer tasks of several connections.", "anchors": ["src/server/transport/websocket.rs:105-196"]}
{"id": "C147", "title": "An unreadable message on standard input costs no other message", "statement": "For every stream made of messages, header blocks without a length and blocks with a line that is not UTF-8, in any order, each receive answers one of them with its message or its error, and reading goes on right behind it.", "quantifier": "all such streams of any length, with any other headers", "why_tests_cant": "The position after an error depends on everything read before it; tests try a few malformed inputs.", "anchors": ["src/shared/stdio.rs:82-90", "src/shared/stdio.rs:166-264"]}
{"id": "C148", "title": "Abandoning a receive on standard input loses no message", "statement": "If a caller drops a receive that still waits (a timeout around a client call), the message that was arriving is returned by the next receive.", "quantifier": "all points at which the receive is dropped and all messages", "why_tests_cant": "The outcome depends on how many bytes had arrived when the future was dropped.", "anchors": ["src/shared/stdio.rs:82-90", "src/shared/stdio.rs:166-215"]}
{"id": "C149", "title": "The streamable HTTP client delivers the messages of a JSON answer at once", "statement": "The messages of a successful JSON answer, single or batch, are queued when the answer arrives, all and in order; apart from the end of an open stream nothing else adds messages.", "quantifier": "all states, all answers and all steps", "why_tests_cant": "All combinations of status, content type and body with any state of the transport.", "anchors": ["src/shared/streamable_http.rs:344-430"]}
{"id": "C150", "title": "Only JSON objects are messages", "statement": "A JSON value that is no object (a scalar, an array, a JSON-RPC batch) is never taken for a message, by parse_message or by the streamable HTTP transport.", "quantifier": "all JSON values", "why_tests_cant": "Untagged decoding tries every variant, and derived structs also read arrays positionally: all values have to be considered.", "anchors": ["src/shared/stdio.rs:218-264", "src/shared/transport.rs:64-78", "src/server/streamable_http_server.rs: handle_post_request"]}
{"id": "C151", "title": "Messages survive the WebAssembly WebSocket transport", "statement": "A message sent with WasmWebSocketTransport and received by the same kind of transport is the message that was sent.", "quantifier": "all messages", "why_tests_cant": "Untagged decoding guesses the kind of a message from its fields; every message has to be considered.", "anchors": ["src/shared/wasm_websocket.rs:125-145", "src/shared/wasm_websocket.rs:185-230"]}
{"id": "C152", "title": "The WebAssembly WebSocket transport and the other transports understand each other", "statement": "What one side sends, WasmWebSocketTransport or a transport using serialize_message, the other side receives as the same message.", "quantifier": "all messages, both directions", "why_tests_cant": "Two independent pairs of encoders and decoders have to agree on every message.", "anchors": ["src/shared/wasm_websocket.rs:185-230", "src/shared/stdio.rs:148-264"]}
{"id": "C153", "title": "Connecting the WebAssembly WebSocket waits at most ten seconds and reports the outcome", "statement": "wait_for_open returns Ok iff the socket is seen open at one of its looks before it is seen closing, and gives up after one hundred waits.", "quantifier": "all histories of the socket's ready state", "why_tests_cant": "The state changes at any time between looks.", "anchors": ["src/shared/wasm_websocket.rs:159-183"]}
{"id": "C154", "title": "A WebAssembly WebSocket delivers what it received, in order, and reports its end", "statement": "receive returns the messages of the socket in the order of arrival, and an error once the connection has ended and they are used up.", "quantifier": "all histories of socket events and receive calls", "why_tests_cant": "History property, and a wait that never ends cannot be observed by a test.", "anchors": ["src/shared/wasm_websocket.rs:58-218"]}
{"id": "C155", "title": "The processing times BatchProcessor reports are those of its batches", "statement": "avg_processing_time_ms is the mean duration of the batches since the last reset, max_processing_time_ms the longest; the average is never above the maximum.", "quantifier": "all histories of batches and resets", "why_tests_cant": "History property of a running average.", "anchors": ["src/utils/parallel_batch.rs:404-459"]}
{"id": "C156", "title": "The rate-limited processor spaces its requests", "statement": "A rate_limited_processor for n requests per second starts at most n of them per second, for every limit, and answers each request.", "quantifier": "all limits and batches", "why_tests_cant": "The interval is computed from the limit with integer division; boundary limits are rare.", "anchors": ["src/utils/parallel_batch.rs:490-535"]}
{"id": "C157", "title": "An elicitation request is what its builder was told", "statement": "Each property of the built request is the argument of the last call that set it, the validation is exactly what was asked for in any order, and the request reaches the other side as built.", "quantifier": "all chains of builder calls", "why_tests_cant": "The five validating methods each have two branches, depending on the calls before: chains of any length and order.", "anchors": ["src/types/elicitation.rs:227-401"]}
{"id": "C158", "title": "The middlewares of the library do what they are made for and nothing else", "statement": "LoggingMiddleware logs without changing anything and, below TRACE, without showing more of a request than its method; AuthMiddleware adds its token to every request and never logs it; RetryMiddleware repeats failed requests; none of them changes what the other middlewares of a chain see.", "quantifier": "all chains of library and program middlewares, all messages", "why_tests_cant": "Transparency speaks about every chain and every message; secrecy compares pairs of runs.", "anchors": ["src/shared/middleware.rs:235-403"]}
{"id": "C159", "title": "A token request says what the caller said", "statement": "A token endpoint reads from the requests of TokenExchangeClient exactly the grant, code, client, redirect URI, verifier, refresh token and scope the caller gave, whatever characters they contain; the secret is in the Authorization header only and is read from it together with the client id; the library's own provider accepts the request exactly if it matches the authorization.", "quantifier": "all codes, tokens, client ids, secrets, URIs, verifiers and scopes", "why_tests_cant": "Escaping has to be right for every character; the composition with the provider ranges over all its states.", "anchors": ["src/client/auth.rs:324-352", "src/client/auth.rs:378-404", "src/server/auth/oauth2.rs:249-291", "src/server/auth/oauth2.rs:531-601"]}
{"id": "C160", "title": "A token response is read as it was sent", "statement": "TokenExchangeClient reads from the JSON of an AccessToken the access token, its type, lifetime, refresh token and scope the server put into it, whatever additional members it has.", "quantifier": "all tokens and additional members", "why_tests_cant": "Additional members may have any name.", "anchors": ["src/client/auth.rs:246-265", "src/server/auth/oauth2.rs:106-129", "src/server/auth/oauth2.rs:632-639"]}
{"id": "C161", "title": "A token request succeeds exactly on a successful, readable answer", "statement": "exchange_code and refresh_token return a token iff the request is answered with a 2xx status and a token response, and the error code tells apart a failed request, a refusal (with its text) and an unreadable answer.", "quantifier": "all outcomes of the HTTP request", "why_tests_cant": "Decision over every status and body.", "anchors": ["src/client/auth.rs:354-374", "src/client/auth.rs:406-426"]}
{"id": "C162", "title": "A stream built call by call is read back as its events", "statement": "The text that SseStream builds from a chain of calls is read back by SseParser as exactly the events of the calls, in their order, whatever they contain; comments reach the wire and change nothing.", "quantifier": "all chains of calls", "why_tests_cant": "Chains are unbounded and every field may hold any text.", "anchors": ["src/shared/sse_parser.rs:35-90", "src/shared/sse_parser.rs:309-349"]}
{"id": "C163", "title": "Log entries carry the context of their own code", "statement": "Every entry written by a task carries the context of the innermost RequestContext::run around it in that task, or none outside of any, whatever other tasks run on the same threads and however their polls interleave; between polls no thread has a context.", "quantifier": "all programs of tasks, numbers of threads and schedules", "why_tests_cant": "Interleavings over worker threads are unbounded.", "anchors": ["src/shared/context.rs:12-15", "src/shared/context.rs:195-207", "src/shared/logging.rs:386-410"]}
{"id": "C164", "title": "The context follows the work", "statement": "An entry written by a task spawned inside RequestContext::run carries that context.", "quantifier": "all programs and schedules", "why_tests_cant": "A spawned task may run at any later time on any thread.", "anchors": ["src/shared/context.rs:195-207"]}
{"id": "C165", "title": "A log entry is what was given", "statement": "A LogEntry carries the level, message, fields and error given and the ids of the current context, and is issued at the severity its level names.", "quantifier": "all contexts, levels, messages and fields", "why_tests_cant": "Levels and field names are arbitrary strings.", "anchors": ["src/shared/logging.rs:335-437"]}
{"id": "C166", "title": "init_logging honours its configuration", "statement": "After init_logging exactly the events at or above the configured level are printed, in the configured format and with the configured timestamps, location, correlation ids and custom fields; a second call returns an error.", "quantifier": "all configurations and events", "why_tests_cant": "Combinations of settings and events are unbounded.", "anchors": ["src/shared/logging.rs:21-65", "src/shared/logging.rs:165-192"]}
{"id": "C167", "title": "Lines written in the scope of a correlated logger carry its ids", "statement": "Every line printed in the scope of a CorrelatedLogger carries the request, trace, span, user and session ids of the context the logger was made from.", "quantifier": "all contexts, configurations and events", "why_tests_cant": "Decision over every configuration and event.", "anchors": ["src/shared/logging.rs:259-331"]}
{"id": "C168", "title": "The WebAssembly channel is a bounded channel", "statement": "A value sent through the WebAssembly channel is received exactly once and in order; send waits while the buffer is full, recv waits for a value and returns None only when no sender is left.", "quantifier": "all sequences of calls and buffer sizes", "why_tests_cant": "Histories of calls are unbounded.", "anchors": ["src/shared/runtime.rs:201-261"]}
{"id": "C169", "title": "WebAssembly sleep waits as long as asked", "statement": "The WebAssembly sleep ends after the duration given and not before.", "quantifier": "all durations", "why_tests_cant": "Durations range over all 64-bit numbers of seconds and nanoseconds.", "anchors": ["src/shared/runtime.rs:32-56"]}
{"id": "C170", "title": "A WebAssembly task handle gives the result of its task once", "statement": "spawn_blocking runs its function once, at once, and awaiting the handle gives its result.", "quantifier": "all functions and numbers of polls", "why_tests_cant": "The number of polls is unbounded.", "anchors": ["src/shared/runtime.rs:92-139"]}
{"id": "C171", "title": "A watcher built call by call watches what was asked for", "statement": "ResourceWatcherBuilder builds a watcher with the last base directory, debounce and limit given and with all patterns given, which reports exactly the paths below the directory that match one of the patterns given and none of those ignored; it fails exactly without a base directory.", "quantifier": "all chains of calls, paths and glob matchers", "why_tests_cant": "Chains of calls and paths are unbounded.", "anchors": ["src/server/resource_watcher.rs:30-58", "src/server/resource_watcher.rs:361-450"]}
{"id": "C172", "title": "The limits configured for a WebSocket server are in force", "statement": "A WebSocket server takes exactly the messages within the frame size, message size and masking set in its configuration.", "quantifier": "all configurations and messages", "why_tests_cant": "Sizes are unbounded; a test would have to send every size.", "anchors": ["src/server/transport/websocket.rs:14-36", "src/server/transport/websocket.rs:95-98", "src/server/transport/websocket.rs:264-304"]}
{"id": "C173", "title": "Expired sessions are removed in time", "statement": "While session_cleanup_task runs, every session is gone at most one interval after it expired, and no session is removed by it before it expires.", "quantifier": "all intervals, histories of calls and expiry times", "why_tests_cant": "Quantifies over every time of expiry relative to the ticks.", "anchors": ["src/shared/session.rs:291-305", "src/shared/session.rs:243-265"]}
{"id": "C174", "title": "A URI template survives JSON", "statement": "A UriTemplate written as JSON and read back is equal to the one written; exactly the strings accepted by UriTemplate::new are read.", "quantifier": "all templates and JSON values", "why_tests_cant": "Templates are arbitrary strings.", "anchors": ["src/shared/uri_template.rs:20-49", "src/shared/uri_template.rs:119-127", "src/shared/uri_template.rs:552-556"]}
{"id": "C175", "title": "The provider's metadata tells what it does", "statement": "The endpoints in the metadata are distinct addresses below the base url; the scopes, challenge methods, grant types, response types and client authentication methods advertised are exactly those the provider accepts.", "quantifier": "all base urls, registrations and requests", "why_tests_cant": "Quantifies over all registrations and requests.", "anchors": ["src/server/auth/oauth2.rs:397-442", "src/server/auth/oauth2.rs:468-500", "src/server/auth/oauth2.rs:708-728"]}
{"id": "C176", "title": "Clients are told when the roots change", "statement": "Every registration and removal of a root sends one list-changed notification to the notification sender set last, for a server into its notification channel.", "quantifier": "all histories of calls", "why_tests_cant": "Histories of registrations, removals and senders are unbounded.", "anchors": ["src/server/roots.rs:70-143", "src/server/roots.rs:176-181", "src/server/mod.rs:383-397", "src/server/mod.rs:816-831"]}
{"id": "C177", "title": "Functions marked #[tool] get handlers of their own", "statement": "Different functions marked #[tool] get handler types with different names, and to_snake_case gives back the name that to_pascal_case was given.", "quantifier": "all function names", "why_tests_cant": "Names are arbitrary; a test fixes a few.", "anchors": ["pmcp-macros/src/tool.rs:67-71", "pmcp-macros/src/tool.rs:251-261", "pmcp-macros/src/utils.rs:59-90"]}
{"id": "C178", "title": "A macro tool is called with the arguments given", "statement": "The generated handler calls the function exactly if every required parameter is given and can be read, with each parameter the value given under its name; a value that cannot be read is refused, naming the parameter.", "quantifier": "all functions, parameter lists and arguments", "why_tests_cant": "Parameter lists and arguments are unbounded.", "anchors": ["pmcp-macros/src/tool.rs:93-108", "pmcp-macros/src/tool.rs:137-166", "pmcp-macros/src/tool.rs:177-205"]}
{"id": "C179", "title": "A macro tool's schema describes its arguments", "statement": "Arguments that meet the generated input schema are accepted by the generated handler.", "quantifier": "all parameter lists", "why_tests_cant": "Quantifies over every function.", "anchors": ["pmcp-macros/src/tool.rs:120-129", "pmcp-macros/src/tool_router.rs:175-185"]}
{"id": "C180", "title": "A macro tool answers what its function returned", "statement": "A value returned by the function is the answer, and an error returned by the function is answered as an error with its text.", "quantifier": "all functions and return types", "why_tests_cant": "Return types and values are arbitrary.", "anchors": ["pmcp-macros/src/tool.rs:93-108", "pmcp-macros/src/tool.rs:208-228", "pmcp-macros/src/tool.rs:241-248"]}
{"id": "C181", "title": "A router tool has the name and description written", "statement": "The tool listed for a method marked #[tool(name = .., description = ..)] has that name and description, and without a name that of the method.", "quantifier": "all names, descriptions and positions in the attribute", "why_tests_cant": "Attribute texts are arbitrary strings.", "anchors": ["pmcp-macros/src/tool_router.rs:98-166"]}
{"id": "C182", "title": "Every tool a router lists can be called", "statement": "handle_tool calls the method of the tool named, and refuses exactly the names not listed.", "quantifier": "all lists of methods, names and arguments", "why_tests_cant": "Lists of methods are unbounded.", "anchors": ["pmcp-macros/src/tool_router.rs:98-121", "pmcp-macros/src/tool_router.rs:169-236", "pmcp-macros/src/tool_router.rs:250-262"]}
{"id": "C183", "title": "Requests a client sends are valid MCP requests", "statement": "Every request a client sends over stdio, WebSocket or HTTP is a request of the published protocol schema (version 2025-06-18, the crate's latest).", "quantifier": "all client requests and ids", "why_tests_cant": "Message contents are arbitrary values; a test compares a handful of samples with the schema.", "anchors": ["src/types/protocol.rs:526-577", "src/shared/protocol_helpers.rs:64-80", "src/shared/protocol_helpers.rs:146-202", "src/shared/stdio.rs:115-216", "README.md:33"]}
{"id": "C184", "title": "Requests a server sends are valid MCP requests", "statement": "Every request a server sends to its client is a request of the published protocol schema.", "quantifier": "all server requests and ids", "why_tests_cant": "Message contents are arbitrary values; a test compares a handful of samples with the schema.", "anchors": ["src/types/protocol.rs:465-520", "src/types/protocol.rs:580-592", "src/shared/protocol_helpers.rs:64-80"]}
{"id": "C185", "title": "Notifications sent are valid MCP notifications", "statement": "Every notification a client or a server sends is a notification of the published protocol schema for that side.", "quantifier": "all notifications", "why_tests_cant": "Message contents are arbitrary values; a test compares a handful of samples with the schema.", "anchors": ["src/types/protocol.rs:683-788", "src/shared/protocol_helpers.rs:83-108", "src/shared/stdio.rs:115-216"]}
{"id": "C186", "title": "Streamable HTTP sends JSON-RPC messages", "statement": "What the streamable HTTP transport sends is a JSON-RPC message of the published protocol schema.", "quantifier": "all messages", "why_tests_cant": "Message contents are arbitrary values; a test compares a handful of samples with the schema.", "anchors": ["src/shared/transport.rs:64-78", "src/shared/streamable_http.rs:318-395"]}
{"id": "C187", "title": "Results are valid MCP results", "statement": "The JSON form of every result type is the result the published protocol schema has for it.", "quantifier": "all results of every type", "why_tests_cant": "Message contents are arbitrary values; a test compares a handful of samples with the schema.", "anchors": ["src/types/protocol.rs:58-75", "src/types/protocol.rs:98-112", "src/types/protocol.rs:126-173", "src/types/protocol.rs:196-262", "src/types/protocol.rs:312-370", "src/types/protocol.rs:427-446", "src/types/protocol.rs:640-680"]}
{"id": "C188", "title": "The server's answers are valid MCP answers", "statement": "The server answers every request of the schema with an error, or with the result the schema has for that request.", "quantifier": "all servers, handlers, states and requests", "why_tests_cant": "Handlers and requests are arbitrary.", "anchors": ["src/server/mod.rs:477-775"]}
{"id": "C189", "title": "A server understands every valid client request", "statement": "Every client request of the published protocol schema is parsed, and the members that carry its meaning have the values sent.", "quantifier": "all JSON objects valid as client requests", "why_tests_cant": "Valid messages may hold any members and values.", "anchors": ["src/shared/stdio.rs:218-264", "src/shared/protocol_helpers.rs:11-62", "src/types/protocol.rs:526-577"]}
{"id": "C190", "title": "A client understands every valid server request", "statement": "Every server request of the published protocol schema is parsed by the client's transport, with the meaning of what was sent.", "quantifier": "all JSON objects valid as server requests", "why_tests_cant": "Valid messages may hold any members and values; a test fixes a few.", "anchors": ["src/shared/stdio.rs:218-264", "src/shared/protocol_helpers.rs:11-28", "src/types/protocol.rs:580-621"]}
{"id": "C191", "title": "Valid notifications are understood", "statement": "Every notification of the published protocol schema, of a client or a server, is parsed, with the meaning of what was sent.", "quantifier": "all JSON objects valid as notifications", "why_tests_cant": "Valid messages may hold any members and values; a test fixes a few.", "anchors": ["src/shared/protocol_helpers.rs:30-62", "src/types/protocol.rs:683-801"]}
{"id": "C192", "title": "Valid responses are understood", "statement": "Every response and error response of the published protocol schema is parsed, with the id, result, code and message it has.", "quantifier": "all JSON objects valid as responses", "why_tests_cant": "Valid messages may hold any members and values; a test fixes a few.", "anchors": ["src/types/jsonrpc.rs:204-223", "src/types/jsonrpc.rs:295-304", "src/shared/stdio.rs:218-264"]}
{"id": "C193", "title": "A client reads the results of a conforming server", "statement": "Every result of the published protocol schema is read by the client as the result type it waits for.", "quantifier": "all JSON values valid as results", "why_tests_cant": "Valid messages may hold any members and values; a test fixes a few.", "anchors": ["src/types/protocol.rs:61-73", "src/types/protocol.rs:91-173", "src/types/protocol.rs:188-262", "src/types/protocol.rs:299-370", "src/types/protocol.rs:427-470", "src/types/protocol.rs:627-652", "src/types/capabilities.rs:56-86"]}
{"id": "C194", "title": "The streamable HTTP transport understands valid messages", "statement": "Every message of the published protocol schema is read by the streamable HTTP transport.", "quantifier": "all JSON objects valid as messages", "why_tests_cant": "Valid messages may hold any members and values; a test fixes a few.", "anchors": ["src/shared/transport.rs:64-78", "src/server/streamable_http_server.rs:550-565"]}
{"id": "C195", "title": "A client can work with any conforming server", "statement": "If a server's answers are valid under the published protocol schema, a client connects to it, sends exactly the requests whose capability the server announced, and returns the server's results and errors.", "quantifier": "all valid answers to initialize, all requests, all valid results and errors", "why_tests_cant": "The server is any program that keeps to the schema; tests use this crate's own server.", "anchors": ["src/client/mod.rs:244-296", "src/client/mod.rs:314-1060", "src/client/mod.rs:1279-1348", "src/shared/stdio.rs:218-264", "src/types/protocol.rs:61-73"]}
{"id": "C196", "title": "A caller never waits for a request that can no longer be answered", "statement": "Awaiting the receiver of register_request yields the first response for the request on its transport, fails once the request was cancelled or its id registered anew, and waits otherwise.", "quantifier": "all histories of calls before and after the registration", "why_tests_cant": "The fate of each waiter depends on every later call; a missed sender leaves a caller hanging, which no finite test observes.", "anchors": ["src/shared/protocol.rs:173-203", "src/shared/protocol.rs:248-274"]}
{"id": "C197", "title": "Session expiry and callbacks are right under concurrency", "statement": "Under every interleaving, a session is accepted only until it expires, is refused or reported as expired only afterwards, and each session's end is reported exactly once.", "quantifier": "all schedules of the atomic map operations of any number of tasks", "why_tests_cant": "Races between lookups, updates and sweeps need particular schedules.", "anchors": ["src/shared/session.rs:141-206", "src/shared/session.rs:233-272"]}
{"id": "C198", "title": "An expired resumption token is refused", "statement": "resume_from_token accepts exactly the tokens issued by the store whose expires_at has not passed.", "quantifier": "all histories of recording, issuing and resuming, all times", "why_tests_cant": "Expiry is 24 hours after the issue; acceptance depends on the whole history.", "anchors": ["src/shared/event_store.rs:189-219", "src/shared/event_store.rs:296-310"]}
{"id": "C199", "title": "Messages recorded by several tasks are numbered in the order they are stored", "statement": "Under every interleaving of recordings, sequence numbers are unique and increase in the order of the store.", "quantifier": "all schedules of the critical sections of any number of recordings", "why_tests_cant": "The number is drawn and the event stored in separate critical sections; only some schedules swap them.", "anchors": ["src/shared/event_store.rs:249-288"]}
{"id": "C200", "title": "One manager makes one connection attempt at a time, within its limit", "statement": "However many tasks call reconnect_with on one ReconnectManager, at most one attempt is running, the state says what happened, and no more than max_retries attempts follow each other without success.", "quantifier": "all schedules of the lock-protected steps of any number of calls", "why_tests_cant": "The check and the attempt are separate critical sections; only some schedules let two callers pass the check.", "anchors": ["src/shared/reconnect.rs:361-394", "src/shared/reconnect.rs:209-247"]}
{"id": "C201", "title": "Clones of a client agree on the connection", "statement": "Once the connection is initialized through one clone, every clone knows it: requests work through each, and none initializes again.", "quantifier": "all histories of cloning and calling any clone", "why_tests_cant": "Depends on the order of cloning and initializing over whole histories; tests use one handle.", "anchors": ["src/client/mod.rs:1437-1453", "src/client/mod.rs:244-296"]}
{"id": "C202", "title": "The options of the client builder take effect", "statement": "Without enforce_strict_capabilities requests for capabilities not announced are sent; notifications named in debounced_notifications are debounced.", "quantifier": "all sequences of builder methods and all later calls", "why_tests_cant": "That an option influences nothing is a statement about all executions.", "anchors": ["src/client/mod.rs:1390-1435", "src/client/mod.rs:1279-1312", "src/shared/protocol.rs:15-22"]}
{"id": "C203", "title": "Requests to the HTTP server do not block each other", "statement": "Any number of requests handled at the same time by the streamable HTTP server with an in-memory event store all complete.", "quantifier": "all mixes of requests and all schedules of their lock operations", "why_tests_cant": "A deadlock needs one of very many interleavings of two requests; tests never meet it by chance.", "anchors": ["src/server/streamable_http_server.rs:68-118", "src/server/streamable_http_server.rs:546-676", "src/server/streamable_http_server.rs:679-793"]}
{"id": "C204", "title": "Calls through the circuit breaker do not block each other", "statement": "Any number of calls at the same time through one RecoveryExecutor, or on its circuit breakers directly, all complete.", "quantifier": "all mixes of calls and all schedules of their lock operations", "why_tests_cant": "Absence of deadlock is a statement about all interleavings.", "anchors": ["src/error/recovery.rs:336-413", "src/error/recovery.rs:458-474", "src/error/recovery.rs:626-674"]}
{"id": "C205", "title": "The circuit breaker keeps its promise under overlapping calls", "statement": "However calls to one breaker overlap: as many failures as the threshold open it, and once open it refuses every request until the timeout has passed.", "quantifier": "all schedules in which each single read and write of the breaker is a step", "why_tests_cant": "The fields are written one after the other; only a schedule that falls between two writes shows a half-made change.", "anchors": ["src/error/recovery.rs:336-413"]}
{"id": "C206", "title": "Delivering notifications does not block the one who receives them", "statement": "Flushing debounced, batched or watched notifications completes, also when the receiver of the notifications calls the component that sends them.", "quantifier": "all numbers of notifications, capacities of the channel and schedules", "why_tests_cant": "Needs more notifications than the channel has room for and a receiver that calls back in the middle of a flush.", "anchors": ["src/server/notification_debouncer.rs:294-309", "src/server/notification_debouncer.rs:366-388", "src/server/resource_watcher.rs:147-164"]}
{"id": "C207", "title": "Batches are read as they were sent", "statement": "A request or batch of requests or responses written as JSON is read as the same; a batch with members that are notifications or broken still has its other members understood.", "quantifier": "all requests, responses, batches and JSON arrays", "why_tests_cant": "The readings of an array overlap (a batch, or one request in array form), and every mixture of members is possible.", "anchors": ["src/shared/batch.rs:12-29", "src/shared/batch.rs:33-74", "src/shared/batch.rs:88-92"]}
{"id": "C208", "title": "Authentication information survives its JSON form", "statement": "Authentication information written as JSON is read as the same, whatever its additional parameters; the header it offers and whether authentication is needed follow from its scheme.", "quantifier": "all authentication information", "why_tests_cant": "The additional parameters are merged into the same object; only particular names collide.", "anchors": ["src/types/auth.rs:6-38", "src/types/auth.rs:103-158", "src/types/auth.rs:187-342"]}
{"id": "C209", "title": "A client that authenticated is authenticated", "statement": "After a successful authenticate the server has been given the credentials and later requests are made with them.", "quantifier": "all clients, credentials and programs that use the client", "why_tests_cant": "Absence of any effect is a statement about all programs.", "anchors": ["src/client/mod.rs:1153-1182"]}
{"id": "C210", "title": "A client that waits for an answer can still send", "statement": "While one call of a client waits for its answer, other requests, progress reports and the cancellation of that very call are still sent, and every call returns once its answer has arrived.", "quantifier": "all numbers of concurrent calls and notifications and all schedules", "why_tests_cant": "Whether something can be sent depends on who holds the transport at that moment; tests make one call at a time.", "anchors": ["src/client/mod.rs:1212-1227", "src/client/mod.rs:1264-1267", "src/client/mod.rs:1315-1354"]}
{"id": "C211", "title": "Reloading a configuration puts exactly that configuration in place", "statement": "After reload_configuration the server has exactly the tools, prompts, resource handler and sampling handler of the configuration given, each as the builder was told last; a tool that is in the old and the new configuration can be called throughout; of two reloads at the same time one wins.", "quantifier": "all earlier registrations, all sequences of builder calls, all orders in which the maps are visited, all interleavings of reloads", "why_tests_cant": "The outcome depends on what was registered before and on how two reloads interleave; a test reloads one configuration into an empty server.", "anchors": ["src/server/dynamic.rs:288-313", "src/server/dynamic.rs:346-471"]}
{"id": "C212", "title": "A message waits in the batcher for at most max_wait_time", "statement": "Once its timer is started, MessageBatcher keeps no message in its buffer for longer than max_wait_time, and the timer ends with the batcher.", "quantifier": "all executions with time: all interleavings of calls, timer rounds, blocked sends and passing time, all wait times", "why_tests_cant": "A bound on the waiting time of every message in every schedule; a test waits once and looks at one message.", "anchors": ["src/utils/batching.rs:12-42", "src/utils/batching.rs:113-130", "src/utils/batching.rs:158-178"]}
{"id": "C213", "title": "A debounced notification is emitted its wait time after the last update", "statement": "MessageDebouncer takes a notification out to be sent exactly the wait time of its key (debounced_methods, else wait_time) after the last add for the key, neither earlier nor later.", "quantifier": "all executions with time: all interleavings of the sections of add, flush and the timer tasks, all wait times", "why_tests_cant": "Exact times in all schedules; a test can only wait for a while and look.", "anchors": ["src/utils/batching.rs:216-242", "src/utils/batching.rs:326-382", "src/utils/batching.rs:452-463"]}
{"id": "C214", "title": "Stopping the notification debouncer sends what is waiting, once", "statement": "After stop, everything submitted before to a started NotificationDebouncer has been sent exactly once, also when it is started again; nothing submitted is lost silently.", "quantifier": "all interleavings of submit, flush, start, stop, the rounds and the end of every flush task; all configurations", "why_tests_cant": "Which of several tasks flushes what depends on the schedule; a test sees one schedule and rarely stops or starts twice.", "anchors": ["src/server/notification_debouncer.rs:98-134", "src/server/notification_debouncer.rs:175-178", "src/server/notification_debouncer.rs:295-310"]}
{"id": "C215", "title": "Completable arguments and suggestions survive their JSON form", "statement": "A CompletableArgument, CompletionRequest, CompletionResponse or CompletionItem written as JSON is read back as it was, and a built argument is what its builder was told.", "quantifier": "all arguments, requests and suggestions, all sequences of builder calls", "why_tests_cant": "Additional data are flattened into the object beside the fields; only particular names collide.", "anchors": ["src/types/completable.rs:58-157", "src/types/completable.rs:396-464"]}
{"id": "C216", "title": "The event store of the HTTP server holds no more than the requests served", "statement": "The number of events the streamable HTTP server keeps is bounded by the number of requests its MCP server handled; a client that only opens streams does not make it grow.", "quantifier": "all histories of POST, GET and DELETE requests, deliveries and disconnections, any configuration, any generated ids", "why_tests_cant": "Growth over unboundedly many requests; a test makes a handful of requests and looks at their answers, not at what the store keeps.", "anchors": ["src/server/streamable_http_server.rs:57-118", "src/server/streamable_http_server.rs:739-777"]}
{"id": "C217", "title": "Every HTTP request is answered and every session id given out can be used", "statement": "The handlers of the streamable HTTP server end with an answer for every request, whatever the session id generator returns, and a client that sends back the session id it was given reaches its session.", "quantifier": "all histories of requests, all generators of session ids, all header values", "why_tests_cant": "The answer is lost only for session ids with particular characters; the tests use the default generator.", "anchors": ["src/server/streamable_http_server.rs:160-171", "src/server/streamable_http_server.rs:354-431", "src/server/streamable_http_server.rs:565-574", "src/server/streamable_http_server.rs:634-664", "src/server/streamable_http_server.rs:780-783"]}
{"id": "C218", "title": "A refresh token lives exactly as long as its access token, and dead credentials are forgotten", "statement": "A refresh token can be used exactly while the access token it was issued with is neither revoked nor refreshed; credentials that nothing accepts any more are removed from the provider.", "quantifier": "all interleavings of the methods of the in-memory OAuth provider with distinct generated tokens, all clocks", "why_tests_cant": "The state of the tables after arbitrary interleavings and after expiry is not visible in any answer a test can check.", "anchors": ["src/server/auth/oauth2.rs:502-706"]}
{"id": "C219", "title": "A client with the SDK's streamable HTTP transport works with the SDK's streamable HTTP server", "statement": "After initialize, every message the client sends is accepted within its session and every answer of the MCP server is received by the client; a client whose session is gone can start a new one; a stream the client opened brings the answers sent on it.", "quantifier": "all message sequences, all interleavings with other clients and the server's own work, all session ids and configurations", "why_tests_cant": "The two sides are tested apart; the joint behaviour depends on interleavings and on headers carried from one request to the next.", "anchors": ["src/shared/streamable_http.rs:191-477", "src/server/streamable_http_server.rs:288-501", "src/server/streamable_http_server.rs:546-833"]}
{"id": "C220", "title": "A resource watcher that is stopped and started again reports every change once", "statement": "Whenever start and stop are called, a change that reached the watcher is reported once, by one of its tasks, when it has rested for the debounce time; starting again loses no change, and the tasks of an earlier start end.", "quantifier": "all schedules of starts, stops, file events, and steps of all the tasks", "why_tests_cant": "The outcome depends on where the tasks of several starts are, and on how long a change rests in a channel between them.", "anchors": ["src/server/resource_watcher.rs:110-165", "src/server/resource_watcher.rs:186-246", "src/server/resource_watcher.rs:275-358"]}
{"id": "C221", "title": "Adding, removing and listing watched resources does not depend on the receiver of the notifications", "statement": "add_resource, remove_resource and get_resources take effect in the order they are called and return although notifications are not being received; a notification is sent only for a URI tracked at that moment.", "quantifier": "all schedules of calls, rounds and receives, all capacities of the channel and limits of resources", "why_tests_cant": "Needs a full channel at the moment of the call; the tests call the methods without notifications under way.", "anchors": ["src/server/resource_watcher.rs:144-163", "src/server/resource_watcher.rs:249-272"]}
{"id": "C222", "title": "The recovery policy treats an error by what went wrong", "statement": "A strategy added to the policy for an error code is applied to every error that means that code: protocol errors that carry it, time-outs for REQUEST_TIMEOUT, missing capabilities for UNSUPPORTED_CAPABILITY, failed authentication for AUTHENTICATION_REQUIRED, and errors a peer or a handler of a server raised with it.", "quantifier": "all errors, codes, policies and servers", "why_tests_cant": "Every kind of error and every 32-bit code has to be tried, alone and through a server.", "anchors": ["src/error/mod.rs:16-245", "src/error/recovery.rs:128-181", "src/error/recovery.rs:473-478", "src/server/mod.rs:598-615"]}
{"id": "C223", "title": "Errors keep their kind, code, data and text", "statement": "An error made by one of the constructors is of the kind its name promises; sending it to a peer, passing it through any number of servers or handing it to a recovery handler keeps its kind, code, data and text.", "quantifier": "all errors, constructors, numbers of hops and recovery handlers", "why_tests_cant": "The texts and codes are arbitrary, and so is the number of hops.", "anchors": ["src/error/mod.rs:295-306", "src/error/mod.rs:334-852", "src/types/jsonrpc.rs:294-341", "src/error/recovery.rs:183-234", "src/error/recovery.rs:609-624", "src/shared/http.rs:198-200"]}
{"id": "C224", "title": "The executor's breakers protect operations over many uses", "statement": "Over any sequence of uses of one executor the breaker of each operation opens after the configured number of failures of that operation, keeps the operation from being called until the time has passed, and closes only after the configured number of successes; operations do not disturb each other.", "quantifier": "all sequences of uses, operations, errors, policies and times", "why_tests_cant": "Depends on the whole sequence of earlier uses and their times.", "anchors": ["src/error/recovery.rs:417-421", "src/error/recovery.rs:458-521", "src/error/recovery.rs:626-674"]}
{"id": "C225", "title": "Handlers that share a state leave it as if they had run one after the other", "statement": "After process_batch_parallel_stateful the shared state and the answers are those of the answered requests handled one after the other in some order, each once; a request answered with a time-out has had no effect.", "quantifier": "all handlers, batches, limits, time-outs and schedules", "why_tests_cant": "The interleavings of the handlers and the moments of the time-outs are unboundedly many.", "anchors": ["src/utils/parallel_batch.rs:120-198", "src/utils/parallel_batch.rs:258-278"]}
{"id": "C226", "title": "fail_fast stops a batch at its first error", "statement": "With fail_fast set, no request of a batch is given to the handler after another one was answered with an error.", "quantifier": "all configurations, handlers, batches and schedules", "why_tests_cant": "Depends on which request fails first among all schedules.", "anchors": ["src/utils/parallel_batch.rs:49-68", "src/utils/parallel_batch.rs:120-198"]}
{"id": "C227", "title": "logging/setLevel takes effect", "statement": "After a server has answered logging/setLevel with success, the client is sent the program's log messages of that level and above, and none below.", "quantifier": "all servers, states, levels, sessions and histories of calls", "why_tests_cant": "The level has to be remembered over everything that follows; a test sees one session.", "anchors": ["src/server/mod.rs:580-584", "src/server/mod.rs:185-189", "src/server/mod.rs:383-396"]}
{"id": "C228", "title": "A running server answers in turn, and the client's notifications tell it something", "statement": "The responses a running server writes are those to the requests that arrived, in order, whatever the schedule of its tasks; a client's notifications/cancelled stops the request it names.", "quantifier": "all servers, message sequences and schedules of the reading and the notifying task", "why_tests_cant": "Quantifies over all interleavings and all positions of the notification.", "anchors": ["src/server/mod.rs:417-437", "src/server/mod.rs:455-485", "src/types/protocol.rs:701-709"]}
{"id": "C229", "title": "Server::run returns when the connection has ended", "statement": "When the transport has failed or closed, or a handler panicked, run returns (with the error), so that the program can end or serve again.", "quantifier": "all servers, sessions and schedules", "why_tests_cant": "That a future never completes is not observable in finite time.", "anchors": ["src/server/mod.rs:383-397", "src/server/mod.rs:417-437", "src/server/mod.rs:503-508"]}
{"id": "C230", "title": "Messages that are not of JSON-RPC 2.0 are refused", "statement": "A message whose member jsonrpc is not the string \"2.0\" (or is missing) is answered with an error or refused by the transport; it is never taken for a request, response or notification.", "quantifier": "all JSON values and all versions", "why_tests_cant": "The version is any string; a test tries one or two.", "anchors": ["src/shared/stdio.rs:218-264", "src/shared/protocol_helpers.rs:11-61", "src/types/jsonrpc.rs:140-149", "src/shared/transport.rs:64-78"]}
{"id": "C231", "title": "NotificationBatcher: how long notifications wait", "statement": "A notification added to a NotificationBatcher is sent within batch_timeout, and a batch that does not become full is collected for batch_timeout after its first notification.", "quantifier": "all batch sizes, timeouts, histories of add and flush, and schedules of the timeout tasks", "why_tests_cant": "Depends on tasks left over from earlier batches at any point of time.", "anchors": ["src/server/notification_debouncer.rs:313-390"]}
{"id": "C232", "title": "elicit_input ends within its timeout", "statement": "A call of ElicitationManager::elicit_input returns at most timeout_duration after it was made, with the answer, a cancellation or a timeout error.", "quantifier": "all capacities and states of the channel, timeouts, numbers of calls, and interleavings of calls, responses, cancellations and the receiver", "why_tests_cant": "That a future stays pending for any time is not observable by a test; needs all states of the channel.", "anchors": ["src/server/elicitation.rs:53-104", "src/server/elicitation.rs:129-171"]}
{"id": "C233", "title": "A client and a server connected by pipes do not stop each other", "statement": "Calls made by a client over stdio to a server that reads stdio and whose handlers return all end, whatever the sizes of the messages and the capacities of the pipes, however many calls are in progress or were given up.", "quantifier": "all pipe capacities, message sizes, numbers of calls and interleavings of the two sides, byte by byte", "why_tests_cant": "A deadlock depends on capacities, sizes and the schedule together.", "anchors": ["src/client/mod.rs:1315-1348", "src/shared/stdio.rs:70-101", "src/shared/stdio.rs:141-215", "src/server/mod.rs:415-486"]}
{"id": "C234", "title": "A send given up over stdio does not harm the messages sent later", "statement": "If a caller drops a send over stdio before it is complete (a timeout around a client call), the messages sent earlier and later are still received, in order, and a server on the other side goes on answering.", "quantifier": "all payloads, all places in the frame at which the send is dropped, all messages sent before and after", "why_tests_cant": "The outcome depends on how many bytes had been written when the future was dropped, and on what is sent afterwards.", "anchors": ["src/shared/stdio.rs:73-80", "src/shared/stdio.rs:142-163", "src/shared/stdio.rs:166-215", "src/server/mod.rs:415-437", "src/client/mod.rs:1315-1354"]}
{"id": "C235", "title": "A configured timeout bounds the wait", "statement": "A call over HttpTransport returns within HttpConfig.timeout and one over WebSocketTransport within WebSocketConfig.request_timeout, and the timeout error tells the configured time.", "quantifier": "all configured timeouts and all times at which the parts of an answer come", "why_tests_cant": "The wait is unbounded exactly for answers that come in parts; a test can only wait for so long.", "anchors": ["src/shared/http.rs:98-119", "src/shared/http.rs:182-234", "src/shared/websocket.rs:32-33", "src/shared/websocket.rs:257-262"]}
{"id": "C236", "title": "One call at a time over pipes always ends, with the response to it", "statement": "A client that makes one call at a time and gives none up, connected over pipes to a server that answers every request, gets for every call the response to that call, whatever the sizes of messages and pipes.", "quantifier": "all sizes of pipes and messages, all numbers of calls, all orders in which the two sides take turns", "why_tests_cant": "Whether the two sides can always go on depends on how bytes, full pipes and turns interleave.", "anchors": ["src/client/mod.rs:1315-1348", "src/shared/stdio.rs:70-101", "src/shared/stdio.rs:141-215", "src/server/mod.rs:415-486"]}
{"id": "C237", "title": "Every session of the streamable HTTP server belongs to somebody", "statement": "A session in the table of the streamable HTTP server is one whose id has been told to a client, or is about to be; the session of a client that goes away before it gets its answer is removed again.", "quantifier": "all histories of requests, answers and clients that go away at any await of a handler", "why_tests_cant": "The moment at which a handler is dropped, and everything that happens afterwards, is arbitrary.", "anchors": ["src/server/streamable_http_server.rs:354-395", "src/server/streamable_http_server.rs:609-667", "src/server/streamable_http_server.rs:679-795", "src/server/streamable_http_server.rs:798-833"]}
{"id": "C238", "title": "The event-stream parser keeps no more than the configured buffer", "statement": "Whatever is fed to the event-stream parser, in whatever pieces, what it keeps is the unfinished line and the unfinished event, and no more than the maximum buffer size.", "quantifier": "all texts, all ways of cutting them into pieces", "why_tests_cant": "How much is kept depends on all the text since the last blank line; no finite set of streams bounds it.", "anchors": ["src/shared/sse_parser.rs:117-121", "src/shared/sse_parser.rs:169-189", "src/shared/sse_parser.rs:191-267", "src/shared/sse_parser.rs:358-383"]}
{"id": "C239", "title": "A server serves every client that keeps to the published schema", "statement": "A running server answers every request of a client whose messages are valid by the published schema, once, in order, with the id it was sent with, and goes on serving.", "quantifier": "all sequences of valid messages, all servers whose handlers do not panic, all schedules of the tasks", "why_tests_cant": "One message the server cannot read ends the session; which valid messages those are ranges over all valid JSON.", "anchors": ["src/server/mod.rs:415-486", "src/shared/stdio.rs:141-264", "src/types/protocol.rs:1-400"]}
{"id": "C240", "title": "A refused HTTP request tells its sender what was wrong", "statement": "Every POST, GET or DELETE the streamable HTTP server refuses is refused for a reason that is so, the message says which, and a caller of the crate's own client learns it.", "quantifier": "all requests, all states of the server, all configurations", "why_tests_cant": "The reasons range over all headers and sessions; which of two that hold is told depends on the order of the checks.", "anchors": ["src/server/streamable_http_server.rs:233-246", "src/server/streamable_http_server.rs:287-352", "src/server/streamable_http_server.rs:354-431", "src/server/streamable_http_server.rs:504-607", "src/server/streamable_http_server.rs:679-729", "src/server/streamable_http_server.rs:798-833", "src/shared/streamable_http.rs:212-231", "src/shared/streamable_http.rs:344-361"]}
{"id": "C241", "title": "A failed receive over stdio says what is wrong", "statement": "Whatever arrives on standard input, a receive ends with a message or says what was wrong: the input has ended, a line is not text, no length was given, the body is cut off, or the body is no message; and it says so only if it is.", "quantifier": "all inputs, byte for byte", "why_tests_cant": "The outcome depends on every line up to the first blank one and on the length they give; inputs are unbounded.", "anchors": ["src/shared/stdio.rs:59-62", "src/shared/stdio.rs:82-90", "src/shared/stdio.rs:166-215"]}
{"id": "C242", "title": "A WebSocket client and a WebSocket server of the crate understand each other", "statement": "When the crate's WebSocketTransport is connected to the crate's WebSocketServerTransport, every message either program sends with Ok is received by the other, in order and once, while the connection lives; and nothing is received that was not sent.", "quantifier": "all interleavings of the calls of the two programs, the reader, writer and ping tasks, other clients and failures of the network", "why_tests_cant": "Two processes and five tasks run concurrently; the tests build each transport alone and never connect them.", "anchors": ["src/shared/websocket.rs:128-283", "src/server/transport/websocket.rs:81-245"]}
{"id": "C243", "title": "An event stream with CRLF line ends is read as the same stream with LF line ends", "statement": "If the lines of an event stream end with carriage return and line feed instead of line feed, SseParser::feed returns the same events, with the same data, ids and event names, and keeps the same last event id, however the stream is cut into chunks.", "quantifier": "all streams of lines, all characters and all ways to cut them into chunks", "why_tests_cant": "whether a carriage return is removed depends on how many bytes the characters of the line have and on what follows it in the buffer; texts and cuts are unboundedly many, and words with two accents work by accident", "anchors": ["src/shared/sse_parser.rs:169-189"]}
{"id": "C244", "title": "An update of a resource is announced only while someone is subscribed, also when calls overlap", "statement": "However calls of one SubscriptionManager overlap, notify_resource_updated hands a notification to the sender exactly if, when it does so, the resource has a subscriber; in particular nothing is announced after unsubscribe of the last subscriber has returned.", "quantifier": "all executions of any number of overlapping calls, all resources and subscribers", "why_tests_cant": "the window between counting and sending is a few instructions wide; a test would have to stop a thread exactly there, and interleavings of unboundedly many calls cannot be enumerated", "anchors": ["src/server/subscriptions.rs:63-187", "src/server/mod.rs:1003-1014"]}
{"id": "C245", "title": "When cancel_request has returned for a request, its token is cancelled, also when calls overlap", "statement": "However calls of one CancellationManager overlap, after cancel_request(id) has returned for a request created before, the token of that request is cancelled; one notification is sent for it, and none for an id that has meanwhile been given to a new request.", "quantifier": "all executions of any number of overlapping calls of create_token, remove_token, cancel_request and clear, all ids and reasons", "why_tests_cant": "a second caller returns too early only if it comes between two statements of the first; tests do not stop there, and the executions are unboundedly many", "anchors": ["src/server/cancellation.rs:31-92"]}
{"id": "C246", "title": "A root whose unregister function has returned is not listed any more, and listeners end up with the list as it is", "statement": "After the function returned by register_root has been called and has returned, get_roots does not list the root; and however registrations and unregistrations overlap, each change of the list is notified once, and a listener that reads the list at every notification has the current list when no notification is outstanding.", "quantifier": "all executions of any number of overlapping registrations, unregistrations and their tasks, all addresses and names", "why_tests_cant": "when the spawned task runs is up to the scheduler; a test that sleeps a little sees only one order of events", "anchors": ["src/server/roots.rs:93-148"]}
{"id": "C247", "title": "Code given to a session manager may use the session manager", "statement": "Callbacks for creation, destruction and expiry, and the updater given to update_session, may call any method of the same SessionManager, at any depth and while any number of other tasks use it; every call returns.", "quantifier": "all programs of calls with nested user code, any number of tasks and shards, all schedules", "why_tests_cant": "a deadlock shows only when the ids of two sessions fall into the same shard, or two tasks meet in one order; hashing is seeded at random, and programs and schedules are unboundedly many", "anchors": ["src/shared/session.rs:141-286"]}
{"id": "C248", "title": "File completion is confined to its base directory", "statement": "A FileCompletionProvider with a base directory offers, for every text a client types, nothing that depends on directories outside that base directory.", "quantifier": "all base directories, extension lists, typed texts and contents of the file system (links not followed)", "why_tests_cant": "texts with any number of '.', '..', empty parts and slashes; whether one leaves the base is a property of the whole path", "anchors": ["src/types/completable.rs:303-387"]}
{"id": "C249", "title": "Parameters may be given by position", "statement": "A request or notification whose params are a JSON array of the values of its parameters in their declared order (JSON-RPC 2.0, section 4.2) is understood as the one with these parameters by name, where parameters at the end may be left out as by name; the same holds for the structs inside parameters and results.", "quantifier": "all methods, ids and arrays of JSON values", "why_tests_cant": "every method and every length of array has its own outcome, and the values are arbitrary JSON", "anchors": ["src/shared/protocol_helpers.rs:11-61", "src/types/protocol.rs:36-787", "src/types/capabilities.rs:23-153"]}
{"id": "C250", "title": "Following the cursors lists everything once", "statement": "A caller who follows the cursors of list_tools, list_prompts, list_resources or list_resource_templates to the end gets every item the server offers, once and in order, and a cursor the server did not give out is refused.", "quantifier": "all servers, handlers, cursors, numbers of pages and requests", "why_tests_cant": "the pages and cursors are chosen by the handler, and the loop has any length", "anchors": ["src/client/mod.rs:374-394", "src/client/mod.rs:522-542", "src/client/mod.rs:663-744", "src/server/mod.rs:618-753"]}
{"id": "C251", "title": "A client answers the requests of its server", "statement": "A request of the server (ping, sampling, roots) that a client receives is answered by the client, as the capabilities it announced promise, and disturbs none of its own calls.", "quantifier": "all programs using a client, all messages of the server", "why_tests_cant": "the server may send requests at any time and in any number", "anchors": ["src/client/mod.rs:244-296", "src/client/mod.rs:1315-1348"]}
{"id": "C252", "title": "Ready-made capabilities open exactly the methods they are named for", "statement": "With a server built with ServerCapabilities::minimal, tools_only, prompts_only or resources_only, a connected client sends the requests of the methods the set is named for and refuses the others; provides_* tell which; and what the set announces is kept.", "quantifier": "all servers, clients, requests and builder calls", "why_tests_cant": "every combination of set, request and other builder calls has its own outcome", "anchors": ["src/types/capabilities.rs:179-234", "src/types/capabilities.rs:399-549", "src/types/capabilities.rs:584-655", "src/client/mod.rs:1279-1312"]}
{"id": "C253", "title": "The same text is the same message on every transport, also if a member is repeated", "statement": "A message text whose object names a member more than once is taken as the same message, or refused, alike by stdio, WebSocket and streamable HTTP.", "quantifier": "all lists of members, all names, all values", "why_tests_cant": "which repeated member counts depends on the reader, on the kind of message and on the order; every combination is a different text", "anchors": ["src/shared/stdio.rs:218-264", "src/shared/websocket.rs:154-160", "src/shared/transport.rs:64-78", "src/types/jsonrpc.rs:203-223", "src/server/streamable_http_server.rs:557", "src/shared/streamable_http.rs:377-415"]}
{"id": "C254", "title": "A name from a fixed list is a string", "statement": "Where the protocol names one of a fixed list (the method, the logging level, the role of a message, which context to include, the level of a log message), a message is accepted only if the name is given as a JSON string of that list, and alike on every transport.", "quantifier": "all JSON values in the place of the name, all identifiers, all other members", "why_tests_cant": "the values in the place of the name are arbitrary JSON; which of them are accepted follows from the derived readers and not from a line of the code", "anchors": ["src/types/protocol.rs:265-274", "src/types/protocol.rs:449-462", "src/types/protocol.rs:526-592", "src/types/protocol.rs:665-698", "src/types/protocol.rs:715-801", "src/shared/protocol_helpers.rs:11-61", "src/types/auth.rs:27-38", "src/types/auth.rs:142-158", "src/types/completable.rs:90-103"]}
{"id": "C255", "title": "A whole number is the same number however it is written", "statement": "A message that gives a whole number with a fraction or an exponent (1.0 or 1e0 for 1), as JSON and JSON Schema allow for integers, is read as the message with the number written as an integer: identifiers, progress tokens, the request to cancel, limits and counts, error codes, and the numbers that need not be whole.", "quantifier": "all messages, all members, all numbers", "why_tests_cant": "the outcome depends on the type the field is derived with, and the number and the rest of the message are arbitrary", "anchors": ["src/types/jsonrpc.rs:28-35", "src/types/jsonrpc.rs:296-305", "src/types/protocol.rs:436-446", "src/types/protocol.rs:502-524", "src/types/protocol.rs:594-620", "src/types/protocol.rs:700-712"]}
