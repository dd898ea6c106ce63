# Formal model of rust-mcp-sdk (pmcp) in Lean 4

## 1. What this is

`/verif/lean` is a Lake project. Each area of the SDK has a directory `Verif/<Area>/` with

* `Model.lean`: the code, function by function, as total computable Lean functions.
  Every definition cites the file and lines of `/repo` it transcribes and says where it simplifies.
* `Spec.lean` (or a `Spec` section of `Props.lean`): the small independent specification.
* `Lemmas.lean`: helper lemmas.
* `Props.lean`: the property theorems, named after the property (`C01_...`), each with an
  `example` giving a concrete non-trivial case that meets the hypotheses.

Stateful objects are `init` / `step : State -> Op -> State x Out`; `&mut self` methods return the
new value; `Result`/`Option` stay data; a Rust panic is an explicit result value. Concurrency is
modelled by giving every lock-protected critical section its own atomic step and quantifying over
every interleaving of those steps. Clocks, random ids, handlers, network peers and serde are
parameters or trace inputs.

## 2. Trusted base

* Lean 4.33.0's kernel, and the axioms `propext`, `Classical.choice`, `Quot.sound` (no others;
  no `sorry`, no own axioms, no `native_decide`, no `bv_decide`).
  Section 6 lists the axioms for every property theorem.
* The transcription itself: that each Lean definition says what the cited Rust lines say.
* Semantics of what the Rust code calls and that is not modelled below this level:
  `std::collections::HashMap/HashSet/VecDeque/BTreeMap` are finite maps/sets/queues; tokio
  `RwLock/Mutex` give mutual exclusion and `mpsc/oneshot` channels are FIFO/once;
  `serde_json` parsing/printing; `regex`; `sha2`; AVX2 intrinsics; `uuid::Uuid::new_v4` returns ids
  not used before (a hypothesis where it matters); `Instant::now` is nondecreasing (a hypothesis
  where it matters); floating point is replaced by exact arithmetic where noted.

## 3. What is modelled and what is not

A directory of `lean/Verif` models the files beside it below; each definition of a model carries the
file and lines it transcribes.  Definitions that belong to a specification (a definition no model
function calls) cite nothing, because they transcribe nothing.  The last column lists every stretch of
more than four lines of non-test code that no definition cites: imports and re-exports aside, these are
type declarations, `Debug`, `Default` and `Clone` implementations, setters and constructors that store
their arguments, and whatever is named in the list after the table.  The table is generated from the
citations in the Lean files.

| file under `/repo/src` | modelled in | lines no definition cites |
|---|---|---|
| `client/auth.rs` | `Connect`, `TokenClient` | 56-71, 84-90, 106-112 |
| `client/mod.rs` | `Client`, `Errors`, `Pipe`, `Stdio` | 6-14, 100-113 |
| `error/mod.rs` | `Connect`, `Errors`, `Recovery`, `Server`, `Wasm` | none |
| `error/recovery.rs` | `Errors`, `Recovery` | 250-260, 444-450 |
| `lib.rs` | `Client`, `Conform`, `HttpServer` | 64-68, 91-99, 107-115, 220-224 |
| `server/auth/middleware.rs` | `AuthMw` | none |
| `server/auth/mod.rs` | not modelled | all |
| `server/auth/oauth2.rs` | `AuthMw`, `OAuth`, `TokenClient` | 313-325, 360-368, 398-406, 410-424, 732-748 |
| `server/batch.rs` | `Batch` | 14-18 |
| `server/cancellation.rs` | `Cancellation`, `Server` | none |
| `server/dynamic.rs` | `Dynamic` | 331-344 |
| `server/elicitation.rs` | `Elicit` | 22-31, 42-49, 172-178, 189-205 |
| `server/mod.rs` | `Client`, `Conform`, `Dynamic`, `Errors`, `Pipe`, `Roots`, `Server`, `Stdio`, `Wire` | 6-11, 128-142, 489-501, 1015-1046, 1421-1425 |
| `server/notification_debouncer.rs` | `NotifDebounce` | 83-95, 196-205, 209-218 |
| `server/resource_watcher.rs` | `NotifDebounce`, `Watcher` | 167-183, 451-457 |
| `server/roots.rs` | `Roots` | 43-60 |
| `server/streamable_http_server.rs` | `Conform`, `HttpPair`, `HttpServer`, `Wire` | 10-16, 30-50, 173-198, 219-231, 247-285 |
| `server/subscriptions.rs` | `Subscriptions` | 21-38 |
| `server/transport/websocket.rs` | `Transports`, `WsPair` | 247-260 |
| `shared/batch.rs` | `Batch`, `Wire` | none |
| `shared/context.rs` | `Context`, `Logging` | 348-360, 396-400, 432-438 |
| `shared/event_store.rs` | `EventStore` | 19-41, 329-349 |
| `shared/http.rs` | `Errors`, `HttpEvents`, `Transports` | 38-49, 60-76, 80-95 |
| `shared/http_constants.rs` | `HttpPair`, `HttpServer`, `StreamClient` | 5-17 |
| `shared/logging.rs` | `Logging` | 130-141, 195-207, 218-226, 242-257, 459-466, 470-477, 481-488, 492-499 |
| `shared/middleware.rs` | `Context` | none |
| `shared/mod.rs` | not modelled | all |
| `shared/protocol.rs` | `Client`, `Protocol` | 26-43, 70-88, 129-135, 163-170 |
| `shared/protocol_helpers.rs` | `Wire` | 110-144, 183-191 |
| `shared/reconnect.rs` | `Reconnect` | 45-59, 116-134, 138-142, 175-196, 415-446 |
| `shared/runtime.rs` | `Logging`, `Runtime` | 143-151, 163-177 |
| `shared/session.rs` | `Session` | 16-39, 71-80, 120-130, 327-343 |
| `shared/sse_parser.rs` | `HttpPair`, `Sse` | 134-140, 279-285, 351-355, 359-383 |
| `shared/stdio.rs` | `Conform`, `Pipe`, `Stdio`, `Wire` | 104-111 |
| `shared/streamable_http.rs` | `Conform`, `HttpPair`, `StreamClient`, `Wire` | 41-46, 89-115, 479-484 |
| `shared/transport.rs` | `Conform`, `Wire` | 107-114, 145-158, 220-228, 269-276 |
| `shared/uri_template.rs` | `UriTemplate` | none |
| `shared/wasm_websocket.rs` | `Wasm` | 221-241 |
| `shared/websocket.rs` | `Connect`, `Transports`, `Wire`, `WsPair` | 19-42, 66-93 |
| `simd/mod.rs` | `Simd` | none |
| `types/auth.rs` | `AuthMw`, `Wire` | 159-165 |
| `types/capabilities.rs` | `Client`, `Wire` | none |
| `types/completable.rs` | `Completion`, `Wire` | 161-167, 216-225, 280-300, 390-394 |
| `types/elicitation.rs` | `Elicit`, `Wire` | none |
| `types/jsonrpc.rs` | `Batch`, `Context`, `Errors`, `Ids`, `Server`, `Wire` | 128-137, 225-269, 283-292 |
| `types/mod.rs` | not modelled | all |
| `types/protocol.rs` | `NotifDebounce`, `Wire` | 14-19 |
| `utils/batching.rs` | `Batcher`, `Debouncer` | none |
| `utils/json_simd.rs` | `JsonFast` | 106-110 |
| `utils/mod.rs` | not modelled | all |
| `utils/parallel_batch.rs` | `Batch` | 382-392 |

Outside the model:

* the async executor and its fairness (schedules are arbitrary sequences of steps), real I/O errors and
  partial writes except where a model has an explicit input for them;
* TLS, and the HTTP and WebSocket wire formats: models start from decoded requests, frames and bodies;
* what is written to the log.  The texts logged by the built-in middlewares are modelled
  (`Context/BuiltIn.lean`), those of other functions are not;
* `shared/wasm_websocket.rs` names error variants that `error/mod.rs` does not declare, so the file does
  not compile as it stands; `Wasm` models what those lines are meant to do;
* of the procedural macros (`pmcp-macros`), tokenising and parsing of Rust; `Macros` models the functions on names
  and attribute texts and what the generated code does, which does not compile against this crate;
* the published protocol schema is not part of the repository: `Conform/Schema.lean` is a hand transcription, and C183
  onwards are relative to it;
* examples, benches, tests and fuzz targets;
* the contents of JSON values beyond what dispatch and the wire types look at.

## 4. Plan per property

| id | what is modelled | how it is proved |
|----|------------------|------------------|
| C01-C03 | `shared/protocol.rs` pending-request table as `step` over register/complete/completeFor/cancel, receivers numbered by registration | invariant by induction over histories; deliveries per registration counted in the trace; non-interference per id |
| C04, C05 | `SseParser::feed` with byte offsets (`find`) and character offsets (`chars().nth`) kept apart, panic as a value | ASCII streams: chunk independence by induction, no panic; for arbitrary text the claims are false in the code: witnesses proved, theorems `_partial`; `feed` panics exactly if a finished line is cut inside a character (`Sse/Panics`, exact); the streams read independently of their chunks exactly (`C04_chunks_iff`) |
| C06 | `Display for SseEvent` and parser | round trip for the representable events; exactly these for events without carriage returns; witnesses for what is not representable |
| C07 | `process_line`/`dispatch_event` | refinement to a separate line-oriented specification |
| C08-C10 | `write_message`, `read_headers`, `read_message_body`, `parse_content_length` over byte lists, decimal printing/parsing | round trip by induction over the payload list; decimal round trip by induction; closed flag absorbing |
| C11-C13 | session table; `get_session` split in its two critical sections for C13 | invariant; decision logic; C13 is false under interleaving (witness), sequential version `_partial`; exactly when a destroyed session comes back and an update is lost in `Session/Again` |
| C14-C16 | event queue with eviction; resumption manager counter | refinement to "suffix of the history"; C16 false after resume (witness), proved without resume |
| C17-C19 | reconnect state machine; delay with exact rationals | invariants over histories; witnesses where the circuit breaker interferes |
| C20-C21 | map of sets | refinement to a set of pairs, through all queries |
| C22-C23 | token table, tokens numbered by creation | invariant over histories; key collision witness |
| C24-C27 | scheduler steps of `process_batch_parallel`, metrics | invariant over all schedules; sorting by index; counting |
| C28 | roots list with unregister handles | refinement when uris are distinct; witness for duplicates |
| C29-C31 | batcher/debouncer steps | conservation invariants; witnesses for the racing schedules |
| C32-C37 | session map, streams, event store of the HTTP server; each handler as a function of the state | decision logic and invariants over request histories; witnesses; a second stream exactly if a second GET is between check and insertion, any number of streams (`HttpServer/SecondStream`); what is still handled or opened for a deleted session exactly (`HttpServer/AfterDelete`) |
| C38-C40 | breaker state machine; recovery and retry loops over an outcome stream | invariants over histories; induction on attempts; witness for C39 |
| C41-C45 | OAuth provider tables; refresh and locks split in critical sections | invariants over histories; witnesses for concurrent refresh and deadlock; a token works again exactly if its removal has not been executed (`OAuth/Again`); calls can block each other exactly if one makes a token and another was given a known refresh token (`OAuth/LocksExact`) |
| C46-C47 | scope lists, middleware lists | decision logic, list induction |
| C48-C50 | method tables, variant sums with abstract parameters; JSON objects as key presence | case analysis for every variant; witnesses for variants that do not survive |
| C51 | chain as list of state transformers | induction on the chain |
| C52 | header maps, hexadecimal formatting | round trip |
| C53 | name tables and notifications | history refinement |
| C54 | pending elicitations | invariants over interleavings |
| C55 | pending path table, ticks | invariants over histories |
| C56-C62 | chunked algorithms with 32-bit masks as machine words | equality with the byte-by-byte specification where it holds, witnesses where not |
| C63-C64 | dispatch and error mapping | case analysis |
| C65-C66 | client call steps over a transport, capability gate | invariants over interleavings; witness for C65 |
| C67 | whitespace stripping with string state | token-level specification; witness |
| C68-C69 | template parser, expansion, capture numbering | induction over template parts; witness |
| C70 | locks of the server loops as a transition system | reachable-state analysis; witnesses |
| C71-C73 | filters, retry loops, send paths | list induction; witnesses |
| C74, C75 | `shared/session.rs`/`shared/event_store.rs` resumption: token, stored events, replay | exact replay for every history; C75 refuted (replay is per store, not per session) |
| C76-C78 | session manager callbacks, HTTP session middleware, `update_session` split in read and write | balance invariant; witnesses for stale sessions and lost updates |
| C79 | `read_message` over all byte streams, panics as values | exact condition; witness |
| C80-C82 | `server/batch.rs`, rate-limited processor, metrics average | decision logic; witnesses |
| C83-C86 | batcher/debouncer steps with abandoned callers, per-type intervals, clock | conservation invariant over all interleavings; witnesses |
| C87-C89 | HTTP server: GET reconnection, POST answers, notifications | invariants over request histories; witnesses |
| C90 | exponential recovery delays over exact rationals | closed form; witness for the first delay |
| C91-C93 | OAuth clients, grants and registration | decision logic, invariants; witnesses |
| C94, C95 | trees of authentication middlewares | induction on the tree |
| C96-C102 | serde encoders/decoders of requests, notifications, responses and results as functions on a JSON type | round trip per variant for all parameters; exact lists of what does not survive |
| C103 | `copy_simd` | induction on blocks |
| C104-C116 | server builder, dispatch, message loop, runtime registration, client calls, client + server | step functions over all schedules; end-to-end composition through the wire model |
| C117, C118 | `utils/json_simd.rs` over bytes with the SIMD scans of C56/C57 | token-level specification; exact conditions for returning |
| C119 | `FileCompletable` over an abstract directory reader, `std::path` splitting for Unix | exact contents and order; witnesses |
| C120, C121 | delays of `connect_with_retry`; discovery's retry test on error texts (`Connect/Fetch`: the texts `fetch_discovery` makes of failed requests, of every status, and of unreadable documents) | closed form; substring characterisation (iff); no status is asked again after |
| C122-C125 | `shared/streamable_http.rs` client state with posts, answers and stream events as steps | invariants over all histories; witnesses |
| C126, C127 | `shared/http.rs` send with the server's answer as input | exact results (iff); induction over programs that only send |
| C128, C129 | `shared/websocket.rs` status, reader tasks, frames | invariants over all histories; witnesses |
| C130, C131 | `server/transport/websocket.rs` connections with writer and reader tasks | invariants over all schedules; witnesses |
| C132, C133, C134 | `shared/http.rs` event stream tasks (`connect_sse`), shared queue, `is_connected`, `close`; `String::from_utf8_lossy` | invariant over all histories, composed with the SSE parser model; witnesses for every cut inside a character |
| C135, C136, C137, C138 | `server/streamable_http_server.rs` life of a session, version header, DELETE, callbacks | exact theorems over all histories; counting induction for callbacks; small two-section model of DELETE |
| C139, C140 | `notification_debouncer.rs` `stats`; `utils/batching.rs` channel bound | induction over histories; exact waiting condition |
| C141, C142, C143 | `shared/reconnect.rs` `stats`, `reset`, `ReconnectGuard`; `error/recovery.rs` default policy | history functions; interleavings of guards and their reports; case analysis on the code of the error |
| C144 | `SseParser::reset`, `last_event_id` | simulation of parsers that differ in the last id |
| C145 | `shared/http.rs` `send`, `receive` over whole programs | induction over programs |
| C146 | `server/transport/websocket.rs` reader (ping) and writer (pong) tasks | invariant over all schedules |
| C147, C148 | `shared/stdio.rs` `receive` on malformed input and on dropped futures | induction over blocks; every cut of a header |
| C149 | `shared/streamable_http.rs` answers to POST | case analysis, all steps |
| C150 | `parse_message` and derived `Deserialize` of `TransportMessage` on arrays and scalars | case analysis over all values |
| C151 | `serialize_message`/parsing of `WasmWebSocketTransport` on the Wire types | exact round trip, case analysis over all messages |
| C152 | the same, against `parse_message`/`serialize_message` of stdio | case analysis in both directions |
| C153 | `wait_for_open` as a loop over the observed ready states | exact outcome, induction over the looks |
| C154 | event callbacks and the receive channel as a step function | induction over histories |
| C155 | `BatchProcessor` metrics with rational arithmetic | induction over histories |
| C156 | `rate_limited_processor`: interval, permits and answers | exact condition of the panic, case analysis |
| C157 | `ElicitInputBuilder` on the Wire types | induction over the chain of calls; round trip of the Wire model |
| C158 | the hooks of `LoggingMiddleware`, `AuthMiddleware`, `RetryMiddleware` in the chain of C51 | induction over the chain |
| C159 | `exchange_code`/`refresh_token` up to `send`, form encoding and basic authentication at byte level, the provider's `TokenRequest` | round trip through a parser of forms written from the URL standard; composition with the provider of C42 |
| C160 | `AccessToken` as JSON and the derived reader of `TokenResponse`, duplicates included | exact condition, case analysis |
| C161 | `exchange_code`/`refresh_token` after `send` | exact outcome, case analysis |
| C162 | `SseStream`, `SseEvent::new` and its `with_` methods | exact condition through C06; comments refuted |
| C163 | task-local contexts (`RequestContext::run`), tasks as trees of actions, worker threads, any schedule of polls | for all programs and schedules the entries of a task are those of its own code; no thread keeps a context |
| C164 | the same | refuted for `spawn` inside `run`; proved for `spawn(context.run(..))` |
| C165 | `LogEntry`, its builder methods and `log` | exact content; exact set of levels issued at their severity; refuted for the others |
| C166 | `LogConfig`, `init_logging`, the formatting layer as a function of the options passed to it | exact level filter; refuted for format, timestamps, custom fields, correlation ids and the second call |
| C167 | `CorrelatedLogger` spans | exact condition on the level |
| C168 | the WebAssembly channel | order for all histories; exact result of `recv` and of a receiving loop; refuted for waiting |
| C169 | the WebAssembly `sleep` | exact set of durations |
| C170 | the WebAssembly `spawn_blocking` and `JoinHandle` | for all numbers of polls |
| C171 | `ResourceWatcherBuilder`, `WatchConfig` | exact result of every chain of calls; exact set of paths; refuted for patterns |
| C172 | `WebSocketServerConfig` and builder, the limits in force as those of `accept_async` (library defaults, trusted) | exact set of messages; exact set of configurations honoured |
| C173 | `session_cleanup_task` over the session model | a tick within one interval of every expiry; exact set of intervals; ticks are assumed on time |
| C174 | `Serialize`, `Deserialize` and `Display` of `UriTemplate` | round trip; exact set of values read |
| C175 | `metadata` over the OAuth model | exact for endpoints, scopes, challenges; exact condition for response types; refuted for response types and client authentication |
| C176 | `RootsManager` with its sender, the server's use of it | exact sender told, for all histories; refuted for senders set later and for every server |
| C177 | `to_pascal_case`, `to_snake_case`, the handler's name; tables of letter cases as parameters | distinct on plain names; exact round trip; refuted for the rest |
| C178 | the meaning of the parameter bindings generated by `#[tool]` | exact values and refusals; refuted for unreadable optional values, a parameter called `args` and raw names |
| C179 | the schemas generated | exact set of functions for which `{}` is accepted |
| C180 | the generated handler and its result conversion | exact condition on the return type |
| C181 | `parse_tool_attribute` on the text of the attribute | exact for descriptions; exact for both orders; refuted for escapes and values ending in a key |
| C182 | the generated `tools` and `handle_tool`, `parse_visibility` | exact set of names refused; every method if the names are distinct; refuted otherwise |
| C183 | the wire model against `Conform/Schema.lean`, the published schema 2025-06-18 transcribed by hand (the repository has no copy; README L33 and docs/protocol-compatibility.md promise the same wire format) | exact set of requests that are valid |
| C184 | as C183, requests of a server | exact set; refuted for elicitation, requests for context, sampling without a limit |
| C185 | as C183, notifications | exact set for each side |
| C186 | as C183, the derived form of `TransportMessage` | refuted for every request and notification; exact for responses |
| C187 | as C183, result types | exact set per type; refuted for every sampling result |
| C188 | the server model's answers against the schema | exact for every server, state and request; refuted for servers with tools and for completion |
| C189 | `parse_message` on all objects valid under the schema | exact set understood, `initialize` included (`Conform/Exact`); meaning kept |
| C190 | `parse_message` on all server requests valid under the schema | exact set understood; what is read is what was sent (`Conform/Meaning`); refuted for every elicitation |
| C191 | `parse_notification` on all notifications valid under the schema | exact set understood; what is read is what was sent, up to data `null` (`Conform/Meaning`); refuted for log messages |
| C192 | the response branch of `parse_message` | exact set understood, contents kept |
| C193 | the derived `Deserialize` of each result type on all results valid under the schema | exact for calls, prompts got, completions, samples, resources read, lists of prompts and `initialize` (`Conform/Exact`); always for lists of tools and resources |
| C194 | the derived `Deserialize` of `TransportMessage` on all valid messages | refuted for every request; exact for notifications and responses |
| C195 | `parse_message` and the client's methods, on all answers valid under the schema | exact set of requests sent and of results returned; refuted for every resource read |
| C196 | the table of `Protocol`; a sender dropped unused closes its receiver (tokio `oneshot`) | exact: the first settling call decides |
| C197 | all calls of `SessionManager` as atomic map operations of any number of tasks, with callbacks; the sweep looks at entries one by one | expiry: invariant, for sessions no updater rewrites; callbacks: exact count with the number of revivals; refuted otherwise |
| C198 | `create_resumption_token` with its times, `validate_resumption_token` | exact condition of acceptance; refuted: `expires_at` is never looked at |
| C199 | `record_*` split in its two critical sections | uniqueness for all schedules without resumption; order if recordings do not overlap; refuted otherwise |
| C200 | `reconnect_with` split in check, attempt and outcome, for any number of calls on one manager | invariant if an attempt follows its check at once; bound `max_retries + n - 1` for `n` calls, which is reached; refuted otherwise |
| C201 | `Clone` of the client: what is known is copied, the transport shared | exact: each clone is a client with its own lineage of calls; clones made after initialization agree; refuted otherwise |
| C202 | `ClientBuilder` | options are kept exactly; refuted: they influence nothing |
| C203 | the locks of every HTTP handler and of the event store, as programs over a generic model of fair read-write locks (`Common/Locks.lean`) | lock order if none replays or none stores; refuted otherwise by a schedule, exactly (`HttpServer/LocksExact`), and what follows from it |
| C204 | the locks of the circuit breakers and of `RecoveryExecutor` | proved for all mixes of calls by the order of the locks |
| C205 | the circuit breaker with each read and write a step of its own, any number of calls in progress | refines the coarse model; opens at the threshold and stays open by invariants; refuted between two writes |
| C206 | a flush that sends on a bounded channel with a lock held, and the receiver | exact: blocks if and only if more than one above the capacity is sent and the receiver calls back |
| C207 | the untagged enums `BatchRequest` and `BatchResponse` as JSON | round trip; exact set of arrays understood; refuted for batches with notifications or broken members |
| C208 | `AuthInfo`, `AuthScheme`, `OAuthInfo`, `PkceMethod` as JSON, `authorization_header`, `is_required` | exact condition of the round trip |
| C209 | `Client::authenticate` among the other methods | exact result; refuted for all programs: it has no effect |
| C210 | the calls of a client with the lock of the transport, granted in the order of arrival (`Client/Held.lean`); refines the model of C65 | refuted for all schedules: nothing is written while a call waits; the client stands still only then; also shows C65 for calls at the same time if the server answers in order |
| C211 | `reload_configuration` as the operations of C53 it performs, in any order of the maps, and the builder of a configuration (`Dynamic/Reload.lean`) | tools and prompts are exactly the new ones for every history and every builder sequence; handlers, the gap and overlapping reloads are refuted |
| C212 | the batcher of C29 with a clock: deadlines of the timer, dropping the batcher (`Batcher/Time.lean`); time passes only when the timer task has nothing to do | invariant over all timed executions; refuted for a zero wait time, a full channel and a batcher dropped while empty |
| C213 | the debouncer of C30 with a clock: each task with the end of its sleep (`Debouncer/Time.lean`); time passes only when no call and no task can go on | never late in any execution; exactly on time if each `add` begins when nothing else happens with its key; refuted otherwise |
| C214 | the debouncer of C31 with its flush tasks: `start`, `stop`, dropping, rounds and the end of each task in any order (`NotifDebounce/Life.lean`) | with one `start` and no `flush`: exact output when the task ends and silence afterwards, by an invariant; refuted for a second `start` and a restart |
| C215 | `CompletableArgument`, `CompletionConfig`, `CompletionRequest`, `CompletionResponse`, `CompletionItem` with their derived codecs, the builder (`Wire/Completables.lean`) | round trip with exact condition on the names of flattened data; builder against the calls made |
| C216 | the store and the channels of the model of C32-C37 (`HttpServer/Memory.lean`) | counting invariant over all histories (two events per request, doubled by each GET with a `Last-Event-ID`: `HttpServer/MemoryExact.lean`); and a history for every number of GETs, by induction, that doubles the store each time |
| C217 | `parse::<HeaderValue>().unwrap()` and `to_str` by character, on the model of C32-C37; crate `http` and the trimming of header values are trusted (`HttpServer/Answers.lean`) | invariant: everything put in a header is a header value; exact condition for the id of a new session to be sent and to come back |
| C218 | the tables of the model of C41-C45 (`OAuth/Keeps.lean`) | invariants of all interleavings: exact condition under which a refresh is accepted, and entries that stay until a call names them |
| C219 | the models of C32-C37 and C122-C125 joined (`HttpPair/`): the client's calls, the server's critical sections, other clients between them; no network failures; message texts through an abstract codec with the round trip of C48 as hypothesis | invariants of all schedules; the failures as theorems for all continuations |
| C220 | `Watcher/Again`: any number of `start` and `stop` calls, each with its forwarder and processor, the receiver, the pending events and the resources shared | invariant relating the pending events to the trace; a loss theorem for all continuations; a liveness theorem; a watcher started once is step by step that of C55 (`Watcher/Once`) |
| C221 | `Watcher/Blocking`: the fair lock of the resources (tokio's `RwLock`, requests in order) as a queue, the processor keeping it over a send on the bounded channel | refinement to the calls one by one; stuck states closed under all steps but receiving; a bound on the notifications a call waits for |
| C222 | `Errors/Model`: all kinds of errors, their constructors and texts, codes, the policy's choice; joined with the models of the server (C64) and of recovery (C143) | exact conditions for all errors, codes and policies |
| C223 | `Errors/Model`: as before, with the trips through JSON-RPC and the recovery handlers | exact conditions; induction on the number of hops |
| C224 | `Recovery/Runs`: `execute_with_recovery` (C39) folded over any list of uses | invariant: every breaker is the one of the history of what it was told; counting theorem for operations that keep failing |
| C225 | `Batch/Stateful`: futures waiting, in any handler (a program of steps under the lock), answered or timed out; permits; the shared state; any interleaving | serializability: for handlers of one step by induction on the schedule, for a limit of one without time-outs by the invariant that the running handler is on its way alone; counterexamples otherwise |
| C226 | `Batch/Stateful`: as before, `fail_fast` a part of the configuration | runs with and without are equal; a batch that returned has started every request |
| C227 | `Server/Session`: `answers`, what a server answers to messages one after the other; the level of a `setLevel` request; the calls of the program (`Server/Model`) | sessions with other levels have the same answers and state; the channel of notifications stays empty in every history of calls |
| C228 | `Server/Session` on the loop of `Server/Loop`: messages that arrive, the reading and the notifying task in any interleaving | invariant: what was answered and what is still to be answered are the answers to all that arrived, whatever arrives later; erasing notifications changes nothing |
| C229 | `Server/Session`: the loop together with the task that called `run` and sleeps | no schedule makes it return; after the reading task ended nothing is answered and the sleep goes on for any number of seconds |
| C230 | `Wire/Version` on the parsers of `Wire`: `JSONRPCRequest::validate`, and the effect of replacing the version of a message | the parse does not depend on the version string, for all messages and versions |
| C231 | `NotifDebounce/Timed`: the batcher with a clock that passes only when no timeout task is due, and the tasks with the time at which they end | invariant over executions; exact iff for a batch to be kept its time |
| C232 | `Elicit/Timed`: the manager of `Elicit/Model` with a clock, the bounded channel and the deadline of each call | invariant over executions; a call that waits for room stays, and time goes on by any amount |
| C233 | `Pipe`: a client's calls with the lock of the transport, two bounded pipes and a server loop, byte by byte | the only way to stop is both writing into full pipes (invariant); a measure that every step lowers by one; guards under which it cannot happen; for all sizes beyond them a deadlock is constructed |
| C234 | `Stdio/CutSend`: a frame of which only the first `k` bytes are written, read by the model of C08; a server loop that ends with the first failing receive | every cut classified: header line, blank line, payload; what follows by the invariant of C148; exact condition for the server (iff). `serde_json` is assumed to refuse what is not JSON (`Json`) |
| C235 | `Transports/Timed`: the awaits of a call with the limits in force, millisecond by millisecond | exact time of giving up (iff); the awaits without limit for every number of milliseconds |
| C236 | `Pipe/One`: the model of C233 | invariant: what is on its way belongs to the one call in progress; with the measure of C233 every call ends with its own response |
| C237 | `HttpServer/Abandoned`: the model of C32 with handlers dropped at an await | invariant: every session is told, waiting or lost; only DELETE ends a session; abandoned initializations stay for ever, any number of them |
| C238 | `Sse/Memory`: the model of C24 | invariant over pieces: the buffer is the unfinished line, the event no longer than the lines since the last blank one; no limit: witnesses of any length for lines and events |
| C239 | `Conform/Served`: the parser of C04, the loop of C63 and the schema of C188 | invariant over all schedules: what was answered is the requests before the first message not understood; with C189, C191 and C192 a guard on valid messages; refuted for list requests without `params` |
| C240 | `HttpServer/Refusals`, `HttpPair/Refused`: every call of `create_error_response` with its status, code and message, on top of the model of C37 | decision logic: refused exactly if one of the facts told is so, the message determines the reason; exact condition under which the crate's client tells two refusals apart |
| C241 | `Stdio/Causes`: the model of C08 | every input is split into header lines and one of six endings (`C241_split`); outcome, rest and closed flag for each (`C241_cause`), exact condition for "Missing Content-Length header" |
| C242 | `WsPair/Model`: the models of C128-C131 joined by handshakes, the texts on the server's wire and the frames on the client's; other clients and cuts included | the client's receives are an interleaving of beginnings of what was sent per connection, with what is on the way as the exact rest (`C242_down_partial`), and a live connection can always deliver all (`C242_delivered`); by an invariant nothing of the client's ever waits at the server (`C242_nothing_arrives`) |
| C243 | `Sse/Crlf`: the model of C04 | the lines taken off the buffer are those of the stream (`Sse/Chunks`); ASCII: same events; otherwise the exact lines fed by characters (`C243_kept`, `C243_lines_iff`) and the exact data of an event fed at once (`C243_at_once`) |
| C244 | `Subscriptions/Races`: the manager of C21 with `notify_resource_updated` in two sections (count, tell) | every interleaving: announced iff subscribed when counted (`C244_announced`); with nothing in between (the lock the server holds) the atomic model of C21 (`C244_exclusive_partial`) |
| C245 | `Cancellation/Races`: the manager of C22 with `cancel_request` in three sections (take, cancel, tell) | every interleaving, by invariants: not cancelled iff a call is between its first two sections (`C245_cancelled_iff`); told once per token found (`C245_told_once`); the three sections in a row are the atomic call (`C245_sequential`) |
| C246 | `Roots/Tasks`: the manager of C28 with registrations and the tasks of unregister functions in their sections | every interleaving: listed iff a registration's task has not run (`C246_listed_iff`), listeners (`C246_listener`), one notification per change (`C246_one_each`), the list that of C28 (`C246_as_if_atomic`) |
| C247 | `Session/Locks`: the lock operations of code that uses a `SessionManager`, with callbacks and updaters as nested code; `DashMap` as a row of locked shards (assumed, not in /repo) | lock ordering for any number of tasks (`C247_complete_partial`, `C247_callbacks_partial`); a task alone returns iff no updater uses a shard locked around it (`C247_alone_iff`) |
| C248 | `Completion/Confined`: a spec of where a path leads (its steps, walked from the root; links not followed) beside the transcription of `complete` in `Completion/Model` | non-interference: two file systems that agree inside the base directory give the same offers; exactly which typed texts have this for every base directory (`C248_iff`) |
| C249 | `Wire/Positions`: the derived readers of `Wire/Types`, `Wire/Results` and `Wire/Messages` on arrays | an equation between reading by position and by name for every method and every array (`C249_requests_partial`, `C249_notifications_partial`, `C249_http_partial`) and every struct inside (`C249_nested_partial`, `C249_kinds_partial`, `C249_results_partial`) |
| C250 | `Client/Paging`: the `list_*` methods of the client against the server's answers, and a caller's loop over them as specification | asking through client and server equals asking the handler, so the loop does too (`C250_resources_follow`); by induction over the pages, the loop gives their concatenation with as many requests as pages (`C250_resources`); tools and prompts by their single page |
| C251 | all methods of the client, with any message received | refuted for all programs: no message written is a response (`C251_never_answers`), and a request received is taken for an answer (`C251_taken_for_answer`) |
| C252 | `Client/Presets`: the ready-made capabilities, their accessors, and the client's checks | written or refused, exactly, for every request (`C252_methods`); refuted for subscriptions, which `resources_only` announces |
| C253 | `Wire/Duplicates`: the members of an object as the text gives them, collected into a `Value` (stdio, WebSocket) or buffered for a derived struct (streamable HTTP); members repeated inside values are not modelled | the last value counts on the one side (`C253_overridden`), refusal or the first payload on the other (`C253_http_refuses`); exact for responses (`C253_response_partial`); refuted for all pairs of results |
| C254 | `Wire/Names`: the readers of `Wire/Types` and `Wire/Messages` for enums of unit variants and for the tag of adjacently tagged enums | exact sets of accepted values (`C254_level_partial`, `C254_values_partial`, `C254_open_partial`): the string, and the object with the name and null; only the string for the type of a reference (`C254_reference`); the method must be a string over stdio and WebSocket (`C254_method`) and may be the object over streamable HTTP (`C254_http_notification`, `C254_http_request`) |
| C255 | `Wire/Whole`: the readers of `Wire` on numbers that `serde_json` parses as floats | refused wherever the field is an integer (`C255_id`, `C255_http`, `C255_members`); exact for the id of a request (`C255_id_partial`); read alike where the field is a float (`C255_floats`) |

## 5. Findings: properties the code does not have

Each is a theorem about the model with a concrete or general witness; the `_partial` theorem beside it says what does
hold (usually an exact iff). Places in `/repo/src` are given in the models.

| id | what happens |
|----|--------------|
| C04, C05 | SSE parser: a non-ASCII character before a line end makes byte and character offsets differ; characters are lost depending on chunking, or `feed` panics |
| C06, C07 | SSE events with newlines in id/event, or `\r`, lose data |
| C10, C79 | stdio: malformed framing leaves the reader in the middle of a message; oversized lengths panic |
| C11, C13, C78 | session table: concurrent creates exceed the limit; an expired session can be handed out; concurrent updates are lost |
| C16 | resumption manager: sequence numbers repeat after resuming |
| C17-C19 | reconnect: attempts unbounded with a circuit breaker; `0 * inf` is NaN and jitter exceeds the maximum; `on_disconnected` bypasses an open circuit |
| C22, C23 | `is_cancelled` is false after cancelling; number and string ids share a key |
| C25, C26, C80-C82 | batch: zero limit never starts; a timeout is answered with id "null"; one-element arrays are answered with an object; rate limit lets n² through; average is NaN |
| C28 | removing a root registered twice removes the wrong one |
| C29-C31, C83, C84 | batcher/debouncers: order broken for concurrent callers, last notification lost, flush sends twice, overflow drops the newest, keys collide, default intervals never match |
| C32-C36, C87-C89 | HTTP server: session deleted under a waiting request, unknown session ids accepted, unreadable version ignored, replay leaks other streams, two GET streams, reopening refused, responses and notifications dropped with 202 |
| C38-C40, C90 | breaker: late success closes it, overlapping calls, operation run before the breaker is asked; negative multiplier panics; first delay uncapped |
| C43, C45, C91, C93 | OAuth: a refresh token can be used twice concurrently or during revocation; lock-order deadlocks; client secret and client scopes ignored; registration overwritten |
| C47, C95 | composite authentication: invalid credentials become anonymous; `is_required` wrong both ways |
| C48-C50, C97-C102 | wire: server requests/notifications come back as client ones; elicitation never parses; standard JSON-RPC refused over streamable HTTP; missing params, member order, null members and resource contents without `type` refused |
| C52 | trace context: string request ids lost, short span ids panic, undashed trace ids changed |
| C53-C55 | static tools survive removal; elicitation ids reused or answered late are lost; file changes lost when 1000 wait |
| C56, C57, C61, C62, C67, C117, C118 | SIMD: a match at lane 31 never returns; UTF-8 check wrong both ways; signed strict comparison; fast JSON parses "1 2" as 12; pretty printing corrupts non-ASCII |
| C63, C64, C70, C106-C110, C112-C114 | server: panicking handler ends the loop, every error is -32603, nothing written while the client is silent, one malformed message ends serving, capabilities/cancellation/subscription/version/initialization/elicitation/notifications not wired up |
| C65, C66, C115, C116 | client: concurrent calls swap answers, one notification shifts all later answers, gating incomplete, table leaks; end to end, registered tools unusable unless advertised by hand |
| C68, C69 | URI templates: operators deviate from RFC 6570; captured values are not decoded, several variables are not bound |
| C72, C120, C121 | limit 0 still tries once; doubling can panic; first delay uncapped; 503/504 not retried; issuer not checked |
| C73, C122-C124 | streamable client: a resumption token suppresses the send; streamed messages lost when the stream breaks; GET stream never opened; WebSocket client never writes any message |
| C119 | file completion: `d/.`, `d/..`, bare names, absolute paths |
| C126-C128 | HTTP client refuses 202, drops configured headers, blocks after 100 unread answers; WebSocket `is_connected` never turns false by itself |
| C130, C131 | WebSocket server: messages to a gone peer accepted and lost; a new connection loses unread messages |
| C132 | HTTP event streams: a frame ending inside a multi-byte character turns that character into replacement characters |
| C133 | HTTP transport: `close` stops no stream; with two streams the end of one makes `is_connected` false; a panicked task leaves it true |
| C135 | HTTP server: a session created by GET can never be initialized |
| C136 | HTTP server without sessions: answers carry the default version whatever was negotiated |
| C137 | HTTP server: a GET overlapping a DELETE opens a stream for the deleted session |
| C138 | HTTP server: `on_session_closed` is called for arbitrary ids without sessions, and twice for overlapping DELETEs |
| C52 | `RequestContext::from_headers` panics on a 32-byte trace id with a character across byte 8, 12, 16 or 20 (input of the other side) |
| C141 | `ReconnectManager::reset` is documented to reset all counters and keeps the totals |
| C142 | `ReconnectGuard`: a report that arrives after the next connection makes the manager offer a reconnection beside a live connection |
| C148 | `StdioTransport::receive` is not cancellation safe: a receive dropped after part of a header has arrived loses that message, whatever it is (`C148_cut_header`), and with compact payloads no later message is ever received (`C148_never_again`) |
| C150 | the streamable HTTP server takes arrays of two or three entries for notifications; `["notifications/unknown", null]` cancels the request of that name (`C150_array_is_message`) |
| C151 | progress and cancellation notifications sent through `WasmWebSocketTransport` as bare parameters are lost (`C151_bare_lost`) |
| C152 | requests and notifications of `WasmWebSocketTransport` have no `jsonrpc` member and are refused by every other transport (`C152_native_refuses`) |
| C154 | `receive` on `WasmWebSocketTransport` waits forever once the connection is closed: the transport holds a sender of its own channel (`C154_never_ends`) |
| C155 | the average processing time is the time of all batches over the number of requests: requests in parallel make it smaller than any of them took (`C155_mean_partial`) |
| C156 | `rate_limited_processor` panics for the limit 0 (and multiples of 2^32), starts all handlers at once after the permits, and answers `null` to everything (`C156_interval_partial`, `C156_one_burst`, `C156_answers`) |
| C157 | metadata under the name of a field replaces that field on the wire, e.g. the prompt (`C157_name_taken`); the `message` of a validation cannot be set |
| C158 | `AuthMiddleware` adds nothing to a request, `RetryMiddleware` repeats nothing: both only write a line to the log (`C158_no_token`, `C158_requests`) |
| C159 | client id and secret are not form-encoded before basic authentication (RFC 6749 2.3.1): a client id with a colon, such as a URL, is read as another client with another secret (`C159_colon`); a plus sign becomes a space on a server that follows the RFC (`C159_form_decoded_partial`) |
| C160 | an additional member named like one of the five makes the token unreadable, or counts as that member (`C160_taken`) |
| C162 | `SseStream::comment` drops its text: a stream of keep-alive comments is empty (`C162_no_comments`) |
| C06 | a line feed in an event name or id lets its rest be read as fields and whole events (`C06_injection`) |
| C164 | a task spawned inside `RequestContext::run` has no context (`C164_lost`); moreover nothing in the crate runs handlers under a request context, so that their entries carry no ids unless the handler sets one |
| C165 | entries of level notice, warning, critical, alert and emergency are issued as information, and dropped at level warn or error (`C165_critical_dropped`) |
| C166 | `LogFormat::Json` prints text, and `timestamps`, `custom_fields` and `correlation_ids` are ignored (`C166_never_json`, `C166_ignored`); a second `init_logging` panics (`C166_twice`) |
| C167 | under the levels warn and error the ids of a `CorrelatedLogger` are not printed (`C167_scope_lost`) |
| C168 | the WebAssembly channel ignores its buffer size, and `recv` returns `None` on an empty queue, which ends receiving loops (`C168_unbounded`, `C168_loop_ends`) |
| C169 | the WebAssembly `sleep` truncates to whole milliseconds and wraps to 32 bits (`C169_no_wait`) |
| C171 | `ResourceWatcherBuilder::pattern` adds to the default `**/*`, so that patterns never narrow what is reported (`C171_pattern_ignored`) |
| C172 | the limits of `WebSocketServerConfig` are never passed to the library (`C172_ignored`) |
| C173 | `session_cleanup_task` with an interval of zero panics (`C173_zero`) |
| C175 | the metadata advertises only the code flow and client secrets, but the implicit flow is accepted and no secret is asked for (`C175_implicit`, `C175_no_secret`) |
| C176 | the function that unregisters a root tells the sender set when it was registered (`C176_late_sender`); a server never tells anyone (`C176_server_silent`) |
| C177 | `#[tool]` on functions like `a_b` and `a__b` generates the same type twice (`C177_same`); `to_snake_case` does not undo `to_pascal_case` on one-letter words (`C177_back`) |
| C178 | an optional parameter of the wrong type is silently dropped (`C178_ignored`); a parameter called `args` hides the arguments of those after it (`C178_hidden`); `r#type` is looked for with its prefix (`C178_raw`) |
| C179 | the generated schemas name no parameters (`C179_refused`) |
| C180 | an error returned through a type alias of `Result` is answered as a success (`C180_alias`) |
| C181 | escapes in a description are not undone and a quote cuts it; a value that ends in the other key gives a wrong name (`C181_wrong`) |
| C182 | two methods with one tool name are both listed, and only the first can be called (`C182_hidden`).  Besides, what `#[tool]` and `#[tool_router]` generate names items the crate does not have (`pmcp::types::Tool`, `Error::ToolError` and others) |
| C183 | a tool call without arguments is sent with `"arguments": null`, which the schema does not allow |
| C184 | `includeContext` is sent as `all`/`thisServerOnly` instead of `allServers`/`thisServer` (`C184_context`); `maxTokens`, required by the schema, is optional (`C184_no_limit`); elicitation is sent as `elicitation/input` instead of `elicitation/create` |
| C185 | log messages carry `message`, and `data`, required by the schema, is optional; a server may send the client's `roots/list_changed` |
| C186 | requests and notifications of the streamable HTTP transport have no `jsonrpc` member (`C186_http_requests`, `C186_http_notifications`) |
| C187 | sampling results lack the `role` the schema requires; embedded resources have the members of the resource at the top instead of in `resource` |
| C188 | every tool is listed with the input schema `{}`, which the schema does not allow (`C188_tools`); `completion/complete` is answered `{}` (`C188_complete`) |
| C189 | list requests without `params`, as the TypeScript client sends them, are refused (`C189_bare_list`); so are pings with `params`, the levels `notice`, `alert` and `emergency`, and an `initialize` whose `sampling` has a member `models` that is not a list of strings (`C189_models`) |
| C190 | `elicitation/create` is unknown (`C190_elicitation`); `includeContext` other than `none`, audio, and `ping` or `roots/list` with `params` are refused |
| C191 | log messages need a member `message` the schema does not have (`C191_log`), and know four of the eight levels; notifications without content refuse `params` |
| C193 | audio, resource links and embedded resources make the whole result unreadable (`C193_audio`, `C193_embedded`); no resource can be read from a conforming server (`C193_read_partial`); an argument with `"completion": true` makes the whole list of prompts unreadable (`C193_completion`) |
| C194 | no JSON-RPC request is understood by the streamable HTTP transport (`C194_requests`) |
| C195 | a client cannot read a resource of a server that keeps to the schema (`C195_read_refuted`); error codes from -32099 to -32000 other than -32001 to -32004 reach the caller as -32603 (`C195_refused_partial`) |
| C197 | a sweep removes a session that an updater renewed after the sweep looked at it (`C197_renewed_removed`); a session brought back by a lookup is reported destroyed twice (`C197_reported_twice`) |
| C198 | resumption tokens never expire: `expires_at` is set but not checked, and tokens are never removed (`C198_never_expires`) |
| C199 | concurrent recordings store sequence numbers out of order (`C199_out_of_order`), and a token made then leads to a duplicate number without anything recorded in between (`C199_duplicate_after_token`) |
| C200 | two tasks reconnect at once, and a late failure makes the manager forget the connection (`C200_two_attempts`); the limit can be exceeded (`C200_limit_exceeded`); a caller is told "disabled or limit reached" because another connected (`C200_refused_connected`) |
| C201 | a clone made before `initialize` never learns of the connection: its requests fail and its `initialize` sends a second handshake (`C201_cloned_before`) |
| C202 | `enforce_strict_capabilities` and `debounced_notifications` have no effect (`C202_always_strict`, `C202_not_debounced`) |
| C203 | `store_event` locks `events` then `event_order`, `replay_events_after` the other way round: a stream resumed while an answer is stored blocks both for ever (`C203_resume_deadlock`), and as the request holds the server's mutex no further request is answered (`C203_server_stuck`) |
| C205 | `record_failure` writes `state` before `last_failure_time`: a request in between sees the time of an old failure, is let through and leaves the breaker half-open (`C205_open_bypassed`) |
| C206 | `flush` of the debouncer and of the batcher and the resource watcher send with their lock held: a receiver that calls the component blocks both for ever (`C206_calling_consumer_partial`, `C206_flush_never_returns`) |
| C207 | one notification or one broken member makes a whole batch unreadable (`C207_notification_refused`, `C207_broken_refused`); an array of four values can be read as one request (`C207_array_single`) |
| C208 | a parameter called `token`, `scheme` or `oauth` replaces the field of that name when the information is written and read (`C208_param_wins`); the scheme is called `oAuth2` in JSON and `oauth2` is refused (`C208_oauth2_name`) |
| C209 | `authenticate` reports success but sends and keeps nothing (`C209_no_effect`) |
| C210 | `send_request` keeps the lock of the transport while it waits (client/mod.rs L1338): nothing is sent meanwhile, so a waiting request cannot be cancelled (`C210_cancelled_too_late`), and a server that needs something else from the client before it answers blocks both (`C210_wait_for_each_other`) |
| C211 | `reload_configuration` (server/dynamic.rs L288-313) replaces the handlers for resources and sampling only if the new configuration has one (`C211_handler_stays`); it clears before it adds, under separate locks, so calls in between find no tool (`C211_gap`) and two reloads mix (`C211_mixed`) |
| C212 | with `max_wait_time` zero the timer task panics in `tokio::time::interval` and no message is ever flushed by time (`C212_zero`); the timer task of a batcher dropped with an empty buffer runs for ever (utils/batching.rs L163-177, `C212_ends_iff`); `batched_methods` (L20) is never read |
| C213 | an `add` at the moment at which the timer of the `add` before fires may be emitted at once (`C213_early_boundary`); of two `add` for one key at the same time one leaves a timer that no later `add` stops, as the handle is stored only after the spawn (utils/batching.rs L343-379, `C213_early_overlap`) |
| C214 | `flush_all` never clears `pending` (notification_debouncer.rs L295-310), so the final flush of a stopped task is repeated by every later `start`/`stop` and round (`C214_restart`); a second `start` drops the old shutdown sender and so makes the old task flush (`C214_second_start`); `stop` returns before the final flush (`C214_stop_returns_first`); what is submitted after it is accepted and never sent (`C214_silent`) |
| C215 | additional data of a suggestion called `value`, `label`, `description` or `icon`, and configuration called `provider`, replace the field when written and read (completable.rs L85-86, L155-156, `C215_metadata_wins`) |
| C216 | every replayed event is stored again under a new id (streamable_http_server.rs L744-777) and an unknown `Last-Event-ID` replays everything (L94-97), for every client: k GETs by a client without a session multiply the number of stored events by 2^k (`C216_doubles`); nothing is ever removed (`C216_never_removed`) |
| C217 | a generated session id with a control character makes the handler panic after the session was created and the request handled, so the client gets no answer (L634-638, `C217_bad_id`); one with a character outside ASCII is sent but counts as missing when it comes back (400), one with blanks around it names another session (`C217_sent_back`) |
| C218 | expired access tokens and codes, and refresh tokens whose access token was revoked, are never removed unless a call names them (oauth2.rs L531-706): the tables only grow (`C218_expired_kept`, `C218_refresh_kept`, `C218_code_kept`) |
| C219 | a client that names a session the server lacks is told that `initialize` succeeded (streamable_http_server.rs L354-395 creates no session) and gets 404 for everything else, for ever (`C219_lost_session`); after `start_sse` the answers go to the stream (L474-478), which the client reads only when it ends (streamable_http.rs L232-234): nothing is received any more (`C219_stream_silent`), `close` drops it (`C219_closed_lost`), and so does a second `start_sse`, which is refused (`C219_second_stream`) |
| C220 | `start` puts a new receiver in the place of the old (resource_watcher.rs L191-192): changes in the channel or with the earlier forwarder are lost (`C220_restart_loses`); processors never end, each `start` adds one for good (`C220_processors_stay`) |
| C221 | the processor holds the lock of the resources while it waits for room in the channel of notifications (L149-158): with a full channel no call returns until somebody receives (`C221_full_channel`), and a receiver that calls `add_resource` or `remove_resource` itself waits for ever (`C221_receiver_calls`) |
| C222 | the policy looks at the code of protocol errors only (recovery.rs L476): time-outs, missing capabilities and failed authentication meet the strategy of internal errors, so a strategy for `REQUEST_TIMEOUT`, as in the documentation, is never met by a time-out (`C222_timeouts_not_heard`), and the default policy retries them, validation errors and cancelled work three times (`C222_default_retries`); codes from -32099 to -32000 received from a peer, and all codes raised by tools, meet it too (`C222_received_partial`, `C222_from_tools`) |
| C223 | `Error::cancelled` makes a validation error (error/mod.rs L808-811) (`C223_kinds_partial`); `resource_not_found` doubles its text (`C223_doubled`); the time-out of the HTTP transport is reported in whole seconds, 0 ms below one (`C223_timeout_text`); every hop through a server replaces kind, code and data and adds a head to the text (`C223_hops`) |
| C224 | the executor tells the breaker of a success before asking it: one success closes an open breaker at once, whatever its time and threshold (`C224_one_success_closes`, `C224_closes_partial`); `n` uses of a failing operation call it `n` times more than the breaker lets through (`C224_always_failing`) |
| C225 | handlers that let go of the lock in between lose updates of each other as soon as two run at a time (`C225_lost_update`), and one whose time is up has been carried out by half while the caller reads "Request timeout" (`C225_half_done`) |
| C226 | `fail_fast` ("whether to stop on first error", parallel_batch.rs L53-54) is never read: batches go the same way with it as without (`C226_ignored`), and every request is handled (`C226_all_handled`) |
| C227 | `logging/setLevel` is answered with success and forgotten (server/mod.rs L580-584): sessions do not depend on the level (`C227_levels_do_nothing`), and no log message of any level reaches a client (`C227_no_log_messages`) |
| C228 | a client's `notifications/cancelled` is only logged (server/mod.rs L468-471), and not even read while the handler runs (`C228_unread`): the session is the one without it (`C228_same_session`) |
| C229 | `run` sleeps for ever (server/mod.rs L503-508): it returns neither when the client has gone nor after an error (`C229_never_returns`), while the server answers nothing any more (`C229_sleeps_on`) |
| C230 | the string in `jsonrpc` is never looked at: any version is accepted (`C230_any_version`); `JSONRPCRequest::validate` is never called (`C230_validate_unused`); over streamable HTTP the member may even be missing, except in responses (`C230_http_ignored`) |
| C231 | every `add` starts a timeout task that nothing stops; the task of a notification sent long ago sends the batch it finds, so that batches are sent early (`C231_early`, exactly when: `C231_kept_iff_partial`) |
| C232 | the timeout covers the wait for the answer only; `request_tx.send(..).await` (elicitation.rs L70) waits for room without limit, and neither an answer nor `cancel` or `cancel_all` wakes the caller, although `cancel` returns `Ok` (`C232_stuck`, `C232_any_time`) |
| C233 | a call holds the lock of the transport while it writes, so nobody reads meanwhile, and the server reads nothing while it writes: with two calls in progress, or one given up before, a response and a request that do not fit their pipes stop both sides for ever (`C233_two_calls`, `C233_given_up`, `C233_for_ever`) |
| C234 | a send dropped after some bytes of its frame leaves them on the stream: the next message is read as the rest of it, the receive fails, a server stops for good (`C234_server_iff`), and another reader gets nothing any more (`C234_never_again`) unless the lengths happen to match (`C234_aligned`); only a cut within the blank line is harmless |
| C235 | `HttpConfig::timeout` covers the head of an answer only, not its body, and not `connect_sse` (`C235_body_waits`, `C235_no_limit`); `WebSocketConfig::request_timeout` is used nowhere; the error tells whole seconds only, 0 for less than one (`C235_reported`) |
| C237 | `process_init_session` inserts the session before the MCP server is asked: if the client goes away meanwhile, the handler is dropped and the session stays for ever, although nobody knows its id to delete it (`C237_abandoned`, `C237_unbounded`) |
| C238 | `SseConfig::max_buffer_size` (1 MB by default) is used nowhere: neither a line nor an event has a limit (`C238_line_unbounded`, `C238_event_unbounded`) |
| C239 | A valid list request without `params` cannot be read, the error ends the message loop: the server answers nothing any more, ever (`C239_bare_list`) |
| C240 | The client reports the status of a refusal and drops the body, so five different reasons are one 400 (`C240_client`, `C240_same`); the body has `"id": null`, which neither the crate nor the published schema reads as a message (`C240_no_message`); a session header that is not visible ASCII counts as not sent (`C240_sent_but_required`) |
| C241 | "Missing Content-Length header" is said of messages that have one, with another case, no space or a bad number (`C241_missing_but_there`); the end of the input within a body is an input error that leaves the transport open, among headers it closes it (`C241_two_ends`) |
| C242 | No message of a WebSocket client ever reaches the server although `send` returns `Ok` (`C242_nothing_arrives`, `C242_ok_iff`), so with a server that answers no exchange ever begins (`C242_silent`); a closed client goes on receiving and the server goes on sending to it (`C242_after_close`) |
| C243 | A line that is not pure ASCII keeps the carriage return of its line end: `data: é` sent with CRLF arrives as `é\r` (`C243_cr_in_data`), unless its characters have exactly two extra bytes and it is fed together with the next line end (`C243_at_once`); ids and event names as well |
| C244 | `SubscriptionManager::notify_resource_updated` releases its lock before it tells the sender: an update can be announced after `unsubscribe` of the last subscriber has returned (`C244_after_unsubscribe`); not through `Server`, which holds its own lock meanwhile |
| C245 | `cancel_request` takes the token out of the table before it cancels it: a second `cancel_request` for the same request returns `Ok` while the request is not cancelled, and neither it nor `clear` cancels it until the first call goes on (`C245_returned_too_early`); the notification can name an id already given to a new request (`C245_next_of_that_name`) |
| C246 | The unregister function of a root only starts a task: after it has returned the root is still listed until the task runs (`C246_still_listed`) |
| C247 | `update_session` runs the updater while the shard of the session is locked: an updater that looks at its own session, or counts, lists or creates sessions, never returns (`C247_updater_stuck`), and neither does any later call for the shard (`C247_for_ever`); two updaters that look at each other's sessions block each other (`C247_crossed`). The callbacks are run with no lock held and may do as they like |
| C248 | `complete` joins what the client typed to the base directory as it is: "../" lists the directory above every base directory but the root (`C248_parent`), and an absolute text the directory it names (`C248_absolute`). A client of a server can so list every directory the server can read |
| C249 | By position, "logging/setLevel" and "elicitation/elicitInput" are refused whatever is given (`C249_refused`), and optional parameters at the end cannot be left out: `"params": []` is refused for all lists, `{}` is not (`C249_cursor`). Only the arguments of "tools/call" and "prompts/get" can be left out |
| C250 | `resources/templates/list` never lists anything, however the server was built (`C250_templates`); any cursor is accepted by tools, prompts and templates and gives the first page again (`C250_any_cursor`); a resource handler is never asked if the builder was not told to advertise resources (`C250_not_advertised`) |
| C251 | The client has no code that answers a request: it writes requests and notifications only (`C251_never_answers`), although it announces sampling and roots as given (`C251_announced`); a `ping` of the server makes the call in progress fail (`C251_taken_for_answer`) |
| C252 | `ServerCapabilities::resources_only` announces subscriptions, which no request makes (`C252_subscribe`, C108) |
| C253 | A response giving two results is the last over stdio and WebSocket and the first over streamable HTTP (`C253_results_differ`); a notification giving its method twice is accepted by the former and refused by the latter (`C253_method_twice`) |
| C254 | `{"level": {"error": null}}` sets the level like `{"level": "error"}` (`C254_level_same`); over streamable HTTP the method itself may be such an object, over stdio not (`C254_transports_differ`) |
| C255 | a request, response or cancellation whose id is written `1.0` is refused (`C255_id`, `C255_members`), so that the call it answers never ends |
| C11 | `SessionManager`: any number of concurrent creations pass a limit (`C11_concurrent_unbounded`); a lookup that overlaps a destruction brings the session back above it |

## 6. Axioms per property theorem

Generated with `collectAxioms` (the function behind `#print axioms`) over every theorem of MANIFEST.json.

### no axioms (13 theorems)

* `Verif.EventStore`: C16_duplicate_after_resume, C199_out_of_order, C199_duplicate_after_token
* `Verif.Cancellation`: C22_only_cancel_notifies
* `Verif.Recovery`: C38_late_success
* `Verif.Context`: C51_order, C51_observe, C52_child
* `Verif.Server`: C64_to_wire
* `Verif.Connect`: C72_zero
* `Verif.Runtime`: C168_loop_ends
* `Verif.Transports.Limits`: C172_ignored
* `Verif.Session`: C173_zero

### `propext` (103 theorems)

* `Verif.Session`: C11_create_fails_iff, C78_answer
* `Verif.Reconnect`: C17_reconnect_result, C19_disconnect_bypasses, C19_reopens_after_one_failure
* `Verif.Batcher`: C29_order_refuted_concurrent, C212_blocked
* `Verif.Recovery`: C38_closed_to_halfOpen
* `Verif.Context`: C51_stops, C51_cases, C51_log, C158_requests, C158_responses, C158_no_token, C158_private, C158_response_lines
* `Verif.Dynamic`: C53_remove, C53_handlers, C53_announced_partial, C211_gap
* `Verif.Watcher`: C55_reported, C55_accepted_partial, C55_limit_silent
* `Verif.Simd`: C57_straddle
* `Verif.Server`: C63_panic, C64_tool_error, C64_tool_code_partial, C70_order, C70_malformed, C70_panic, C107_id_partial, C108_ignored, C110_complete, C227_forgotten, C227_levels_do_nothing, C228_in_turn, C228_notifications_do_nothing, C228_unread, C229_never_returns
* `Verif.Client`: C65_out_of_order, C65_swapped, C65_stale, C115_leak, C209_succeeds, C209_fails, C252_subscribe
* `Verif.UriTemplate`: C68_reserved_raw, C68_fragment_encoded, C68_parameter_empty, C68_text_kept, C68_unclosed, C69_multi, C69_adjacent, C69_ambiguous, C69_label_dot
* `Verif.Connect`: C72_panic
* `Verif.EventStore`: C74_unknown_token, C74_pending_are_outbound, C75_foreign_event_replayed, C198_issued
* `Verif.HttpServer`: C87_first_stream_replays_partial
* `Verif.Wire`: C100_provider_key_lost, C208_oauth2_name, C208_required
* `Verif.JsonFast`: C118_refused
* `Verif.Transports.Http`: C126_accepted_is_error
* `Verif.Transports.WsServer`: C146_written
* `Verif.TokenClient`: C159_plain, C160_taken, C161_parse_error
* `Verif.Logging`: C164_lost, C165_ids, C165_error, C166_level, C166_level_exact, C166_never_json, C166_ignored, C166_twice, C166_once_partial, C166_levels, C166_ansi, C167_scope_lost
* `Verif.Runtime`: C168_fifo, C168_recv_partial, C168_loop_partial, C168_waker, C170_once
* `Verif.Transports.Limits`: C172_built
* `Verif.Macros`: C180_errors_partial
* `Verif.Conform`: C186_http_responses_partial
* `Verif.Session.Races`: C197_renewed_removed, C197_reported_twice
* `Verif.Reconnect.Races`: C200_refused_connected, C200_limit_exceeded
* `Verif.HttpServer.Locks`: C203_sessions
* `Verif.Recovery.Fine`: C205_open_bypassed
* `Verif.Watcher.Again`: C220_forwarders_end
* `Verif.Watcher.Blocking`: C221_readers
* `Verif.Errors`: C222_same_strategy, C222_meets_partial, C223_codes, C223_other_says_anything
* `Verif.Batch.Stateful`: C226_ignored

### `Quot.sound`, `propext` (384 theorems)

* `Verif.Protocol`: C01_registration_gets_first_response_only, C01_at_most_one_response, C01_receivers_distinct, C02_foreign_transport_no_effect, C02_right_transport_still_delivered, C02_reports_true_iff, C03_pending_iff_outstanding, C03_status_independent_of_other_ids, C03_delivery_independent_of_other_ids, C03_cancelled_never_delivered, C196_await
* `Verif.Session`: C11_limit, C11_create_succeeds, C11_concurrent_create_exceeds, C11_lookup_exceeds, C12_expired_removed, C12_other_untouched, C12_cleanup_exact, C12_stays_invalid, C12_lifetime, C13_any_number, C13_resurrected, C13_destroyed_stays_gone_partial, C13_sequential_partial, C78_authentication_lost, C78_lookup_restores, C78_update_kept_partial, C78_reads_keep_partial, C78_authenticate, C173_removed_partial, C173_runs
* `Verif.EventStore`: C14_replay_exact, C14_replay_mem, C14_unknown_id, C14_latest, C15_retained_is_suffix, C15_bounded, C15_bounded_always, C15_evicted_for_cause, C15_no_expired_kept, C15_clear_before, C16_increasing_without_resume_partial, C16_increasing_across_fresh_resume_partial, C74_resume_replays_since_token, C75_foreign_iff, C75_replay_own_partial, C198_accepted_partial, C198_never_expires, C199_unique_partial, C199_order_partial
* `Verif.Reconnect`: C17_attempts_bounded_partial, C17_attempts_bounded_no_breaker, C17_unbounded_with_breaker, C17_told, C19_open_blocks_partial, C19_closes_after_timeout, C19_should_exact, C141_stats, C141_reset, C142_no_duplicate_partial, C142_refuted, C142_offered_iff
* `Verif.Subscriptions`: C20_get_subscriptions, C20_get_subscribers, C20_has_subscribers, C20_isolation, C20_subscribe_twice, C21_enumeration_exists, C244_silent, C244_after_unsubscribe, C244_exclusive_partial
* `Verif.Cancellation`: C22_cancelled_forever, C22_get_token_iff_registered, C22_get_token_returns_created, C22_cancel_notifies_once, C22_second_cancel_noop, C22_is_cancelled_false_after_cancel, C245_sequential, C245_returned_too_early, C245_next_of_that_name, C245_told_once
* `Verif.Ids`: C23_key_collision_witness
* `Verif.Batcher`: C29_batches_in_order, C29_tick_emits_everything, C29_nothing_lost_any_interleaving, C29_batch_sizes_any_interleaving, C83_accepted_message_kept_partial, C83_refuted, C140_unread_bound, C140_blocks_iff, C212_age_partial, C212_zero, C212_same, C212_rounds
* `Verif.Debouncer`: C30_no_duplicates, C30_latest_emitted_once_partial, C30_latest_emitted_once_never_full, C30_refuted, C213_early_boundary, C213_early_overlap
* `Verif.NotifDebounce`: C31_flush_sends_twice, C139_stats
* `Verif.HttpServer`: C35_replay_exact, C35_unknown_id_replays_everything, C35_single_stream_partial, C35_other_streams_leak, C138_any_number, C138_removed, C138_closed_twice, C240_check, C240_delete
* `Verif.Recovery`: C38_open_success, C38_uninterrupted, C38_uninterrupted_answers, C38_refusal_justified, C40_with_retry_failure, C40_with_retry_waits, C143_added
* `Verif.OAuth.Locks`: C45_issue_revoke_deadlock, C45_refresh_refresh_deadlock, C45_in_turn
* `Verif.Wire`: C48_id_kept, C50_classified, C50_result_accepted, C50_raw_agrees_partial, C50_raw_response_partial, C50_raw_differs, C101_order_matters, C101_null_error_refused, C101_null_id_refused, C102_untyped_refused, C102_known_types_partial, C150_parse_message, C150_http_partial, C150_array_is_message, C150_batch_refused, C207_understood_partial, C207_broken_refused, C207_notification_refused, C207_array_single, C207_shape, C208_header, C208_oauth_array, C215_builder, C215_defaults, C215_arrays, C230_version_needed, C230_validate_unused, C254_method, C254_transports_differ, C255_id, C255_http
* `Verif.Dynamic`: C53_resolves, C53_removed, C53_never_added, C53_available_partial, C53_static_stays, C53_frame, C53_prompts, C53_prompt_available_partial, C53_announce, C104_says_partial, C104_content_partial, C104_forgets, C105_not_callable, C105_callable_partial, C211_built, C211_reloaded_partial, C211_handler_stays, C211_mixed, C211_only_new
* `Verif.Elicit`: C54_second_refused, C54_reused_id, C54_timeout_removes_other, C54_accepted_and_lost
* `Verif.Watcher`: C55_due, C55_sound, C55_sound_trace, C55_tracked, C55_progress, C55_burst_lost, C55_bounds, C55_notified_after_stop
* `Verif.Simd`: C56_whitespace_partial, C56_escapes_partial, C56_short, C56_never_returns, C57_short_partial, C57_high_not_utf8, C57_overlong, C58_length, C59_bytewise, C59_involution, C59_length, C62_checksum, C103_copy
* `Verif.Server`: C63_unanswered_iff, C64_texts, C70_blocked, C70_never_written, C70_delivered_partial, C70_next_written, C70_stopped, C70_malformed_run, C106_sampling_overwritten, C107_no_token, C108_requests_never_subscribe, C108_api_partial, C108_exact, C111_call, C111_unknown, C111_resources, C112_flag_partial, C112_history, C113_dropped, C114_run_takes, C114_never_sent, C114_claims_notified, C227_no_log_messages, C228_at_rest, C228_same_session, C229_sleeps_on
* `Verif.Client`: C66_state, C66_gated_partial, C66_sent_partial, C66_told, C66_version, C66_once, C66_note_before, C66_sampling_refused, C66_roots_exact, C66_notes_exact, C116_tool_error, C116_complete, C201_exact_partial, C201_agree_partial, C201_cloned_before, C202_kept, C202_always_strict, C202_not_debounced, C202_introduces, C209_no_effect, C209_any_token, C210_refines, C210_wait_for_each_other, C210_bounded, C250_templates, C250_not_advertised, C251_never_answers, C251_taken_for_answer, C251_announced
* `Verif.JsonFast`: C67_exact_partial, C67_returns, C67_valid_partial, C67_never_returns, C67_refused, C117_corrupted, C117_never_returns
* `Verif.UriTemplate`: C68_rfc_partial, C68_safe, C68_injective, C68_variables, C69_matches_iff, C69_values, C69_empty
* `Verif.Completion`: C71_static, C71_narrowing, C71_strings, C119_sorted, C119_labels, C119_nothing_typed, C119_single_dot, C119_exact_partial, C119_directory, C119_dot, C119_dotdot, C119_bare, C119_escapes
* `Verif.Connect`: C72_success, C72_failure, C72_unlimited, C72_deterministic, C72_panic_iff, C72_discover_first, C72_discover_exhausted, C120_delays_partial, C120_first_uncapped, C121_timeouts
* `Verif.Transports.Http`: C73_http, C126_needs_answer_partial, C126_told, C126_headers_dropped, C127_waits_iff_partial, C127_hundred, C145_bound
* `Verif.Transports.Ws`: C73_websocket_never, C73_websocket_ok_iff, C128_exact, C128_stays_connected, C128_connected_partial, C129_several, C129_receive
* `Verif.Transports.WsServer`: C130_lost, C131_ended, C131_replaced_lost, C131_stays_connected, C146_pongs
* `Verif.Wasm`: C153_wait, C154_order, C154_next, C154_never_ends, C154_send
* `Verif.Batch`: C156_interval_partial, C156_one_burst
* `Verif.Elicit.Builder`: C157_built, C157_select
* `Verif.Context`: C158_secret, C158_same, C158_lines
* `Verif.TokenClient`: C159_form, C161_readable
* `Verif.Logging`: C167_fields, C167_current, C167_scope_partial
* `Verif.Runtime`: C168_unbounded, C169_not_longer, C169_no_wait, C169_millis
* `Verif.Transports.Limits`: C172_taken, C172_limits_partial
* `Verif.Macros`: C182_routed, C182_each_partial, C182_hidden
* `Verif.Conform`: C192_responses_partial, C192_errors_partial, C193_lists, C193_prompts_partial, C193_read_partial, C193_complete_partial, C193_initialize_partial, C194_requests, C194_responses, C195_connect_partial
* `Verif.Session.Races`: C197_expiry_partial, C197_balance_partial, C197_uninterrupted
* `Verif.Reconnect.Races`: C200_limit_reached, C200_two_attempts
* `Verif.HttpServer.Locks`: C203_resume_deadlock
* `Verif.Recovery.Fine`: C205_stays_open_partial, C205_opens
* `Verif.NotifDebounce.Blocking`: C206_flush_never_returns
* `Verif.Watcher.Again`: C220_due, C220_processors_stay, C220_reported_partial, C220_once_step, C220_one_at_a_time
* `Verif.Watcher.Blocking`: C221_in_order
* `Verif.Errors`: C222_added_partial, C222_from_tools, C223_kinds_partial, C223_doubled, C223_timeout_text, C223_hops, C223_fallback, C223_words, C223_made_texts
* `Verif.Batch.Stateful`: C225_one_lock_partial, C225_lost_update, C225_half_done, C226_all_handled
* `Verif.Pipe`: C233_bounded, C233_for_ever, C233_two_calls, C233_given_up, C233_may_give_up, C236_stops
* `Verif.Transports.Timed`: C235_total_partial, C235_body_waits, C235_no_limit
* `Verif.WsPair`: C242_ok_iff, C242_after_close
* `Verif.Session.Locks`: C247_crossed, C247_for_ever

### `Classical.choice`, `Quot.sound`, `propext` (713 theorems)

* `Verif.Sse`: C04_lines, C04_chunks_iff, C04_no_stray_partial, C04_by_characters, C04_chunking_partial, C04_chunk_dependent, C04_character_lost, C05_panics_iff, C05_panics, C05_no_panic_partial, C06_stream_round_trip_partial, C06_event_round_trip_partial, C06_data_lost, C06_stream_exact_partial, C06_injection, C07_chunks_exact, C07_by_characters, C07_fields_exact, C07_fields_partial, C07_empty_data_lost, C144_reset, C144_any_text, C144_reset_ids, C144_last_id, C162_stream_partial, C162_no_comments, C238_kept, C238_between, C238_line_unbounded, C238_event_unbounded, C243_ascii_partial, C243_kept, C243_lines_iff, C243_at_once, C243_cr_in_data
* `Verif.Stdio`: C08_framing, C08_then_end, C08_other_headers_ignored, C09_parse_print, C09_parse_iff, C10_closes_iff, C10_closed_stays, C10_closed_refuses, C10_close_closes, C10_eof_closes_partial, C10_truncated_body_stays_open, C10_closes_on_next_receive, C79_huge_length_panics, C79_panics_only_on_huge_length_partial, C79_panic_iff, C79_after_panic, C147_recovers, C148_iff, C148_idle_partial, C148_lost, C148_cut_header, C148_cut_body, C148_never_again, C234_cut_header, C234_cut_blank_partial, C234_cut_body, C234_harmless_partial, C234_never_again, C234_aligned, C234_server_iff, C241_split, C241_cause, C241_missing_iff, C241_missing_but_there, C241_missing_partial, C241_two_ends
* `Verif.Session`: C11_concurrent_partial, C11_concurrent_unbounded, C12_validate_iff, C13_again_iff, C76_lifecycle, C77_extract_from_cookies, C77_middleware_accepts_expired, C77_middleware_session_partial, C77_middleware_iff, C78_lost_iff
* `Verif.EventStore`: C16_increasing_iff
* `Verif.Reconnect`: C18_never_exceeds_max, C18_monotone, C18_formula_partial, C18_zero_delay_jumps, C18_jitter_bounds, C18_jitter_exact, C18_no_jitter, C18_beyond
* `Verif.Subscriptions`: C20_stats, C20_average, C21_notify, C244_announced
* `Verif.Cancellation`: C22_token_cancelled_iff, C22_is_cancelled_iff, C245_cancelled_iff
* `Verif.Ids`: C23_keys_distinct_partial, C23_fromU64_collisions
* `Verif.Batch`: C24_every_schedule, C24_order_independent, C24_batch_request, C25_bounded, C25_default_bound, C25_progress, C25_terminates, C25_zero_limit_stuck, C26_ids_partial, C26_ids_with_timeouts, C26_timeout_loses_id, C26_server_handler, C27_metrics_add_up, C27_classification, C27_own_timeouts, C80_shape_partial, C80_array_iff, C80_one_element_array, C81_rate_exceeded, C81_rate_bound_partial, C82_empty_batch_poisons_average, C82_average_finite_partial, C82_average_infinite, C155_average, C155_maximum, C155_average_le_maximum, C155_mean_partial, C156_answers
* `Verif.Roots`: C28_uri_counts, C28_listing_exact_partial, C28_rejection, C28_has_roots, C28_notified, C28_wrong_root_removed, C176_registered, C176_unregistered_partial, C176_late_sender, C176_server_silent, C176_run, C246_as_if_atomic, C246_listed_iff, C246_still_listed, C246_listener, C246_one_each
* `Verif.Batcher`: C29_batches_zero, C83_conserved, C83_lost_iff, C212_ends_iff
* `Verif.Debouncer`: C30_fate_iff, C30_superseded_never_emitted, C30_quiescence_reachable, C213_not_late, C213_on_time_partial, C213_blocked
* `Verif.NotifDebounce`: C31_key_iff_subject_partial, C31_kinds_refuted, C31_no_duplicates_partial, C31_exactly_once_merging_partial, C31_latest_kept_no_merging_partial, C31_flush_refuted, C31_overflow_refuted, C31_default_partial, C31_default_bound, C84_refuted, C84_not_before_interval_partial, C84_configured, C85_conservation, C85_batches, C85_timeout_running, C86_max_wait, C86_interval, C86_default, C139_entry, C231_at_most, C231_never_full, C231_kept_iff_partial, C231_early
* `Verif.HttpServer`: C32_left_over, C32_deleted_iff, C32_sessions_are_live, C32_missing_session_400, C32_unknown_session_404, C32_handled_was_live_partial, C32_deleted_while_waiting, C33_session_usable_partial, C33_unknown_session_accepted_then_404, C33_iff, C34_version_checked_partial, C34_negotiated_version_enforced, C34_unreadable_version_accepted, C35_store_is_build, C35_leak_and_duplicate, C36_conserved, C36_second_iff, C36_any_number, C36_single_stream_partial, C36_two_streams, C37_post_passes_iff, C37_post_content_type_415, C37_post_accept_406, C37_get_passes_iff, C87_reopen_always_refused, C88_connected, C88_response_delivered_partial, C88_stream_fifo, C88_senders_ok, C88_response_lost, C88_lost_iff, C89_requests_handled_once_partial, C89_notifications_discarded, C89_notification_accepted, C135_initialized_once, C135_stream_first, C136_version_partial, C136_stateless, C136_stateless_requests, C137_stream_iff, C137_delete, C137_stream_ends, C137_stream_after_delete, C138_reports, C138_twice_iff, C138_balanced_partial, C138_stateless, C216_doubles, C216_never_removed, C216_bounded_partial, C216_bound, C217_answered_partial, C217_bad_id, C217_sent_back, C217_usable_iff, C217_uuid, C217_versions, C217_header_chars, C217_usable_chars, C217_stream_answered, C237_told_partial, C237_whose, C237_kept, C237_abandoned, C237_unbounded, C237_answered, C237_stream, C237_no_store, C240_post, C240_get, C240_told, C240_iff, C240_sent_but_required, C240_required_partial, C240_message
* `Verif.Recovery`: C38_closed, C38_open, C38_halfOpen, C38_no_request_before_timeout_partial, C39_always_called, C39_no_second_call_partial, C39_failing_operation_runs_twice, C39_exact, C39_fallback, C39_recorded, C40_with_retry_success, C40_fixed, C40_exponential, C40_negative_multiplier_panics, C40_one_wait_per_retry, C90_delays_partial, C90_later_delays_capped, C90_first_delay_not_capped, C90_capped_iff, C143_standard, C143_added_runs, C224_history, C224_closes_partial, C224_other_errors, C224_always_failing, C224_one_success_closes
* `Verif.OAuth`: C41_code_single_use, C41_redeemed_at_most_once, C42_exchange_authorized, C42_exchange_complete, C43_again_iff, C43_held, C43_any_number, C43_used_refresh_token_rejected_partial, C43_uninterrupted_refresh, C43_double_refresh, C43_revocation_during_refresh, C44_validate_iff, C91_secret_ignored, C91_client_id_checked_partial, C92_no_escalation, C93_authorization_checked_partial, C93_client_scopes_ignored, C93_registration_overwritten, C175_endpoints, C175_scopes, C175_challenges, C175_grants, C175_response_types_partial, C175_implicit, C175_no_secret, C175_offered, C218_refresh_iff, C218_revoked_together, C218_expired_kept, C218_expired_witness, C218_refresh_kept, C218_code_kept
* `Verif.OAuth.Locks`: C45_ordered_programs_complete, C45_no_deadlock_partial, C45_deadlock_iff
* `Verif.AuthMw`: C46_scope_middleware, C46_bearer_with_scopes, C47_composite, C47_required_composite, C47_invalid_token_anonymous, C94_identity_has_credential, C94_strict_tree, C94_bearer_over_provider, C95_required_refuses_partial, C95_required_but_anonymous, C95_optional_but_refused, C95_anonymous_iff
* `Verif.Wire`: C48_request_round_trip_partial, C48_client_request_round_trip, C48_server_create_message_becomes_client, C48_elicit_never_parses, C49_notification_round_trip_partial, C49_wrapped_progress, C49_wrapped_cancelled, C49_not_finite_refused, C96_message_round_trip_partial, C96_kind_kept, C96_result_kept, C97_http_round_trip_partial, C97_roots_notification, C98_standard_request_refused, C98_http_request_refused, C98_responses_partial, C98_notifications_partial, C99_omitted_params_partial, C99_list_needs_params, C99_ping_refuses_params, C100_results_partial, C100_tools, C100_call_result, C100_iff, C101_order_iff, C101_unknown_members_ignored, C101_order_irrelevant_partial, C102_schema_read_refused, C150_pairs, C150_triples, C157_input_types, C207_requests, C207_responses, C208_round_trip_partial, C208_constructed, C208_param_wins, C208_made, C215_argument_partial, C215_item_partial, C215_response_partial, C215_request, C215_metadata_wins, C215_built, C230_any_version, C230_refused_partial, C230_http_ignored, C249_requests_partial, C249_notifications_partial, C249_http_partial, C249_all_given, C249_refused, C249_cursor, C249_nested_partial, C249_kinds_partial, C249_results_partial, C249_envelopes_partial, C253_distinct, C253_overridden, C253_http_refuses, C253_response_partial, C253_results_differ, C253_first_name, C253_method_twice, C253_http_others, C254_level_partial, C254_level_same, C254_values_partial, C254_open_partial, C254_reference, C254_http_notification, C254_http_request, C255_id_partial, C255_members, C255_floats
* `Verif.Context`: C52_hop_partial, C52_send, C52_send_exact, C52_receive_exact, C52_send_panics, C52_headers, C52_parent_after_hop, C52_chain_partial, C52_string_id_lost
* `Verif.Elicit`: C54_loses_iff, C54_delivered, C54_received, C54_once, C54_source, C54_unknown, C54_cancel_all, C54_pending, C54_never_closed_partial, C54_abandoned_leak, C232_in_time_partial, C232_after_send, C232_stuck, C232_channel, C232_closed, C232_closed_refused, C232_any_time
* `Verif.Simd`: C57_wellformed_partial, C57_ascii, C57_all_high, C58_round_trip, C58_alphabet, C60_lossless, C60_counts, C60_shortest, C61_found, C61_sound, C61_absent_partial, C61_never_returns, C62_exact_partial, C62_agree_partial, C62_position, C62_large
* `Verif.Server`: C63_loop_order, C63_loop_complete_partial, C63_loop_terminates, C63_id, C63_answered_partial, C64_received_partial, C64_received_range, C64_only_internal, C106_advertised_partial, C106_tool_not_advertised, C106_sampling, C109_fixed, C109_requested_partial, C110_readable_partial, C110_prompt, C110_tool, C110_sample, C110_read, C111_tools_listed, C111_prompts_listed, C112_ignored
* `Verif.Client`: C65_in_order_partial, C65_in_order_own, C65_exact_partial, C65_sequential_partial, C65_shift, C66_failed_yet, C66_roots_unannounced, C115_active_partial, C116_connect, C116_call_tool_partial, C210_nothing_written, C210_cancelled_too_late, C210_goes_on_partial, C210_notes, C210_notes_failing, C250_resources_same, C250_resources_follow, C250_resources, C250_tools, C250_prompts, C250_any_cursor, C252_methods, C252_provides, C252_known, C252_client
* `Verif.JsonFast`: C67_short, C67_joined, C117_iff, C117_tokens_partial, C117_ascii, C117_layout, C118_serialize_partial
* `Verif.UriTemplate`: C68_parse_roundtrip, C68_accepted_valid, C69_match_partial, C69_exact_partial, C69_undecoded, C69_sound, C174_round_trip, C174_read, C174_equal, C174_canonical
* `Verif.Connect`: C72_discover_bounded, C121_status_final_partial, C121_asked_again_iff, C121_found_in_answer, C121_retry_iff, C121_address, C121_url, C121_foreign_issuer
* `Verif.StreamClient`: C73_streamable_once, C73_streamable_ok_iff, C73_streamable_partial, C73_resumption_lost, C73_error_though_written, C122_headers, C122_echo, C122_stale_forever, C123_stream_partial, C123_round_trip_partial, C123_not_before_end, C123_broken_lost, C123_reopened_lost, C124_never_opened, C125_stream_ids, C125_last_event, C149_answer, C149_only, C149_broken_over
* `Verif.Transports.WsServer`: C130_order_partial, C131_receive_partial
* `Verif.HttpEvents`: C132_replacement, C132_frames_partial, C132_cut, C133_flag, C133_one_stream_partial, C133_two_streams, C133_close_ignored, C133_panic, C134_in_order_partial, C134_answers, C134_bound, C134_room
* `Verif.Transports.Http`: C145_answers
* `Verif.Wasm`: C151_round_trip_partial, C151_bare_lost, C152_native_refuses, C152_responses_partial, C152_from_native_partial
* `Verif.Elicit.Builder`: C157_wire_partial, C157_name_taken
* `Verif.TokenClient`: C159_exchange, C159_refresh, C159_provider, C159_secret_only_in_header, C159_refresh_secret, C159_basic_partial, C159_colon, C159_form_decoded_partial, C159_headers, C159_read, C160_response_partial, C160_issued, C161_ok, C161_error, C161_refresh_error
* `Verif.Logging`: C163_own_context, C163_spawned, C163_nothing_left, C164_handed_over_partial, C165_fields, C165_severity_partial, C165_critical_dropped
* `Verif.Runtime`: C169_sleep_partial
* `Verif.Watcher`: C171_built, C171_reported_partial, C171_pattern_ignored
* `Verif.Macros`: C177_distinct_partial, C177_same, C177_back, C177_wrapper, C178_called_partial, C178_refused, C178_ignored, C178_hidden, C178_raw, C179_schema_partial, C179_refused, C180_alias, C180_handle, C180_alias_ok, C181_description_partial, C181_name_first, C181_name_last, C181_no_name, C181_wrong, C182_visibility
* `Verif.Conform`: C183_client_requests_partial, C184_server_requests_partial, C184_no_limit, C184_context, C185_client_notifications_partial, C185_server_notifications_partial, C185_shared_notifications_partial, C186_http_requests, C186_http_notifications, C187_results_partial, C188_answers_partial, C188_tools, C188_complete, C189_initialize_iff, C189_models, C189_requests_partial, C189_bare_list, C189_initialize_partial, C189_meaning, C190_requests_partial, C190_elicitation, C190_meaning, C191_notifications_partial, C191_log, C191_meaning, C193_initialize_iff, C193_prompts_iff, C193_completion, C193_call_partial, C193_audio, C193_embedded, C193_getPrompt_partial, C193_sample_partial, C194_notifications_partial, C195_session_partial, C195_refused_partial, C195_read_refuted, C239_exact, C239_served_partial, C239_bare_list
* `Verif.Reconnect.Races`: C200_any_number, C200_one_partial, C200_limit_partial
* `Verif.HttpServer.Locks`: C203_no_deadlock_partial, C203_server_stuck, C203_deadlock_iff
* `Verif.Recovery.Locks`: C204_no_deadlock
* `Verif.Recovery.Fine`: C205_uninterrupted, C205_counts_kept, C205_closed_allows
* `Verif.NotifDebounce.Blocking`: C206_plain_consumer_partial, C206_calling_consumer_partial
* `Verif.NotifDebounce.Life`: C214_stopped_partial, C214_no_duplicates_partial, C214_exactly_once_partial, C214_final_flush, C214_stop_returns_first, C214_restart, C214_second_start, C214_silent
* `Verif.HttpPair`: C219_lost_session, C219_stream_silent, C219_stream_opens, C219_closed_lost, C219_stream_ends_partial, C219_second_stream, C219_close, C219_begin_again_partial, C219_others_go_on, C219_headers_pass, C219_served_partial, C240_client, C240_apart_partial, C240_same, C240_stream, C240_no_message
* `Verif.Watcher.Again`: C220_restart_loses, C220_once
* `Verif.Watcher.Blocking`: C221_tracked, C221_full_channel, C221_receiver_calls, C221_one_notification_partial, C221_returns_partial
* `Verif.Errors`: C222_timeouts_not_heard, C222_received_partial, C222_default_retries, C222_standard, C223_round_trip_partial, C223_fallback_never_same, C223_text_tells_partial, C223_transport_tells
* `Verif.Batch.Stateful`: C225_counter, C225_limit, C225_one_at_a_time_partial
* `Verif.Pipe`: C233_stuck_iff, C233_one_partial, C233_few_partial, C236_own, C236_ends
* `Verif.Transports.Timed`: C235_head_partial, C235_in_time_iff, C235_reported
* `Verif.WsPair`: C242_nothing_arrives, C242_down_partial, C242_delivered, C242_one_partial, C242_silent
* `Verif.Session.Locks`: C247_complete_partial, C247_callbacks_partial, C247_alone_iff, C247_updater_stuck
* `Verif.Completion`: C248_confined_partial, C248_iff, C248_parent, C248_absolute
