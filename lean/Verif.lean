import Verif.Common.AMap
import Verif.Common.ASet
import Verif.Common.Decimal
import Verif.Protocol.Props
import Verif.Subscriptions.Props
import Verif.Ids.Props
import Verif.Cancellation.Props
import Verif.Common.ListExtra
import Verif.Common.Str
import Verif.EventStore.Props
import Verif.Session.Props
import Verif.Common.Utf8
import Verif.Stdio.Props
import Verif.Sse.Props
import Verif.Sse.Reset
import Verif.Sse.Stream
import Verif.Reconnect.Props
import Verif.Reconnect.Stats
import Verif.Batch.Props
import Verif.Batch.More
import Verif.Roots.Props
import Verif.Common.Sub
import Verif.Batcher.Props
import Verif.Debouncer.Props
import Verif.NotifDebounce.Props
import Verif.NotifDebounce.Batcher
import Verif.HttpServer.Props
import Verif.HttpServer.Streams
import Verif.HttpServer.Sessions
import Verif.Recovery.Props
import Verif.OAuth.Props
import Verif.OAuth.Clients
import Verif.OAuth.Locks
import Verif.Common.ExceptEq
import Verif.AuthMw.Props
import Verif.Wire.Props
import Verif.Wire.Http
import Verif.Wire.Results
import Verif.Wire.Tolerance
import Verif.Wire.Arrays
import Verif.Simd.Scan
import Verif.Simd.Codec
import Verif.Simd.Validate
import Verif.Context.Middleware
import Verif.Context.Props
import Verif.Context.BuiltIn
import Verif.Dynamic.Props
import Verif.Elicit.Props
import Verif.Elicit.Builder
import Verif.Watcher.Props
import Verif.Server.Loop
import Verif.Client.Props
import Verif.UriTemplate.Props
import Verif.JsonFast.Props
import Verif.Completion.Props
import Verif.Connect.Props
import Verif.StreamClient.Props
import Verif.Transports.Props
import Verif.Transports.More
import Verif.Stdio.More
import Verif.StreamClient.More
import Verif.UriTemplate.More
import Verif.HttpEvents.Props
import Verif.HttpEvents.More
import Verif.Wasm.Model
import Verif.Wasm.Props
import Verif.TokenClient.Model
import Verif.TokenClient.Props
import Verif.Logging.Model
import Verif.Logging.Props
import Verif.Runtime.Model
import Verif.Runtime.Props
import Verif.Watcher.Builder
import Verif.Transports.Limits
import Verif.Session.Cleanup
import Verif.UriTemplate.Serde
import Verif.OAuth.Metadata
import Verif.Roots.Sender
import Verif.Macros.Model
import Verif.Macros.Props
import Verif.Conform.Schema
import Verif.Conform.Outbound
import Verif.Conform.Answers
import Verif.Conform.Inbound
import Verif.Conform.FromServer
import Verif.Conform.InResults
import Verif.Conform.InHttp
import Verif.Conform.Session
import Verif.Protocol.Waiting
import Verif.Session.Races
import Verif.EventStore.More
import Verif.Reconnect.Races
import Verif.Client.Clones
import Verif.HttpServer.Locks
import Verif.Recovery.Locks
import Verif.Recovery.Fine
import Verif.NotifDebounce.Blocking
import Verif.Wire.Batches
import Verif.Wire.Auth
import Verif.Client.Auth
import Verif.Client.Held
import Verif.Dynamic.Reload
import Verif.Batcher.Time
import Verif.Debouncer.Time
import Verif.NotifDebounce.Life
import Verif.Wire.Completables
import Verif.HttpServer.Memory
import Verif.HttpServer.Answers
import Verif.OAuth.Keeps
import Verif.HttpPair.Model
import Verif.HttpPair.Lemmas
import Verif.HttpPair.Props
import Verif.HttpPair.Lost
import Verif.HttpPair.Examples
import Verif.HttpPair.More
import Verif.Watcher.Again
import Verif.Watcher.AgainProps
import Verif.Watcher.Blocking
import Verif.Errors.Model
import Verif.Errors.Props
import Verif.Recovery.Runs
import Verif.Watcher.Once
import Verif.Errors.Texts
import Verif.Batch.Stateful
import Verif.Batch.StatefulProps
import Verif.Server.Session
import Verif.Connect.Fetch
import Verif.Wire.Version
import Verif.NotifDebounce.Timed
import Verif.Elicit.Timed
import Verif.Pipe.Props
import Verif.Stdio.CutSend
import Verif.Transports.Timed
import Verif.Pipe.One
import Verif.HttpServer.Abandoned
import Verif.Sse.Memory
import Verif.Conform.Served
import Verif.Sse.Panics
import Verif.HttpServer.Refusals
import Verif.HttpPair.Refused
import Verif.Stdio.Causes
import Verif.WsPair.Props
import Verif.OAuth.Again
import Verif.HttpServer.SecondStream
import Verif.Sse.Crlf
import Verif.Session.Again
import Verif.HttpServer.AfterDelete
import Verif.EventStore.Numbers
import Verif.Reconnect.Many
import Verif.HttpServer.Deletes
import Verif.Subscriptions.Races
import Verif.Cancellation.Races
import Verif.Roots.Tasks
import Verif.Session.Locks
import Verif.Common.LocksPairs
import Verif.Debouncer.Fate
import Verif.HttpServer.LocksExact
import Verif.OAuth.LocksExact
import Verif.Wire.ResultsExact
import Verif.JsonFast.Exact
import Verif.Stdio.Ends
import Verif.Elicit.Loses
import Verif.Wire.OrderExact
import Verif.HttpServer.MemoryExact
import Verif.Stdio.AbandonExact
import Verif.Completion.Confined
import Verif.Wire.Positions
import Verif.Conform.Meaning
import Verif.Client.Paging
import Verif.Client.Presets
import Verif.Wire.Duplicates
import Verif.Wire.Names
import Verif.Wire.Whole
import Verif.Conform.Exact
