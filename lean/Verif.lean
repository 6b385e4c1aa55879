import Verif.Model.Py
import Verif.Model.Struct
import Verif.Model.Tracer
import Verif.Model.Header
import Verif.Model.Package
import Verif.Props.Wire
import Verif.Props.Header
import Verif.Props.RequestId
import Verif.Props.Tracer
import Verif.Props.Spans
import Verif.Model.Container
import Verif.Model.Pool
import Verif.Model.PoolThreads
import Verif.Model.Mesh
import Verif.Model.SyncClient
import Verif.Props.Container
import Verif.Props.PoolManager
import Verif.Props.Pool
import Verif.Props.PoolThreads
import Verif.Props.Mesh
import Verif.Props.SyncClient
import Verif.Model.Handler
import Verif.Model.AioListener
import Verif.Props.ListenerReader
import Verif.Props.ListenerReplies
import Verif.Props.ListenerCalls
import Verif.Model.SockListener
import Verif.Props.SockListener
import Verif.Model.AioClient
import Verif.Lemmas.AioClient
import Verif.Lemmas.AioFrame
import Verif.Props.AioClient
import Verif.Props.AioSend
import Verif.Props.AioShare
import Verif.Props.AioFail
import Verif.Lemmas.AioRecvd
import Verif.Lemmas.AioProgress
import Verif.Lemmas.Join
import Verif.Props.EndToEnd
import Verif.Props.EndToEndAio
import Verif.Props.WireMore
import Verif.Props.RpcEq
import Verif.Props.SyncSend
import Verif.Props.PoolProgress
import Verif.Props.AioDial
import Verif.Props.AioFrames
import Verif.Props.AioIds
import Verif.Props.ListenerStream
import Verif.Model.SockConn
import Verif.Props.SockConn
import Verif.Model.AioServer
import Verif.Lemmas.AioServer
import Verif.Props.AioServer
import Verif.Props.EndToEndSock
import Verif.Model.SockServer
import Verif.Props.SockStream
import Verif.Props.EndToEndServer
import Verif.Props.SockServer
import Verif.Model.Process
import Verif.Props.Process
import Verif.Model.Threads
import Verif.Props.Threads
import Verif.Props.ContainerMore
import Verif.Props.PoolLedger
import Verif.Lemmas.Joint
import Verif.Props.Quiet
import Verif.Model.ContainerThreads
import Verif.Props.ContainerThreads
import Verif.Model.PoolWorld
import Verif.Props.PoolWorld
import Verif.Props.PoolClose
import Verif.Model.SyncPools
import Verif.Model.AioCallers
import Verif.Props.SyncPools
import Verif.Props.AioCallers
import Verif.Props.AtMostOnce
import Verif.Model.TraceNet
import Verif.Props.TraceNet
import Verif.Props.Timeouts
import Verif.Props.EndToEndThreads
import Verif.Props.ResponseContext
import Verif.Model.SpanApi
import Verif.Props.SpanApi
import Verif.Model.Drain
import Verif.Props.Drain
import Verif.Model.SharedDicts
import Verif.Props.SharedDicts
import Verif.Props.Nested
import Verif.Model.Lifecycle
import Verif.Props.Lifecycle
import Verif.Props.RepoTests
import Verif.Model.AioFlow
import Verif.Props.AioFlow
import Verif.Model.Attrs
import Verif.Props.Attrs
import Verif.Model.SyncThreads
import Verif.Props.SyncThreads
import Verif.Model.ListenerFlow
import Verif.Props.ListenerFlow
import Verif.Props.FlowEndToEnd
import Verif.Props.RpcIdText
import Verif.Props.Intake
import Verif.Props.ReadOnly
import Verif.Props.Refs
import Verif.Props.Singleton
import Verif.Props.AioFlowWait
import Verif.Props.SyncThreadsOpen
import Verif.Props.Refused
import Verif.Props.CoroExecutor
import Verif.Props.ListenerFlowWait
import Verif.Props.ListenerHeld
import Verif.Props.Errors
import Verif.Props.MeshAddress
import Verif.Props.FlowQuiet
import Verif.Props.StopIteration
import Verif.Props.AioExit
import Verif.Props.Remaining
import Verif.Lemmas.Rest
import Verif.Props.ComesToRest
import Verif.Props.FlowRest
import Verif.Props.Undecodable
import Verif.Props.MeshLate
import Verif.Props.InputFlow
import Verif.Props.SendAll
import Verif.Props.Backlog
import Verif.Props.Callbacks
import Verif.Props.IdGen
import Verif.Props.Timing
import Verif.Props.HeartbeatTimer
import Verif.Props.SyncWait
import Verif.Props.StuckMethods
import Verif.Props.WhoAnswers
import Verif.Model.DigitLimit
import Verif.Props.DigitLimit
import Verif.Model.PoolSockets
import Verif.Props.PoolSockets
import Verif.Model.HostName
import Verif.Props.HostName
import Verif.Model.ExecutorFull
import Verif.Props.ExecutorFull
import Verif.Model.SlowService
import Verif.Props.SlowService
import Verif.Model.MeshSilent
import Verif.Props.MeshSilent
import Verif.Model.SockExit
import Verif.Props.SockExit
import Verif.Model.SyncLongWait
import Verif.Props.SyncLongWait
import Verif.Props.PoolRecovers
import Verif.Model.ProcessEnd
import Verif.Props.ProcessEnd
import Verif.Props.Unpublish
import Verif.Props.Subscribed
import Verif.Props.CutOff
import Verif.Props.CutResponse
import Verif.Props.Serving
import Verif.Props.SockBlind
import Verif.Props.PoolDrift
import Verif.Props.PoolOverrun
import Verif.Props.SockHostName
import Verif.Props.SockThreads
import Verif.Model.ClientEnd
import Verif.Props.ClientEnd
import Verif.Model.ClientFork
import Verif.Props.ClientFork
import Verif.Audit
