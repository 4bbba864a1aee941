import Verif.Types
import Verif.Model.Bytes
import Verif.Model.Messages
import Verif.Spec.Pdu
import Verif.Lemmas.Bytes
import Verif.Lemmas.Bits
import Verif.Lemmas.Codec
import Verif.Props.Codec
import Verif.Model.Mbap
import Verif.Spec.Stream
import Verif.Spec.Db
import Verif.Spec.DbThreads
import Verif.Lemmas.Mbap
import Verif.Props.Mbap
import Verif.Model.Server
import Verif.Model.Db
import Verif.Model.DbThreads
import Verif.Lemmas.Server
import Verif.Lemmas.Db
import Verif.Lemmas.DbThreads
import Verif.Props.Server
import Verif.Props.ServerLife
import Verif.Props.ServerTight
import Verif.Props.Db
import Verif.Props.DbThreads
import Verif.Model.Client
import Verif.Spec.Client
import Verif.Lemmas.Client
import Verif.Props.Client
import Verif.Lemmas.ClientTime
import Verif.Props.ClientTime
import Verif.Lemmas.EndToEnd
import Verif.Props.EndToEnd
import Verif.Model.Scheduled
import Verif.Spec.Scheduled
import Verif.Lemmas.Scheduled
import Verif.Props.Scheduled
import Verif.Model.ClientConn
import Verif.Spec.ClientConn
import Verif.Lemmas.ClientConn
import Verif.Props.ClientConn
import Verif.Model.AsioServer
import Verif.Spec.AsioServer
import Verif.Lemmas.AsioServer
import Verif.Lemmas.AsioWrites
import Verif.Props.AsioServer
import Verif.Model.Session
import Verif.Spec.Session
import Verif.Lemmas.Session
import Verif.Props.Session
import Verif.Props.SessionTight
import Verif.Model.Manager
import Verif.Props.Manager
import Verif.Model.Expected
import Verif.Props.Expected
import Verif.Model.Format
import Verif.Props.Format
import Verif.Model.System
import Verif.Spec.System
import Verif.Lemmas.System
import Verif.Lemmas.SystemInv
import Verif.Props.System
import Verif.Lemmas.SystemLive
import Verif.Props.SystemLive
import Verif.Props.SystemDb
import Verif.Props.SystemWrap
import Verif.Model.Stack
import Verif.Spec.Stack
import Verif.Lemmas.Stack
import Verif.Lemmas.StackInv
import Verif.Lemmas.StackRx
import Verif.Lemmas.StackRun
import Verif.Props.Stack
import Verif.Model.ServerStack
import Verif.Spec.ServerStack
import Verif.Lemmas.AsioApart
import Verif.Lemmas.AsioLog
import Verif.Lemmas.AsioOne
import Verif.Lemmas.AsioDown
import Verif.Lemmas.ServerStack
import Verif.Lemmas.ServerTrace
import Verif.Lemmas.ServerStackMore
import Verif.Lemmas.ServerStackServe
import Verif.Props.ServerStack
import Verif.Lemmas.AsioRing
import Verif.Lemmas.ClientRing
import Verif.Lemmas.StackGenuine
import Verif.Props.Genuine
import Verif.Model.World
import Verif.Spec.World
import Verif.Lemmas.WorldParts
import Verif.Lemmas.World
import Verif.Lemmas.WorldTrace
import Verif.Lemmas.WorldOnce
import Verif.Props.World
import Verif.Lemmas.WorldLive
import Verif.Lemmas.WorldServe
import Verif.Lemmas.WorldRun
import Verif.Props.WorldLive
import Verif.Lemmas.StackTalk
import Verif.Lemmas.WorldTalk
import Verif.Props.WorldTalk
import Verif.Lemmas.AsioSilent
import Verif.Props.WorldDb
import Verif.Model.Polling
import Verif.Spec.Polling
import Verif.Lemmas.PollingParts
import Verif.Lemmas.Polling
import Verif.Lemmas.PollingInv
import Verif.Lemmas.PollingStep
import Verif.Lemmas.PollingLive
import Verif.Lemmas.PollingFair
import Verif.Lemmas.PollingDown
import Verif.Lemmas.PollingTime
import Verif.Props.Polling
import Verif.Props.PollingLive
import Verif.Props.PollingEnd
import Verif.Lemmas.PollingCauses
import Verif.Props.PollingCauses
import Verif.Props.PollingTight
import Verif.Spec.Rest
import Verif.Lemmas.Rest
import Verif.Props.Rest
import Verif.Model.Ownership
import Verif.Spec.Ownership
import Verif.Lemmas.Ownership
import Verif.Props.Ownership
import Verif.Model.Threads
import Verif.Spec.Threads
import Verif.Props.Threads
import Verif.Model.ServerOwnership
import Verif.Spec.ServerOwnership
import Verif.Props.ServerOwnership
import Verif.Model.PollWorld
import Verif.Spec.PollWorld
import Verif.Lemmas.PollWorld
import Verif.Props.PollWorld
import Verif.Model.Logging
import Verif.Spec.Logging
import Verif.Lemmas.Logging
import Verif.Lemmas.Loggers
import Verif.Lemmas.ServerLogging
import Verif.Props.Logging
import Verif.Model.UserCode
import Verif.Spec.UserCode
import Verif.Lemmas.UserCode
import Verif.Lemmas.UserLate
import Verif.Props.UserCode
import Verif.Props.UserLoop
import Verif.Lemmas.UserLoop
import Verif.Props.UserPeriod
import Verif.Props.UserFair
import Verif.Props.UserTight
import Verif.Props.ClientTight
import Verif.Props.StackTight
import Verif.Lemmas.AsioHeard
import Verif.Spec.Reading
import Verif.Props.Reading
import Verif.Model.ConnLogging
import Verif.Spec.ConnLogging
import Verif.Props.ConnLogging
import Verif.Props.LoggingTight
import Verif.Model.Throwing
import Verif.Spec.Throwing
import Verif.Lemmas.Throwing
import Verif.Lemmas.ThrowingRun
import Verif.Props.Throwing
import Verif.Spec.ServerOpen
import Verif.Lemmas.ServerOpen
import Verif.Props.ServerOpen
import Verif.Model.ServerThrowing
import Verif.Lemmas.ServerThrowing
import Verif.Props.ServerThrowing
import Verif.Model.ServerStackThrowing
import Verif.Spec.ServerStackThrowing
import Verif.Lemmas.AsioThrowing
import Verif.Lemmas.ServerStackThrowing
import Verif.Lemmas.ServerStackHeard
import Verif.Props.ServerStackThrowing
import Verif.Model.ScheduledThrowing
import Verif.Lemmas.ScheduledThrowing
import Verif.Props.ScheduledThrowing
import Verif.Model.DbThrowing
import Verif.Spec.DbThrowing
import Verif.Lemmas.DbThrowing
import Verif.Props.DbThrowing
import Verif.Lemmas.AsioCauses
import Verif.Lemmas.ServerThrowingCauses
import Verif.Spec.Causes
import Verif.Props.ServerCauses
import Verif.Spec.ClientCauses
import Verif.Lemmas.ClientCauses
import Verif.Lemmas.ClientFailures
import Verif.Props.ClientCauses
import Verif.Spec.UserCauses
import Verif.Lemmas.UserCauses
import Verif.Props.UserCauses
import Verif.Model.SessionApi
import Verif.Spec.SessionApi
import Verif.Lemmas.SessionApi
import Verif.Props.SessionApi
import Verif.Model.ExampleServer
import Verif.Spec.ExampleServer
import Verif.Lemmas.ExampleServer
import Verif.Props.ExampleServer
import Verif.Model.Queries
import Verif.Spec.Queries
import Verif.Lemmas.Queries
import Verif.Props.Queries
import Verif.Model.ExampleClient
import Verif.Spec.ExampleClient
import Verif.Lemmas.ExampleClient
import Verif.Props.ExampleClient
import Verif.Props.PollOnce
import Verif.Props.WorldExactly
import Verif.Props.PollRate
