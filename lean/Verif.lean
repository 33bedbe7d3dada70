import Verif.Props.Refs
import Verif.Props.Relay
import Verif.Props.SerState
import Verif.Props.RealTime
import Verif.Props.MixedRelay
import Verif.Props.HandOut
import Verif.Props.CommandLine
import Verif.Props.Daemon
import Verif.Props.FindWin
import Verif.Props.Details3
import Verif.Props.Text
import Verif.Props.Serializer
import Verif.Props.Server
import Verif.Props.ServerServe
import Verif.Props.Shell
import Verif.Props.BadReply
import Verif.Props.ServerReply
import Verif.Props.ServerNames
import Verif.Props.ServerMore
import Verif.Props.ServerActions
import Verif.Props.ClientExample
import Verif.Props.SystemExample
import Verif.Props.SystemCloseExample
import Verif.Props.Registry
import Verif.Props.Address
import Verif.Props.Proxy
import Verif.Props.Lifetime
import Verif.Props.Limits
import Verif.Props.Timer
import Verif.Props.LogHandler
import Verif.Props.LogRemote
import Verif.Props.Stdio
import Verif.Props.Process
import Verif.Props.ProcessRun
import Verif.Props.Shmem
import Verif.Props.Clock
import Verif.Props.Util
import Verif.Props.Qt
import Verif.Props.QtServer
import Verif.Props.Threads
import Verif.Props.Connect
import Verif.Props.EndToEnd
import Verif.Props.ExitCode
import Verif.Props.Family
import Verif.Props.Succession
import Verif.Props.Protocol
import Verif.Props.Requests
import Verif.Props.Logging
import Verif.Props.LooseProxy
import Verif.Props.JsonDigits
import Verif.Props.Malformed
import Verif.Props.UtilMore
import Verif.Props.ProcessMore
import Verif.Props.Kill
import Verif.Props.ProxyMore
import Verif.Props.Details
import Verif.Props.Formats
import Verif.Props.NestedClose
import Verif.Props.Disconnected
import Verif.Props.Imports
import Verif.Props.Details2
import Verif.Props.CloseCall
import Verif.Props.LogViewer
import Verif.Props.Transcript
import Verif.Props.OneAtATime
import Verif.Props.Optional
import Verif.Props.Printing
import Verif.Props.Grammar
import Verif.Props.ProxyClient
import Verif.Props.GetValue
import Verif.Props.Quiet
import Verif.Props.Exec
import Verif.Props.Dates
import Verif.Props.Base64
import Verif.Props.Asks
import Verif.Props.ReceivedOptions
import Verif.Props.SerializeTypes
import Verif.Props.LogNet
import Verif.Props.LogFair
import Verif.Props.HandlerFair
import Verif.Props.LogAllFair
import Verif.Props.TimerFair
import Verif.Props.LogHops
import Verif.Props.LogAll
