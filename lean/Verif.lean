import Verif.Go.Base64
import Verif.Go.ClientTls
import Verif.Go.Durafmt
import Verif.Go.F64
import Verif.Go.Handshake
import Verif.Go.Header
import Verif.Go.Http2
import Verif.Go.Json
import Verif.Go.JsonDecode
import Verif.Go.Md5
import Verif.Go.Num
import Verif.Go.Path
import Verif.Go.Redirect
import Verif.Go.Regexp
import Verif.Go.ReqRead
import Verif.Go.ReqWrite
import Verif.Go.RespRead
import Verif.Go.RespWrite
import Verif.Go.Rex
import Verif.Go.Slice
import Verif.Go.Str
import Verif.Go.Time
import Verif.Go.Unmarshal
import Verif.Go.Url
import Verif.Go.Uuid
import Verif.Go.Zerolog
import Verif.Lemmas.Anchor
import Verif.Lemmas.AttemptLog
import Verif.Lemmas.Base64
import Verif.Lemmas.BootLog
import Verif.Lemmas.Calendar
import Verif.Lemmas.CertReport
import Verif.Lemmas.Char
import Verif.Lemmas.Config
import Verif.Lemmas.Conns
import Verif.Lemmas.Credited
import Verif.Lemmas.Decision
import Verif.Lemmas.Decode
import Verif.Lemmas.Durafmt
import Verif.Lemmas.F64
import Verif.Lemmas.Header
import Verif.Lemmas.Hub
import Verif.Lemmas.Incoming
import Verif.Lemmas.IncomingHead
import Verif.Lemmas.Iprex
import Verif.Lemmas.Json
import Verif.Lemmas.JsonDecode
import Verif.Lemmas.JsonSound
import Verif.Lemmas.Jwt
import Verif.Lemmas.KeyLog
import Verif.Lemmas.KeyRace
import Verif.Lemmas.Load
import Verif.Lemmas.Logged
import Verif.Lemmas.Machine
import Verif.Lemmas.MachineCalm
import Verif.Lemmas.MachineClose
import Verif.Lemmas.MachineFlags
import Verif.Lemmas.MachineHeader
import Verif.Lemmas.MachineLength
import Verif.Lemmas.MachineOrderly
import Verif.Lemmas.MachineParts
import Verif.Lemmas.MachineProgress
import Verif.Lemmas.MachineRead
import Verif.Lemmas.MachineRun
import Verif.Lemmas.Message
import Verif.Lemmas.Mux
import Verif.Lemmas.Num
import Verif.Lemmas.Observe
import Verif.Lemmas.Path
import Verif.Lemmas.Policy
import Verif.Lemmas.Pool
import Verif.Lemmas.Prefix
import Verif.Lemmas.Proxied
import Verif.Lemmas.RePhrases
import Verif.Lemmas.ReWords
import Verif.Lemmas.Recode
import Verif.Lemmas.Redirect
import Verif.Lemmas.Regexp
import Verif.Lemmas.Reply
import Verif.Lemmas.ReqRead
import Verif.Lemmas.Request
import Verif.Lemmas.RespMessage
import Verif.Lemmas.RespWire
import Verif.Lemmas.Rex
import Verif.Lemmas.SortHeap
import Verif.Lemmas.SortPivot
import Verif.Lemmas.SortSeq
import Verif.Lemmas.SortWithin
import Verif.Lemmas.Stats
import Verif.Lemmas.Str
import Verif.Lemmas.Timed
import Verif.Lemmas.Tls
import Verif.Lemmas.Url
import Verif.Lemmas.UrlOk
import Verif.Lemmas.Utf8
import Verif.Lemmas.WireBytes
import Verif.Lemmas.WireMessage
import Verif.Lemmas.Wish
import Verif.Lemmas.Words
import Verif.Lemmas.Zerolog
import Verif.Model.About
import Verif.Model.Arrival
import Verif.Model.AttemptLog
import Verif.Model.Boot
import Verif.Model.BootLog
import Verif.Model.CertReport
import Verif.Model.Client
import Verif.Model.Config
import Verif.Model.Conns
import Verif.Model.Decode
import Verif.Model.Front
import Verif.Model.Handler
import Verif.Model.Handshake
import Verif.Model.Hub
import Verif.Model.InitLog
import Verif.Model.Iprex
import Verif.Model.JwksTimed
import Verif.Model.Jwt
import Verif.Model.JwtAuth
import Verif.Model.KeyLog
import Verif.Model.KeyRace
import Verif.Model.Kid
import Verif.Model.Leaving
import Verif.Model.Listen
import Verif.Model.Logger
import Verif.Model.Machine
import Verif.Model.Main
import Verif.Model.Mux
import Verif.Model.Observe
import Verif.Model.Pipeline
import Verif.Model.Policy
import Verif.Model.Pool
import Verif.Model.Rand
import Verif.Model.Reception
import Verif.Model.Redirect
import Verif.Model.Regexp
import Verif.Model.Request
import Verif.Model.RequestId
import Verif.Model.RespBytes
import Verif.Model.Response
import Verif.Model.Responses
import Verif.Model.Route
import Verif.Model.ServerId
import Verif.Model.SortRace
import Verif.Model.Source
import Verif.Model.Stats
import Verif.Model.StatsLog
import Verif.Model.StatsRace
import Verif.Model.Taken
import Verif.Model.Target
import Verif.Model.Timed
import Verif.Model.Tls
import Verif.Model.TokenLog
import Verif.Model.UpConn
import Verif.Model.UpTls
import Verif.Model.WireBytes
import Verif.Model.Wish
import Verif.Props.Admitted
import Verif.Props.Alive
import Verif.Props.Anchor
import Verif.Props.Answered
import Verif.Props.Arrival
import Verif.Props.AttemptLog
import Verif.Props.Attempts
import Verif.Props.Basic
import Verif.Props.BootLog
import Verif.Props.Caching
import Verif.Props.CertReport
import Verif.Props.Client
import Verif.Props.CommandLine
import Verif.Props.Config
import Verif.Props.Conns
import Verif.Props.Crash
import Verif.Props.Credentials
import Verif.Props.Decode
import Verif.Props.Duties
import Verif.Props.Elsewhere
import Verif.Props.EndToEnd
import Verif.Props.Everyone
import Verif.Props.Front
import Verif.Props.Handshake
import Verif.Props.Hop
import Verif.Props.Http2
import Verif.Props.Hub
import Verif.Props.HubBody
import Verif.Props.HubEnd
import Verif.Props.HubRefuse
import Verif.Props.HubRelay
import Verif.Props.InitLog
import Verif.Props.Iprex
import Verif.Props.JwksTimed
import Verif.Props.KeyLog
import Verif.Props.KeyRace
import Verif.Props.KeyWarn
import Verif.Props.Keys
import Verif.Props.Kid
import Verif.Props.Leaving
import Verif.Props.Logger
import Verif.Props.Observe
import Verif.Props.Passed
import Verif.Props.Persist
import Verif.Props.Pipeline
import Verif.Props.Policy
import Verif.Props.Pool
import Verif.Props.Rand
import Verif.Props.Reception
import Verif.Props.Redirect
import Verif.Props.Refusals
import Verif.Props.Refuse
import Verif.Props.Refused
import Verif.Props.Relay
import Verif.Props.RequestId
import Verif.Props.Requests
import Verif.Props.RespWire
import Verif.Props.Responses
import Verif.Props.Rotation
import Verif.Props.Route
import Verif.Props.Served
import Verif.Props.Server
import Verif.Props.ServerId
import Verif.Props.Silence
import Verif.Props.SortRace
import Verif.Props.SortSeq
import Verif.Props.Spelling
import Verif.Props.Stalled
import Verif.Props.Start
import Verif.Props.StartLog
import Verif.Props.Stats
import Verif.Props.StatsLog
import Verif.Props.Status
import Verif.Props.Switch
import Verif.Props.Taken
import Verif.Props.Target
import Verif.Props.Timed
import Verif.Props.Tls
import Verif.Props.Token
import Verif.Props.TokenLog
import Verif.Props.Told
import Verif.Props.Turned
import Verif.Props.UpConn
import Verif.Props.UpTls
import Verif.Props.Wire
import Verif.Props.Wish
import Verif.Spec.AttemptLog
import Verif.Spec.Caching
import Verif.Spec.Calendar
import Verif.Spec.Demo
import Verif.Spec.Document
import Verif.Spec.Incoming
import Verif.Spec.Ip
import Verif.Spec.Json
import Verif.Spec.JsonText
import Verif.Spec.Jwt
import Verif.Spec.Message
import Verif.Spec.Mux
import Verif.Spec.Path
import Verif.Spec.Pipeline
import Verif.Spec.Policy
import Verif.Spec.Pool
import Verif.Spec.ReSyntax
import Verif.Spec.Regexp
import Verif.Spec.Reply
import Verif.Spec.Request
import Verif.Spec.Resource
import Verif.Spec.RespMessage
import Verif.Spec.Response
import Verif.Spec.Route
import Verif.Spec.Schedule
import Verif.Spec.Span
import Verif.Spec.Stats
import Verif.Spec.Tls
import Verif.Spec.Uri
import Verif.Spec.Uuid
