import Verif.Model.Accept
import Verif.Model.Aho
import Verif.Model.AhoFree
import Verif.Model.Auth
import Verif.Model.BHeap
import Verif.Model.Bst
import Verif.Model.CJson
import Verif.Model.CJsonCompare
import Verif.Model.CJsonCreate
import Verif.Model.CJsonDup
import Verif.Model.CJsonEdit
import Verif.Model.CJsonMem
import Verif.Model.CJsonMinify
import Verif.Model.CJsonNamed
import Verif.Model.CJsonPrint
import Verif.Model.CJsonRef
import Verif.Model.Cipher
import Verif.Model.Config
import Verif.Model.Conns
import Verif.Model.Control
import Verif.Model.Dns
import Verif.Model.Event
import Verif.Model.Exit
import Verif.Model.EzHash
import Verif.Model.Hold
import Verif.Model.HttpBody
import Verif.Model.HttpReq
import Verif.Model.Ident
import Verif.Model.Idle
import Verif.Model.Log
import Verif.Model.Loop
import Verif.Model.Mem
import Verif.Model.Meta
import Verif.Model.NetSend
import Verif.Model.Path
import Verif.Model.Peek
import Verif.Model.Printf
import Verif.Model.Process
import Verif.Model.Queue
import Verif.Model.Recv
import Verif.Model.Reload
import Verif.Model.Ring
import Verif.Model.Select
import Verif.Model.Seq
import Verif.Model.Serve
import Verif.Model.Session
import Verif.Model.Signals
import Verif.Model.Socks5
import Verif.Model.Spawn
import Verif.Model.Ssl
import Verif.Model.Start
import Verif.Model.Stop
import Verif.Model.Str
import Verif.Model.SysTime
import Verif.Model.Timer
import Verif.Model.TlsClient
import Verif.Model.TlsClose
import Verif.Model.TlsRelay
import Verif.Model.TlsServe
import Verif.Model.TlsSetup
import Verif.Model.Tunnel
import Verif.Model.TunnelC
import Verif.Model.Upstream
import Verif.Model.WebAccept
import Verif.Model.WebConn
import Verif.Model.WebHold
import Verif.Model.WebLife
import Verif.Model.WebPlain
import Verif.Model.WebRsp
import Verif.Model.WebSend
import Verif.Model.Webser
import Verif.Model.Worker
import Verif.Proofs.Aho
import Verif.Proofs.AhoFree
import Verif.Proofs.Auth
import Verif.Proofs.BHeap
import Verif.Proofs.CJson
import Verif.Proofs.CJsonCompare
import Verif.Proofs.CJsonCreate
import Verif.Proofs.CJsonDoc
import Verif.Proofs.CJsonDup
import Verif.Proofs.CJsonDupRing
import Verif.Proofs.CJsonEdit
import Verif.Proofs.CJsonLax
import Verif.Proofs.CJsonMem
import Verif.Proofs.CJsonMinify
import Verif.Proofs.CJsonMinifyText
import Verif.Proofs.CJsonNamed
import Verif.Proofs.CJsonParseRing
import Verif.Proofs.CJsonPrint
import Verif.Proofs.CJsonPrintBack
import Verif.Proofs.CJsonRef
import Verif.Proofs.Config
import Verif.Proofs.Conns
import Verif.Proofs.Dns
import Verif.Proofs.Event
import Verif.Proofs.EzHash
import Verif.Proofs.Hold
import Verif.Proofs.HttpBody
import Verif.Proofs.HttpReq
import Verif.Proofs.KeySize
import Verif.Proofs.Mem
import Verif.Proofs.NetSend
import Verif.Proofs.Path
import Verif.Proofs.Printf
import Verif.Proofs.Process
import Verif.Proofs.Queue
import Verif.Proofs.Recv
import Verif.Proofs.Response
import Verif.Proofs.Select
import Verif.Proofs.Session
import Verif.Proofs.SessionChecks
import Verif.Proofs.SessionClient
import Verif.Proofs.SessionCode
import Verif.Proofs.SessionServer
import Verif.Proofs.SessionStates
import Verif.Proofs.Socks5
import Verif.Proofs.Timer
import Verif.Proofs.TimerLate
import Verif.Proofs.TlsClient
import Verif.Proofs.TlsRelay
import Verif.Proofs.TlsRelayCex
import Verif.Proofs.TlsRelayLive
import Verif.Proofs.TlsServe
import Verif.Proofs.Tunnel
import Verif.Proofs.TunnelLive
import Verif.Proofs.Web
import Verif.Proofs.WebAccept
import Verif.Proofs.WebAsk
import Verif.Proofs.WebConn
import Verif.Proofs.WebHold
import Verif.Proofs.WebPlain
import Verif.Proofs.WebSend
import Verif.Proofs.Worker
import Verif.Proofs.WorkerInv
import Verif.Props.Accept
import Verif.Props.AhoFree
import Verif.Props.Auth
import Verif.Props.BHeap
import Verif.Props.Bst
import Verif.Props.CJson
import Verif.Props.CJsonAccept
import Verif.Props.CJsonCompare
import Verif.Props.CJsonCreate
import Verif.Props.CJsonDup
import Verif.Props.CJsonEdit
import Verif.Props.CJsonMem
import Verif.Props.CJsonMinify
import Verif.Props.CJsonNamed
import Verif.Props.CJsonPrint
import Verif.Props.CJsonRef
import Verif.Props.CJsonRing
import Verif.Props.Cipher
import Verif.Props.Config
import Verif.Props.ConfigCut
import Verif.Props.Conns
import Verif.Props.Control
import Verif.Props.Dns
import Verif.Props.Event
import Verif.Props.Exit
import Verif.Props.EzHash
import Verif.Props.Hold
import Verif.Props.HttpBody
import Verif.Props.HttpReq
import Verif.Props.Ident
import Verif.Props.Idle
import Verif.Props.Log
import Verif.Props.Loop
import Verif.Props.Mem
import Verif.Props.Meta
import Verif.Props.NetSend
import Verif.Props.Path
import Verif.Props.Peek
import Verif.Props.Process
import Verif.Props.Queue
import Verif.Props.Reload
import Verif.Props.Ring
import Verif.Props.Select
import Verif.Props.Seq
import Verif.Props.Serve
import Verif.Props.Session
import Verif.Props.Signals
import Verif.Props.Socks5
import Verif.Props.Spawn
import Verif.Props.Ssl
import Verif.Props.Start
import Verif.Props.Stop
import Verif.Props.Str
import Verif.Props.SysTime
import Verif.Props.Timer
import Verif.Props.TimerLate
import Verif.Props.TlsClient
import Verif.Props.TlsClose
import Verif.Props.TlsPath
import Verif.Props.TlsRelay
import Verif.Props.TlsServe
import Verif.Props.TlsSetup
import Verif.Props.Tunnel
import Verif.Props.TunnelC
import Verif.Props.Upstream
import Verif.Props.Web
import Verif.Props.WebAccept
import Verif.Props.WebConn
import Verif.Props.WebHold
import Verif.Props.WebLife
import Verif.Props.WebPlain
import Verif.Props.WebRsp
import Verif.Props.WebSend
import Verif.Props.Worker
import Verif.Spec.Auth
import Verif.Spec.BHeap
import Verif.Spec.Bst
import Verif.Spec.CJson
import Verif.Spec.CJsonCompare
import Verif.Spec.CJsonCreate
import Verif.Spec.CJsonDup
import Verif.Spec.CJsonEdit
import Verif.Spec.CJsonLax
import Verif.Spec.CJsonMem
import Verif.Spec.CJsonMinify
import Verif.Spec.CJsonPrint
import Verif.Spec.CJsonRef
import Verif.Spec.Cipher
import Verif.Spec.Clock
import Verif.Spec.Config
import Verif.Spec.Conns
import Verif.Spec.Date
import Verif.Spec.Dns
import Verif.Spec.Event
import Verif.Spec.EzHash
import Verif.Spec.Hold
import Verif.Spec.HttpReq
import Verif.Spec.Mem
import Verif.Spec.Path
import Verif.Spec.Queue
import Verif.Spec.Response
import Verif.Spec.Ring
import Verif.Spec.Session
import Verif.Spec.Socks5
import Verif.Spec.Stream
import Verif.Spec.Timer
import Verif.Spec.TimerLate
import Verif.Spec.TlsClient
import Verif.Spec.TlsRelay
import Verif.Spec.TlsServe
import Verif.Spec.Tunnel
import Verif.Spec.Web
import Verif.Spec.WebAccept
import Verif.Spec.WebConn
import Verif.Spec.WebHold
import Verif.Spec.WebPlain
import Verif.Spec.WebSend
import Verif.Spec.Worker
