import Verif.Bytes.AnyBuf
import Verif.Bytes.AnyMut
import Verif.Bytes.Buf
import Verif.Bytes.Codec
import Verif.Bytes.Str
import Verif.Bytes.Universe
import Verif.Bytes.Utf
import Verif.Conform.Bytes
import Verif.Conform.Docs
import Verif.Conform.Proto
import Verif.Conform.Rt
import Verif.Conform.Someip
import Verif.Lemmas.AnyBuf
import Verif.Lemmas.AnyMut
import Verif.Lemmas.Be
import Verif.Lemmas.Crash
import Verif.Lemmas.Endless
import Verif.Lemmas.Endpoint
import Verif.Lemmas.EpAll
import Verif.Lemmas.EpAsk
import Verif.Lemmas.EpCaps
import Verif.Lemmas.EpConn
import Verif.Lemmas.EpCount
import Verif.Lemmas.EpFed
import Verif.Lemmas.EpHeld
import Verif.Lemmas.EpHist
import Verif.Lemmas.EpHome
import Verif.Lemmas.EpInv
import Verif.Lemmas.EpMade
import Verif.Lemmas.EpMove
import Verif.Lemmas.EpOpen
import Verif.Lemmas.EpOwn
import Verif.Lemmas.EpPipe
import Verif.Lemmas.EpQuiet
import Verif.Lemmas.EpRun
import Verif.Lemmas.EpSeen
import Verif.Lemmas.EpSend
import Verif.Lemmas.EpSeq
import Verif.Lemmas.EpShut
import Verif.Lemmas.EpTold
import Verif.Lemmas.EpUse
import Verif.Lemmas.EpWire
import Verif.Lemmas.EpWords
import Verif.Lemmas.EpWork
import Verif.Lemmas.FairRun
import Verif.Lemmas.Frames
import Verif.Lemmas.GoesRun
import Verif.Lemmas.Map
import Verif.Lemmas.Net
import Verif.Lemmas.NetAll
import Verif.Lemmas.NetRun
import Verif.Lemmas.Node
import Verif.Lemmas.NodeCut
import Verif.Lemmas.NodeHist
import Verif.Lemmas.NodeIdle
import Verif.Lemmas.NodeLink
import Verif.Lemmas.NodeLive
import Verif.Lemmas.NodeOnce
import Verif.Lemmas.NodeOpen
import Verif.Lemmas.NodeRest
import Verif.Lemmas.NodeRun
import Verif.Lemmas.Once
import Verif.Lemmas.Proto
import Verif.Lemmas.Reader
import Verif.Lemmas.RoundTrip
import Verif.Lemmas.Sample
import Verif.Lemmas.SerUniverse
import Verif.Lemmas.Someip
import Verif.Lemmas.Strings
import Verif.Lemmas.TcpCrash
import Verif.Lemmas.TcpCrashRun
import Verif.Lemmas.TcpNet
import Verif.Lemmas.TcpNetRun
import Verif.Lemmas.TcpNode
import Verif.Lemmas.TcpOpen
import Verif.Lemmas.TcpOs
import Verif.Lemmas.TcpRun
import Verif.Lemmas.TcpTally
import Verif.Lemmas.Termination
import Verif.Lemmas.Tp
import Verif.Lemmas.Udp
import Verif.Lemmas.UdpHist
import Verif.Lemmas.UdpKept
import Verif.Lemmas.UdpOut
import Verif.Lemmas.UdpSole
import Verif.Lemmas.UdpWords
import Verif.Lemmas.UdpWork
import Verif.Lemmas.Utf
import Verif.Lemmas.Writer
import Verif.Props.AnyBuf
import Verif.Props.AnyMut
import Verif.Props.Decode
import Verif.Props.Display
import Verif.Props.Memory
import Verif.Props.Numbers
import Verif.Props.Proto.Endpoint
import Verif.Props.Proto.Enums
import Verif.Props.Proto.Ids
import Verif.Props.Proto.Message
import Verif.Props.Proto.Sample
import Verif.Props.Proto.Tp
import Verif.Props.Proto.TpFlag
import Verif.Props.Proto.TpMany
import Verif.Props.Resend
import Verif.Props.RoundTrip
import Verif.Props.Rt.Again
import Verif.Props.Rt.Arrive
import Verif.Props.Rt.Bounded
import Verif.Props.Rt.Cancel
import Verif.Props.Rt.Carry
import Verif.Props.Rt.Chan
import Verif.Props.Rt.Closed
import Verif.Props.Rt.Connecting
import Verif.Props.Rt.Count
import Verif.Props.Rt.CountTcp
import Verif.Props.Rt.Crash
import Verif.Props.Rt.CrashRound
import Verif.Props.Rt.CrashRoundTcp
import Verif.Props.Rt.Crowd
import Verif.Props.Rt.Done
import Verif.Props.Rt.Endpoint
import Verif.Props.Rt.Final
import Verif.Props.Rt.Home
import Verif.Props.Rt.Leak
import Verif.Props.Rt.Lifetime
import Verif.Props.Rt.Live
import Verif.Props.Rt.LiveAnswer
import Verif.Props.Rt.LiveEnd
import Verif.Props.Rt.LiveFree
import Verif.Props.Rt.LiveHandle
import Verif.Props.Rt.LiveNet
import Verif.Props.Rt.LiveRound
import Verif.Props.Rt.LiveTcp
import Verif.Props.Rt.LiveTcpCrash
import Verif.Props.Rt.LiveTcpHandle
import Verif.Props.Rt.LiveTcpNet
import Verif.Props.Rt.LiveUdp
import Verif.Props.Rt.Long
import Verif.Props.Rt.Net
import Verif.Props.Rt.Node
import Verif.Props.Rt.NodeCut
import Verif.Props.Rt.NodeEnd
import Verif.Props.Rt.NodeOpen
import Verif.Props.Rt.Once
import Verif.Props.Rt.Packets
import Verif.Props.Rt.Possible
import Verif.Props.Rt.Refuse
import Verif.Props.Rt.Requests
import Verif.Props.Rt.Response
import Verif.Props.Rt.Rest
import Verif.Props.Rt.Send
import Verif.Props.Rt.SharedMap
import Verif.Props.Rt.Tcp
import Verif.Props.Rt.TcpCarry
import Verif.Props.Rt.TcpCrash
import Verif.Props.Rt.TcpDone
import Verif.Props.Rt.TcpNet
import Verif.Props.Rt.TcpNode
import Verif.Props.Rt.TcpOpen
import Verif.Props.Rt.TcpOs
import Verif.Props.Rt.Told
import Verif.Props.Rt.ToldTcp
import Verif.Props.Rt.ToldUdp
import Verif.Props.Rt.Udp
import Verif.Props.Rt.UdpBounded
import Verif.Props.Rt.UdpClose
import Verif.Props.Rt.UdpFirst
import Verif.Props.Rt.UdpQueue
import Verif.Props.Rt.UdpRecv
import Verif.Props.Rt.UdpSole
import Verif.Props.Rt.Unpolled
import Verif.Props.Rt.Weak
import Verif.Props.Rt.Why
import Verif.Props.Serialize
import Verif.Props.Someip
import Verif.Props.SomeipBuilders
import Verif.Props.Strings
import Verif.Props.Truncate
import Verif.Props.VecTermination
import Verif.Proto.Display
import Verif.Proto.Endpoint
import Verif.Proto.Interface
import Verif.Proto.Message
import Verif.Proto.Primitives
import Verif.Proto.Sample
import Verif.Proto.Tp
import Verif.Rt.Chan
import Verif.Rt.Crash
import Verif.Rt.Endpoint
import Verif.Rt.Exec
import Verif.Rt.Net
import Verif.Rt.Node
import Verif.Rt.Response
import Verif.Rt.SharedMap
import Verif.Rt.Tasks
import Verif.Rt.Tcp
import Verif.Rt.TcpCrash
import Verif.Rt.TcpNet
import Verif.Rt.TcpNode
import Verif.Rt.TcpOs
import Verif.Rt.Udp
import Verif.Someip.Interface
import Verif.Someip.Message
import Verif.Spec.AnyBuf
import Verif.Spec.AnyMut
import Verif.Spec.Chan
import Verif.Spec.Crash
import Verif.Spec.Endless
import Verif.Spec.Endpoint
import Verif.Spec.Fair
import Verif.Spec.FairNet
import Verif.Spec.FairNode
import Verif.Spec.FairTcp
import Verif.Spec.FairTcpCrash
import Verif.Spec.FairTcpNet
import Verif.Spec.Frames
import Verif.Spec.Goes
import Verif.Spec.Interface
import Verif.Spec.Memory
import Verif.Spec.Message
import Verif.Spec.Net
import Verif.Spec.Node
import Verif.Spec.Once
import Verif.Spec.Resend
import Verif.Spec.Sample
import Verif.Spec.Shape
import Verif.Spec.SharedMap
import Verif.Spec.Steps
import Verif.Spec.Tables
import Verif.Spec.TcpCrash
import Verif.Spec.TcpNet
import Verif.Spec.TcpNode
import Verif.Spec.Tp
import Verif.Spec.TpFlag
import Verif.Spec.TpMany
import Verif.Spec.Udp
import Verif.Spec.UdpWords
import Verif.Spec.Wire
import Verif.Support.Map
