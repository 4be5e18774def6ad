import Verif.Model.A1A2
import Verif.Model.A1Client
import Verif.Model.AioExamples
import Verif.Model.AioTasks
import Verif.Model.AppChannel
import Verif.Model.Arrays
import Verif.Model.Attr
import Verif.Model.Basic
import Verif.Model.CTypes
import Verif.Model.ChkField
import Verif.Model.ChkKeys
import Verif.Model.ChkSalsa
import Verif.Model.ChkSha
import Verif.Model.ChkSign
import Verif.Model.Client
import Verif.Model.ClientServer
import Verif.Model.Crypto
import Verif.Model.Dev
import Verif.Model.Drivers
import Verif.Model.EncChannel
import Verif.Model.Examples
import Verif.Model.KeyText
import Verif.Model.Loops
import Verif.Model.Meta
import Verif.Model.Packets
import Verif.Model.Prog
import Verif.Model.SaltPure
import Verif.Model.Saltlib
import Verif.Model.SaltlibClass
import Verif.Model.Server
import Verif.Model.Socket
import Verif.Model.TInt
import Verif.Model.Tasks
import Verif.Model.TestData
import Verif.Model.Time
import Verif.Model.TweetBox
import Verif.Model.TweetField
import Verif.Model.TweetSalsa
import Verif.Model.TweetSha
import Verif.Model.TweetSign
import Verif.Lemmas.Again
import Verif.Lemmas.AgainNet
import Verif.Lemmas.Agree
import Verif.Lemmas.AioBreak
import Verif.Lemmas.AioFinal
import Verif.Lemmas.AioFork
import Verif.Lemmas.AioImpl
import Verif.Lemmas.AioPair
import Verif.Lemmas.AioPlain
import Verif.Lemmas.AioSim
import Verif.Lemmas.AioTime
import Verif.Lemmas.AnyTime
import Verif.Lemmas.App
import Verif.Lemmas.Asks
import Verif.Lemmas.Box
import Verif.Lemmas.Broken
import Verif.Lemmas.BrokenScript
import Verif.Lemmas.BrokenSession
import Verif.Lemmas.BrokenSock
import Verif.Lemmas.BrokenStream
import Verif.Lemmas.BufNet
import Verif.Lemmas.BufSession
import Verif.Lemmas.Bytes
import Verif.Lemmas.Channel
import Verif.Lemmas.Chk
import Verif.Lemmas.ChkBox
import Verif.Lemmas.ChkField
import Verif.Lemmas.ChkKeys
import Verif.Lemmas.ChkSha
import Verif.Lemmas.ChkShort
import Verif.Lemmas.ChkSign
import Verif.Lemmas.ChkSign2
import Verif.Lemmas.Clean
import Verif.Lemmas.Core
import Verif.Lemmas.Counted
import Verif.Lemmas.Ed25519
import Verif.Lemmas.EdExt
import Verif.Lemmas.EdOrder
import Verif.Lemmas.Edwards
import Verif.Lemmas.Failed
import Verif.Lemmas.Farm
import Verif.Lemmas.Field
import Verif.Lemmas.Field2
import Verif.Lemmas.Field3
import Verif.Lemmas.Field4
import Verif.Lemmas.Field5
import Verif.Lemmas.Field6
import Verif.Lemmas.Flow
import Verif.Lemmas.FlowDead
import Verif.Lemmas.FlowTasks
import Verif.Lemmas.Hoare
import Verif.Lemmas.Honest
import Verif.Lemmas.Ladder
import Verif.Lemmas.Lanes
import Verif.Lemmas.ModL
import Verif.Lemmas.ModL2
import Verif.Lemmas.ModL3
import Verif.Lemmas.Montgomery
import Verif.Lemmas.MpRun
import Verif.Lemmas.Net
import Verif.Lemmas.NetCalls
import Verif.Lemmas.NetEager
import Verif.Lemmas.NetLog
import Verif.Lemmas.NetSession
import Verif.Lemmas.NetSim
import Verif.Lemmas.OpenTasks
import Verif.Lemmas.Ops
import Verif.Lemmas.Packets
import Verif.Lemmas.Poly
import Verif.Lemmas.Poly2
import Verif.Lemmas.Poly3
import Verif.Lemmas.Poly4
import Verif.Lemmas.Pool
import Verif.Lemmas.Prime
import Verif.Lemmas.Prog
import Verif.Lemmas.PureRaw
import Verif.Lemmas.Raises
import Verif.Lemmas.Rounds
import Verif.Lemmas.Salsa
import Verif.Lemmas.Script
import Verif.Lemmas.Secrecy
import Verif.Lemmas.Session
import Verif.Lemmas.SessionChan
import Verif.Lemmas.SessionCut
import Verif.Lemmas.SessionOk
import Verif.Lemmas.SessionOk2
import Verif.Lemmas.SessionRun
import Verif.Lemmas.Sha
import Verif.Lemmas.Sha2
import Verif.Lemmas.Sha3
import Verif.Lemmas.Sha4
import Verif.Lemmas.SharedTime
import Verif.Lemmas.Sign
import Verif.Lemmas.Sign2
import Verif.Lemmas.SignOpen
import Verif.Lemmas.SignPack
import Verif.Lemmas.SignPt
import Verif.Lemmas.SimLog
import Verif.Lemmas.SockNet
import Verif.Lemmas.SockSession
import Verif.Lemmas.Stream
import Verif.Lemmas.TInt
import Verif.Lemmas.TaskSim
import Verif.Lemmas.Tasks
import Verif.Lemmas.Tcp
import Verif.Lemmas.TcpBreak
import Verif.Lemmas.TcpTime
import Verif.Lemmas.Twist
import Verif.Lemmas.TwistOrder
import Verif.Lemmas.Unpack
import Verif.Lemmas.Utf8
import Verif.Lemmas.World
import Verif.Lemmas.X25519
import Verif.Spec.Again
import Verif.Spec.AioBreak
import Verif.Spec.AioFarm
import Verif.Spec.AioFork
import Verif.Spec.AioNet
import Verif.Spec.AioPair
import Verif.Spec.AioTime
import Verif.Spec.AnyTime
import Verif.Spec.App
import Verif.Spec.Asks
import Verif.Spec.Backends
import Verif.Spec.Broken
import Verif.Spec.BrokenSock
import Verif.Spec.BrokenStream
import Verif.Spec.BufNet
import Verif.Spec.Channel
import Verif.Spec.CryptoLaws
import Verif.Spec.Dev
import Verif.Spec.Drivers
import Verif.Spec.Ed25519
import Verif.Spec.Farm
import Verif.Spec.Flow
import Verif.Spec.Framing
import Verif.Spec.Interrupt
import Verif.Spec.Log
import Verif.Spec.Nacl
import Verif.Spec.Net
import Verif.Spec.OpenTasks
import Verif.Spec.Salsa20
import Verif.Spec.Saltlib
import Verif.Spec.Secrecy
import Verif.Spec.Session
import Verif.Spec.Sha512
import Verif.Spec.SharedTime
import Verif.Spec.SockNet
import Verif.Spec.StreamEnd
import Verif.Spec.TaskNet
import Verif.Spec.Tcp
import Verif.Spec.TcpBreak
import Verif.Spec.TcpTime
import Verif.Spec.Trace
import Verif.Spec.Utf8
import Verif.Spec.Wire
import Verif.Spec.World
import Verif.Spec.X25519
import Verif.Spec.X25519Small
import Verif.Props.Again
import Verif.Props.AgainNet
import Verif.Props.AioBreak
import Verif.Props.AioExamples
import Verif.Props.AioFork
import Verif.Props.AioReads
import Verif.Props.AioSession
import Verif.Props.AioTasks
import Verif.Props.AioTime
import Verif.Props.AioWrites
import Verif.Props.AnyTime
import Verif.Props.AppChannel
import Verif.Props.Backends
import Verif.Props.Broken
import Verif.Props.Buffers
import Verif.Props.ClientServer
import Verif.Props.ClientServerA
import Verif.Props.CountedRuns
import Verif.Props.Degenerate
import Verif.Props.Dev1
import Verif.Props.Dev2
import Verif.Props.Drivers
import Verif.Props.EncChannel
import Verif.Props.Failed
import Verif.Props.Flow
import Verif.Props.FlowTasks
import Verif.Props.Framing
import Verif.Props.Interrupt
import Verif.Props.Keeper
import Verif.Props.KeyText
import Verif.Props.Last
import Verif.Props.Loops
import Verif.Props.Meta1
import Verif.Props.Nacl1
import Verif.Props.Net1
import Verif.Props.Net2
import Verif.Props.OpenTasks
import Verif.Props.Packets1
import Verif.Props.Packets2
import Verif.Props.Packets3
import Verif.Props.Packets4
import Verif.Props.Packets5
import Verif.Props.Packets6
import Verif.Props.PureAgree
import Verif.Props.PureBox
import Verif.Props.PureHash
import Verif.Props.PureLengths
import Verif.Props.PurePairs
import Verif.Props.PureSign
import Verif.Props.PureSignOpen
import Verif.Props.PureStream
import Verif.Props.PureX25519
import Verif.Props.Reuse
import Verif.Props.Saltlib1
import Verif.Props.Saltlib2
import Verif.Props.SaltlibClass
import Verif.Props.Secrecy
import Verif.Props.Session1
import Verif.Props.Session2
import Verif.Props.Session3
import Verif.Props.Session4
import Verif.Props.Session5
import Verif.Props.Session6
import Verif.Props.Session7
import Verif.Props.SharedTime
import Verif.Props.SharedTimes
import Verif.Props.StopServer
import Verif.Props.StopServerA
import Verif.Props.Tasks
import Verif.Props.TcpBreak
import Verif.Props.TcpTime
import Verif.Props.TestData
import Verif.Props.Transcript
import Verif.Props.UnitTests
import Verif.Props.World
