import Verif.Props.Codec
import Verif.Props.Packet
import Verif.Props.Replay
import Verif.Props.Reassembly
import Verif.Props.Receive
import Verif.Props.ReadQueue
import Verif.Props.Send
import Verif.Props.EndToEnd
import Verif.Props.DelayedSend
import Verif.Props.Lifecycle
import Verif.Props.StateWait
import Verif.Props.Messenger
import Verif.Props.KeyExchange
import Verif.Props.KeyRotation
import Verif.Props.SessionID
import Verif.Props.Negotiator
import Verif.Props.Identity
import Verif.Props.Mutual
import Verif.Props.Traffic
import Verif.Props.Memory
import Verif.Props.ByteStream
import Verif.Props.Sync
import Verif.Props.Wait
import Verif.Props.Handshake
import Verif.Props.Options
import Verif.Props.Reader
import Verif.Props.Rekey
import Verif.Props.Detach
import Verif.Props.StdIO
import Verif.Props.Reflection
import Verif.Props.WriteBuffer
import Verif.Props.Output
import Verif.Props.Connect
import Verif.Props.Delivery
import Verif.Props.SendNow
import Verif.Props.SeqWrite
import Verif.Props.Errors
import Verif.Props.Names
import Verif.Props.Closure
import Verif.Props.SendTimer
import Verif.Props.Forget
import Verif.Props.CloseFlush
import Verif.Props.Amplify
import Verif.Props.WriteEnd
import Verif.Props.Silent
import Verif.Props.ReadChan
import Verif.Props.Handlers
import Verif.Props.Misbinding
import Verif.Props.Forged
import Verif.Props.Restart
import Verif.Props.StaleAnswer
import Verif.Props.Secrecy
import Verif.Props.QuickStart
import Verif.Props.SizeChange
import Verif.Props.ClosedWrite
import Verif.Props.AsyncWrite
import Verif.Props.DoneEnd
import Verif.Props.SendID
import Verif.Props.Timing
import Verif.Props.Signature
import Verif.Props.SendCount
import Verif.Props.Order
import Verif.Props.EarlyWrite
import Verif.Props.Numbering
import Verif.Props.SizeGet
import Verif.Props.Single
import Verif.Props.Pool
import Verif.Props.KeyTimer
import Verif.Props.CloseReturns
import Verif.Props.CloseReport
import Verif.Props.StartContext
import Verif.Props.Constructors
import Verif.Props.KeySuccess
import Verif.Props.Retry
import Verif.Props.RemoteIdentity
import Verif.Props.MutualError
import Verif.Props.Goroutines
import Verif.Props.Ephemeral
import Verif.Props.Outsider
import Verif.Props.Reports
import Verif.Props.Stall
import Verif.Props.Backlog
import Verif.Props.FreshKeys
import Verif.Props.Merge
import Verif.Props.Starve
import Verif.Props.Dead
import Verif.Props.AnswersMode
import Verif.Props.Setup
import Verif.Props.Contents
import Verif.Props.Probes
import Verif.Props.WrongPSK
import Verif.Props.SameKeys
import Verif.Props.Dropped
import Verif.Props.Garbage
