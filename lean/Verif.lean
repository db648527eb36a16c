import Verif.Props.Rx
import Verif.Props.RxStat
import Verif.Props.RxMem
import Verif.Props.Crc
import Verif.Props.Dedup
import Verif.Props.Reorder
import Verif.Props.Replies
import Verif.Props.Routing
import Verif.Props.Timer
import Verif.Props.Loop
import Verif.Props.LoopMore
import Verif.Props.Link
import Verif.Props.LogHist
import Verif.Props.ULog
import Verif.Props.BinLog
import Verif.Props.BinStored
import Verif.Props.TLog
import Verif.Props.Armed
import Verif.Props.AutoLog
import Verif.Props.LogRouter
import Verif.Props.Conf
import Verif.Props.ConfNum
import Verif.Props.Config
import Verif.Props.Addr
import Verif.Props.Cli
import Verif.Props.CliWords
import Verif.Props.ConfDir
import Verif.Props.Mkdir
import Verif.Props.LogProto
import Verif.Props.LogCall
import Verif.Props.LogChain
import Verif.Props.Order
import Verif.Props.Unknown
import Verif.Props.DedupRouter
import Verif.Props.Datagram
import Verif.Props.Complete
import Verif.Props.Start
import Verif.Props.StartDiag
import Verif.Props.Termios
import Verif.Props.NoLog
import Verif.Props.Open
import Verif.Props.V6
import Verif.Props.Exit
import Verif.Props.Fair
import Verif.Props.Sync
import Verif.Props.Diag
import Verif.Props.Lifetime
import Verif.Props.Segments
import Verif.Props.Net
import Verif.Props.Parallel
import Verif.Props.Wire
import Verif.Props.Zombie
import Verif.Props.LogOrder
import Verif.Props.Shutdown
import Verif.Props.Talk
import Verif.Props.TalkDedup
import Verif.Props.BinNack
import Verif.Props.ULogLoss
import Verif.Props.ULogLost
import Verif.Props.ULogFlight
import Verif.Props.ULogAck
import Verif.Props.Recover
import Verif.Props.Memory
import Verif.Props.Alike
import Verif.Props.Program
import Verif.Props.Errno
import Verif.Props.Watch
import Verif.Props.Broken
import Verif.Props.Restart
import Verif.Props.OpenV6
import Verif.Props.Stranger
import Verif.Props.OutOnly
import Verif.Props.DedupOnly
import Verif.Props.Serve
import Verif.Props.InOnly
import Verif.Props.Listener
import Verif.Props.Roam
import Verif.Props.Concern
import Verif.Props.Client
import Verif.Props.Fresh
import Verif.Props.Silent
import Verif.Props.LogSent
import Verif.Props.ReadLoop
import Verif.Props.Noticed
import Verif.Props.Opens
import Verif.Props.ArrivalOrder
import Verif.Props.UdpRouter
import Verif.Props.Moved
import Verif.Props.Bridge
import Verif.Props.BridgeStart
import Verif.Props.Spill
import Verif.Props.Others
import Verif.Props.LogCount
import Verif.Props.Accept
import Verif.Props.ConfMem
import Verif.Props.Edited
import Verif.Props.Refused
