import Verif.Props.Prime
import Verif.Props.Maglev
import Verif.Props.MaglevMem
import Verif.Props.MaglevRace
import Verif.Props.Packet
import Verif.Props.Lb
import Verif.Props.Conntrack
import Verif.Props.ItemPool
import Verif.Props.Reassembler
import Verif.Props.FragTable
import Verif.Props.FragRace
import Verif.Props.RangeSet
import Verif.Props.Match
import Verif.Props.Flow
import Verif.Props.FlowLb
import Verif.Props.LbRace
import Verif.Props.EndToEnd
import Verif.Props.RemoteCmd
import Verif.Props.Nfqueue
import Verif.Props.Cmd
import Verif.Props.Shmem
import Verif.Props.Ipu
import Verif.Props.IpuCmd
import Verif.Props.FlowPrint
import Verif.Props.Server
import Verif.Props.Trace
import Verif.Props.TraceSrv
import Verif.Props.Addr
import Verif.Props.Options
import Verif.Props.Start
import Verif.Props.Report
import Verif.Props.Session
import Verif.Props.Client
import Verif.Props.MagStatic
import Verif.Props.Reinit
import Verif.Props.Log
import Verif.Props.LogShm
import Verif.Props.Copy
import Verif.Props.NlMsg
import Verif.Props.System
import Verif.Props.FlowSystem
import Verif.Props.FragIdeal
import Verif.Props.Xlb
import Verif.Props.PacketExact
import Verif.Props.Tun
import Verif.Props.Sock
import Verif.Props.CopyOut
import Verif.Props.TraceText
import Verif.Props.FragDestroy
import Verif.Props.QueueSetup
import Verif.Props.FtShm
