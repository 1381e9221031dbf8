import Verif.Lemmas.AckTime
import Verif.Lemmas.AckTimeRun
import Verif.Lemmas.AckTimeStep
import Verif.Lemmas.Arith
import Verif.Lemmas.Bar
import Verif.Lemmas.Be
import Verif.Lemmas.BeRange
import Verif.Lemmas.Bits
import Verif.Lemmas.CapHost
import Verif.Lemmas.CapRegs
import Verif.Lemmas.CapSpace
import Verif.Lemmas.Caps
import Verif.Lemmas.CapsWalk
import Verif.Lemmas.CfgAccess
import Verif.Lemmas.CfgFabric
import Verif.Lemmas.CfgFabricHost
import Verif.Lemmas.CfgFabricNum
import Verif.Lemmas.CfgFabricRun
import Verif.Lemmas.CfgFabricScan
import Verif.Lemmas.CfgOut
import Verif.Lemmas.Completer
import Verif.Lemmas.Conc
import Verif.Lemmas.ConcCall
import Verif.Lemmas.ConcLive
import Verif.Lemmas.ConcSys
import Verif.Lemmas.Config
import Verif.Lemmas.Crc
import Verif.Lemmas.Crs
import Verif.Lemmas.Decode
import Verif.Lemmas.DmaSys
import Verif.Lemmas.EndToEnd
import Verif.Lemmas.Enum
import Verif.Lemmas.EnumAssign
import Verif.Lemmas.EnumAssign2
import Verif.Lemmas.EnumBridge
import Verif.Lemmas.EnumClean
import Verif.Lemmas.EnumHdr
import Verif.Lemmas.EnumRead
import Verif.Lemmas.EnumTree
import Verif.Lemmas.EnumTree2
import Verif.Lemmas.Fabric
import Verif.Lemmas.FabricEnum
import Verif.Lemmas.FabricRoot
import Verif.Lemmas.FcGate
import Verif.Lemmas.FcTime
import Verif.Lemmas.FcTimeGo
import Verif.Lemmas.FcTimeObs
import Verif.Lemmas.FcTimeRun
import Verif.Lemmas.FcTimeStep
import Verif.Lemmas.Field
import Verif.Lemmas.FrameTlp
import Verif.Lemmas.Handshake
import Verif.Lemmas.HierEx
import Verif.Lemmas.HostAssign
import Verif.Lemmas.HostCfg
import Verif.Lemmas.HostDev
import Verif.Lemmas.HostEmb
import Verif.Lemmas.HostEnable
import Verif.Lemmas.HostEnum
import Verif.Lemmas.HostFn
import Verif.Lemmas.HostPath
import Verif.Lemmas.HostProbe
import Verif.Lemmas.HostProg
import Verif.Lemmas.HostScan
import Verif.Lemmas.InitTime
import Verif.Lemmas.InitTimeRun
import Verif.Lemmas.InitTimeStep
import Verif.Lemmas.IntPort
import Verif.Lemmas.IntelDev
import Verif.Lemmas.IntelDma
import Verif.Lemmas.IntelHost
import Verif.Lemmas.IntelLayout
import Verif.Lemmas.Io
import Verif.Lemmas.Link
import Verif.Lemmas.LinkRun
import Verif.Lemmas.MemRead
import Verif.Lemmas.MemWrite
import Verif.Lemmas.Mps
import Verif.Lemmas.Msi
import Verif.Lemmas.MsiFlags
import Verif.Lemmas.MsiPath
import Verif.Lemmas.MsiRegs
import Verif.Lemmas.MsiRun
import Verif.Lemmas.MsiSetup
import Verif.Lemmas.MsiSizes
import Verif.Lemmas.MsiSys
import Verif.Lemmas.Nobody
import Verif.Lemmas.Numbers
import Verif.Lemmas.PTileStream
import Verif.Lemmas.Parity
import Verif.Lemmas.Paused
import Verif.Lemmas.Port
import Verif.Lemmas.PortBase
import Verif.Lemmas.PortRx
import Verif.Lemmas.Region
import Verif.Lemmas.Regions
import Verif.Lemmas.Reset
import Verif.Lemmas.Route
import Verif.Lemmas.RouteMore
import Verif.Lemmas.RqRep
import Verif.Lemmas.S10Stream
import Verif.Lemmas.Scan
import Verif.Lemmas.ScanNum
import Verif.Lemmas.ScanRun
import Verif.Lemmas.SimPort
import Verif.Lemmas.Stream
import Verif.Lemmas.StreamQueue
import Verif.Lemmas.StreamQueueBus
import Verif.Lemmas.StreamQueueLive
import Verif.Lemmas.StreamQueueRun
import Verif.Lemmas.Tag
import Verif.Lemmas.Tlp
import Verif.Lemmas.TlpUnpack
import Verif.Lemmas.Traffic
import Verif.Lemmas.TrafficCpl
import Verif.Lemmas.TrafficOrder
import Verif.Lemmas.TrafficPeer
import Verif.Lemmas.TrafficWrites
import Verif.Lemmas.UsCc
import Verif.Lemmas.UsCq
import Verif.Lemmas.UsCqRun
import Verif.Lemmas.UsDma
import Verif.Lemmas.UsDmaRun
import Verif.Lemmas.UsHip
import Verif.Lemmas.UsHipAvail
import Verif.Lemmas.UsLayout
import Verif.Lemmas.UsMarks
import Verif.Lemmas.UsMgmt
import Verif.Lemmas.UsOrder
import Verif.Lemmas.UsPieces
import Verif.Lemmas.UsSink
import Verif.Lemmas.UsSource
import Verif.Lemmas.UsStream
import Verif.Lemmas.UsTlp
import Verif.Lemmas.UsValues
import Verif.Lemmas.Utils
import Verif.Lemmas.Words
import Verif.Model.Bar
import Verif.Model.CapRegs
import Verif.Model.CapSpace
import Verif.Model.Caps
import Verif.Model.CfgAccess
import Verif.Model.CfgFabric
import Verif.Model.CfgOut
import Verif.Model.Completer
import Verif.Model.Conc
import Verif.Model.ConcSys
import Verif.Model.Config
import Verif.Model.Crs
import Verif.Model.Dllp
import Verif.Model.DmaSys
import Verif.Model.EndToEnd
import Verif.Model.Enum
import Verif.Model.Enumerate
import Verif.Model.Fabric
import Verif.Model.FcGate
import Verif.Model.FcOut
import Verif.Model.FcTime
import Verif.Model.FrameTlp
import Verif.Model.Frames
import Verif.Model.Handshake
import Verif.Model.HostCfg
import Verif.Model.HostEnable
import Verif.Model.HostProg
import Verif.Model.IntPort
import Verif.Model.IntelDev
import Verif.Model.IntelDma
import Verif.Model.IntelHost
import Verif.Model.IntelRx
import Verif.Model.Mem
import Verif.Model.Mps
import Verif.Model.Msi
import Verif.Model.MsiPath
import Verif.Model.MsiSetup
import Verif.Model.Numbers
import Verif.Model.PTileStream
import Verif.Model.Port
import Verif.Model.PyEq
import Verif.Model.Region
import Verif.Model.Reset
import Verif.Model.Route
import Verif.Model.RqRep
import Verif.Model.S10Stream
import Verif.Model.Scan
import Verif.Model.SimPort
import Verif.Model.StreamQueue
import Verif.Model.SwitchArb
import Verif.Model.System
import Verif.Model.Tag
import Verif.Model.Tlp
import Verif.Model.Traffic
import Verif.Model.UsCc
import Verif.Model.UsCq
import Verif.Model.UsDma
import Verif.Model.UsHip
import Verif.Model.UsMgmt
import Verif.Model.UsStream
import Verif.Model.UsTlp
import Verif.Model.Utils
import Verif.Model.Words
import Verif.Props.AckTable
import Verif.Props.AckTime
import Verif.Props.Bar
import Verif.Props.CapRegs
import Verif.Props.CapSpace
import Verif.Props.Caps
import Verif.Props.CfgAccess
import Verif.Props.CfgFabric
import Verif.Props.CfgOut
import Verif.Props.Conc
import Verif.Props.ConcLive
import Verif.Props.ConcSys
import Verif.Props.Config
import Verif.Props.Crs
import Verif.Props.Dllp
import Verif.Props.DmaSys
import Verif.Props.EndToEnd
import Verif.Props.Enum
import Verif.Props.Fabric
import Verif.Props.FcGate
import Verif.Props.FcOut
import Verif.Props.FcTime
import Verif.Props.FrameTlp
import Verif.Props.Handshake
import Verif.Props.HostCfg
import Verif.Props.HostEnable
import Verif.Props.HostEnum
import Verif.Props.InitTime
import Verif.Props.IntPort
import Verif.Props.IntelDev
import Verif.Props.IntelDma
import Verif.Props.IntelHost
import Verif.Props.IntelLayout
import Verif.Props.IntelRx
import Verif.Props.Io
import Verif.Props.Link
import Verif.Props.Memory
import Verif.Props.Mps
import Verif.Props.Msi
import Verif.Props.MsiPath
import Verif.Props.MsiRegs
import Verif.Props.MsiSetup
import Verif.Props.Nobody
import Verif.Props.Numbers
import Verif.Props.PTileStream
import Verif.Props.Parity
import Verif.Props.PyEq
import Verif.Props.Regions
import Verif.Props.Reset
import Verif.Props.Route
import Verif.Props.RqRep
import Verif.Props.S10Stream
import Verif.Props.Scan
import Verif.Props.SimPort
import Verif.Props.StreamQueue
import Verif.Props.StreamQueueLive
import Verif.Props.SwitchArb
import Verif.Props.Tag
import Verif.Props.Tlp
import Verif.Props.Traffic
import Verif.Props.TrafficOrder
import Verif.Props.UsCc
import Verif.Props.UsCq
import Verif.Props.UsDma
import Verif.Props.UsHip
import Verif.Props.UsLayout
import Verif.Props.UsMgmt
import Verif.Props.UsOrder
import Verif.Props.UsStream
import Verif.Props.UsTlp
import Verif.Props.Utils
import Verif.Props.Words
import Verif.Spec.AckTable
import Verif.Spec.AckTime
import Verif.Spec.Bar
import Verif.Spec.Bytes
import Verif.Spec.CapRegs
import Verif.Spec.CapSpace
import Verif.Spec.Caps
import Verif.Spec.CfgFabric
import Verif.Spec.CfgOut
import Verif.Spec.Conc
import Verif.Spec.ConcLive
import Verif.Spec.ConcSys
import Verif.Spec.Config
import Verif.Spec.Crs
import Verif.Spec.Dllp
import Verif.Spec.DmaSys
import Verif.Spec.EndToEnd
import Verif.Spec.Enum
import Verif.Spec.Fabric
import Verif.Spec.FcGate
import Verif.Spec.FcOut
import Verif.Spec.FcTime
import Verif.Spec.Handshake
import Verif.Spec.HostCfg
import Verif.Spec.HostEnable
import Verif.Spec.HostEnum
import Verif.Spec.InitTime
import Verif.Spec.IntPort
import Verif.Spec.IntelDev
import Verif.Spec.IntelDma
import Verif.Spec.IntelHost
import Verif.Spec.IntelLayout
import Verif.Spec.IntelRx
import Verif.Spec.Memory
import Verif.Spec.Mps
import Verif.Spec.Msi
import Verif.Spec.MsiRegs
import Verif.Spec.MsiSetup
import Verif.Spec.Numbers
import Verif.Spec.Parity
import Verif.Spec.Port
import Verif.Spec.Regions
import Verif.Spec.Reset
import Verif.Spec.Route
import Verif.Spec.RqRep
import Verif.Spec.Scan
import Verif.Spec.SimPort
import Verif.Spec.Stream
import Verif.Spec.StreamQueue
import Verif.Spec.StreamQueueLive
import Verif.Spec.Tag
import Verif.Spec.Tlp
import Verif.Spec.Traffic
import Verif.Spec.TrafficOrder
import Verif.Spec.TrafficPeer
import Verif.Spec.UsCc
import Verif.Spec.UsCq
import Verif.Spec.UsDma
import Verif.Spec.UsHip
import Verif.Spec.UsLayout
import Verif.Spec.UsMgmt
import Verif.Spec.UsOrder
import Verif.Spec.UsTlp
import Verif.Spec.Words
