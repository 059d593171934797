import Verif.Props.Packet
import Verif.Props.Wire
import Verif.Props.Sync
import Verif.Props.Offsets
import Verif.Props.LastIp
import Verif.Props.TntCache
import Verif.Props.RetStack
import Verif.Props.EventQueue
import Verif.Props.Asid
import Verif.Props.Cpu
import Verif.Props.Time
import Verif.Props.Cbr
import Verif.Props.Cyc
import Verif.Props.Image
import Verif.Props.Section
import Verif.Props.MsecCache
import Verif.Props.ISCache
import Verif.Props.EventDecoder
import Verif.TimingInv
import Verif.PacketErr
import Verif.EventDecoderTick
import Verif.EventDecoderInv
import Verif.EventDecoderInv2
import Verif.EventDecoderInv3
import Verif.EventDecoderInv4
import Verif.EventDecoderInv5
import Verif.EventDecoderInv6
import Verif.EventDecoderInv7
import Verif.Props.EventInv
import Verif.Props.Psb
import Verif.EventDecoderTnt
import Verif.QueryDecoder
import Verif.QueryLemmas
import Verif.Spec.Query
import Verif.QueryInv
import Verif.Props.Query
import Verif.QueryTotal
import Verif.Props.QuerySync
import Verif.Props.QueryFlags
import Verif.Locks
import Verif.LocksInv
import Verif.Props.Locks
import Verif.IldTables
import Verif.Ild
import Verif.IldLemmas
import Verif.IldSpec
import Verif.IldBranch
import Verif.IldClassify
import Verif.IldAbs
import Verif.Props.Ild
import Verif.Insn
import Verif.InsnDecoder
import Verif.Spec.Memory
import Verif.InsnLemmas
import Verif.Props.Insn
import Verif.Props.InsnCached
import Verif.Spec.Flow
import Verif.InsnFlowMem
import Verif.InsnFlowBase
import Verif.InsnFlow
import Verif.InsnFlowCheck
import Verif.InsnFlowIp
import Verif.InsnFlowStep
import Verif.InsnFlowRun
import Verif.Props.InsnDecoder
import Verif.Props.InsnSync
import Verif.Props.InsnSafe
import Verif.Props.BlockSafe
import Verif.BlockCache
import Verif.BlockDecoder
import Verif.Spec.Block
import Verif.BlockBase
import Verif.BlockFlow
import Verif.BlockExec
import Verif.BlockLoop
import Verif.BlockFill
import Verif.BlockCached
import Verif.BlockHist
import Verif.Props.Block
import Verif.Pevent
import Verif.Spec.Pevent
import Verif.PeventLemmas
import Verif.PeventRead
import Verif.PeventWrite
import Verif.Props.Pevent
import Verif.Props.PeventTime
import Verif.Spec.X86
import Verif.IldX86Tables
import Verif.IldX86
import Verif.IldX86Tail
import Verif.IldX86Open
import Verif.IldX86Kind
import Verif.IldX86All
import Verif.Props.IldX86
import Verif.Sideband
import Verif.Spec.Sideband
import Verif.SidebandInv
import Verif.SidebandStep
import Verif.SidebandSorted
import Verif.Props.Sideband
import Verif.SbContext
import Verif.SbContextInv
import Verif.SbPevent
import Verif.SbPeventInv
import Verif.SbPeventRead
import Verif.Spec.SbPevent
import Verif.SbTable
import Verif.SidebandSafe
import Verif.SbPeventApply
import Verif.SbPeventKeeps
import Verif.Props.SbPevent
import Verif.Props.SbRecords
import Verif.Props.SbSecondary
import Verif.Spec.BlockFlow
import Verif.BlockHead
import Verif.BlockWait
import Verif.BlockReach
import Verif.BlockTrail
import Verif.BlockPost
import Verif.BlockTrailing
import Verif.BlockEvent
import Verif.BlockFlags
import Verif.BlockSession
import Verif.Props.BlockFollow
import Verif.Spec.Events
import Verif.EventsBase
import Verif.EventsOps
import Verif.EventsPlain
import Verif.EventsPlain2
import Verif.EventsCfe
import Verif.EventsFup
import Verif.EventsTip
import Verif.EventsOvf
import Verif.EventsPsb
import Verif.EventsNext
import Verif.EventsSync
import Verif.Props.Events
import Verif.Props.EventsMore
import Verif.Props.History
import Verif.Props.HistoryInsn
import Verif.MapThreads
import Verif.Spec.MapThreads
import Verif.MapThreadsInv
import Verif.Props.MapThreads
import Verif.RefThreads
import Verif.Spec.RefThreads
import Verif.RefThreadsInv
import Verif.RefThreadsProg
import Verif.Props.RefThreads
import Verif.PtSeg
import Verif.Spec.Segment
import Verif.Props.PtSeg
import Verif.LoadElf
import Verif.Spec.Elf
import Verif.LoadElfLemmas
import Verif.Props.LoadElf
import Verif.LoadFile
import Verif.Props.LoadFile
import Verif.CompleteQuery
import Verif.Spec.Traced
import Verif.CompleteFetch
import Verif.CompleteBase
import Verif.CompleteEvent
import Verif.CompleteInsn
import Verif.CompleteStep
import Verif.Props.InsnComplete
import Verif.Props.InsnEncoded
import Verif.Props.Tick
import Verif.UserStruct
import Verif.Spec.UserStruct
import Verif.UserStructLemmas
import Verif.Props.UserStruct
import Verif.DecoderInit
import Verif.Spec.NewDecoder
import Verif.Props.NewDecoder
import Verif.Props.InsnKinds
import Verif.Ptdump
import Verif.Spec.Ptdump
import Verif.Props.Ptdump
import Verif.Props.PtdumpLines
import Verif.Errors
import Verif.Props.Errors
import Verif.EventOffset
import Verif.Props.EventOffset
