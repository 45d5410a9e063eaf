import Verif.Props.AddressSpace
import Verif.Props.Alias
import Verif.Props.RegionApi
import Verif.Props.Deferred
import Verif.Props.Handlers
import Verif.Props.A20
import Verif.Props.Block
import Verif.Props.BlockVirt
import Verif.Props.HostPtr
import Verif.Props.Paging
import Verif.Props.Tlb
import Verif.Props.TlbDirty
import Verif.Props.CrossPage
import Verif.Props.Flags
import Verif.Props.FlagInstr
import Verif.Props.Bcd
import Verif.Props.Shift
import Verif.Props.Stack
import Verif.Props.StringOps
import Verif.Props.BitTest
import Verif.Props.EffAddr
import Verif.Props.IoBitmap
import Verif.Props.Sticky
import Verif.Props.Fpu
import Verif.Props.FpuStack
import Verif.Props.Fxsave
import Verif.Props.Div
import Verif.Props.Msr
import Verif.Props.Mode
import Verif.Props.CtrlRegs
import Verif.Props.Seg
import Verif.Props.FarRet
import Verif.Props.FarJmp
import Verif.Props.DoubleFault
import Verif.Props.CodeCache
import Verif.Props.CodeLinks
import Verif.Props.Pool
import Verif.Props.SetFlags
import Verif.Props.Tsc
import Verif.Props.Timeout
import Verif.Props.Watch
import Verif.Props.Snapshot
import Verif.Props.StiShadow
import Verif.Props.Halt
import Verif.Props.Threads
import Verif.Props.ThreadsSnap
import Verif.Props.New
import Verif.Props.Dispatch
import Verif.Props.IntRet
import Verif.Props.IretResume
import Verif.Props.Gate
import Verif.Props.SmcMark
import Verif.Props.Frames
import Verif.Props.StringElem
import Verif.Props.FpuMachine
import Verif.Props.FpuMasked
import Verif.Props.IretFlags
import Verif.Props.SysSeg
import Verif.Props.RealEvent
import Verif.Props.Near
import Verif.Props.Emit
import Verif.Props.Vm86Event
import Verif.Props.EmitMul
import Verif.Props.EmitMore
import Verif.Props.EmitShift
import Verif.Props.Priv
import Verif.Props.Isolation
import Verif.Props.IfFlag
import Verif.Props.PrivEx
import Verif.Props.MsrMachine
import Verif.Props.Coproc
import Verif.Props.FarCall
import Verif.Props.GivesUp
import Verif.Props.Tramp
import Verif.Props.InnerStack
import Verif.Props.Accessed
import Verif.Props.RealSeg
import Verif.Props.EmitEa
import Verif.Props.EmitMov
import Verif.Props.EmitBlock
import Verif.Props.EmitJump
import Verif.Props.EmitStr
import Verif.Props.EmitFlag
import Verif.Props.Ipt
import Verif.Props.EmitRun
import Verif.Props.EmitIo
import Verif.Props.EmitLink
import Verif.Props.EmitSimd
import Verif.Props.Cr2
import Verif.Props.DbgStep
import Verif.Props.FpuMem
import Verif.Props.EmitFpu
import Verif.Props.SoftInt
import Verif.Props.FarPtr
