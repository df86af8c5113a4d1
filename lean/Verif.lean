import Verif.Model.Basic
import Verif.Model.InstParser
import Verif.Model.Alu
import Verif.Model.Simd
import Verif.Model.State
import Verif.Model.Csr
import Verif.Model.Mem
import Verif.Model.Core
import Verif.Spec.Alu
import Verif.Spec.Encode
import Verif.Props.Alu
import Verif.Props.Decode
import Verif.Props.DecodeC
import Verif.Spec.Mem
import Verif.Lemmas.Dev
import Verif.Lemmas.Wp
import Verif.Lemmas.Prims
import Verif.Lemmas.PrimsOf
import Verif.Lemmas.CsrTable
import Verif.Lemmas.Cnt
import Verif.Lemmas.Ex
import Verif.Props.X0
import Verif.Props.NoUb
import Verif.Props.CsrInv
import Verif.Lemmas.Sized
import Verif.Lemmas.Clock
import Verif.Props.Align
import Verif.Spec.Isa
import Verif.Lemmas.Twp
import Verif.Lemmas.Step
import Verif.Lemmas.ExecI
import Verif.Lemmas.ExecMem
import Verif.Lemmas.ExecJump
import Verif.Props.Isa
import Verif.Props.IsaProps
import Verif.Spec.Bus
import Verif.Lemmas.Bus
import Verif.Props.Timer
import Verif.Props.Interrupt
import Verif.Props.Bus
import Verif.Props.BusDev
import Verif.Props.BusRun
import Verif.Props.UartRate
import Verif.Model.Elf
import Verif.Props.Elf
import Verif.Props.Perm
import Verif.Lemmas.StepCases
import Verif.Props.Step
import Verif.Props.Stop
import Verif.Spec.Csr
import Verif.Spec.Simd
import Verif.Lemmas.CsrExec
import Verif.Lemmas.Lane
import Verif.Lemmas.WordStep
import Verif.Props.CsrRw
import Verif.Props.Counters
import Verif.Props.Simd
import Verif.Props.SimdStep
import Verif.Spec.Compressed
import Verif.Lemmas.ExecC
import Verif.Props.Compressed
import Verif.Spec.Defined
import Verif.Lemmas.Inverse
import Verif.Lemmas.DefinedB
import Verif.Props.Illegal
import Verif.Model.Cache
import Verif.Spec.Cache
import Verif.Lemmas.CacheStep
import Verif.Lemmas.CacheLru
import Verif.Lemmas.CacheInv
import Verif.Lemmas.CacheRefine
import Verif.Lemmas.CacheData
import Verif.Lemmas.CacheMem
import Verif.Props.CacheData
import Verif.Props.CacheLock
import Verif.Props.CacheStats
import Verif.Props.CacheWb
import Verif.Props.CacheInclusion
import Verif.Model.Bp
import Verif.Lemmas.BpOk
import Verif.Lemmas.BpRun
import Verif.Lemmas.BpMove
import Verif.Props.BpTables
import Verif.Props.BpPredict
import Verif.Props.BpStats
import Verif.Props.BpPattern
import Verif.Spec.Bp
import Verif.Lemmas.BpRef
import Verif.Props.BpHistory
import Verif.Model.Divider
import Verif.Props.Divider
import Verif.Model.Prof
import Verif.Props.ProfClass
import Verif.Props.ProfInst
import Verif.Props.ProfFusion
import Verif.Spec.Mnemonic
import Verif.Lemmas.ProfOne
import Verif.Lemmas.ProfStep
import Verif.Lemmas.ProfName
import Verif.Props.ProfOne
import Verif.Spec.Window
import Verif.Lemmas.Window
import Verif.Props.Window
import Verif.Model.ProfPerf
import Verif.Spec.ProfPerf
import Verif.Lemmas.ProfPerf
import Verif.Props.ProfPerf
import Verif.Props.ProfNest
import Verif.Spec.HwInd
import Verif.Lemmas.HwInd
import Verif.Lemmas.HwStep
import Verif.Props.HwInd
import Verif.Model.Dasm
import Verif.Spec.Asm
import Verif.Spec.LogNote
import Verif.Lemmas.Asm
import Verif.Lemmas.DasmText
import Verif.Lemmas.DasmInst
import Verif.Lemmas.DasmInstX
import Verif.Lemmas.DasmInstC
import Verif.Lemmas.DasmStep
import Verif.Lemmas.DasmNote
import Verif.Lemmas.DasmFrame
import Verif.Lemmas.DasmLeft
import Verif.Props.Dasm
import Verif.Model.ProfRf
import Verif.Model.Sparsity
import Verif.Spec.RegUse
import Verif.Spec.Sparse
import Verif.Lemmas.ProfRf
import Verif.Props.ProfRf
import Verif.Model.ProfTrace
import Verif.Spec.Trace
import Verif.Lemmas.ProfTrace
import Verif.Lemmas.ProfTraceEv
import Verif.Props.ProfTrace
import Verif.Spec.Events
import Verif.Model.ProfEvents
import Verif.Lemmas.ProfEvents
import Verif.Lemmas.ProfEventsEv
import Verif.Lemmas.ProfEventsRun
import Verif.Props.ProfEvents
import Verif.Model.Finish
import Verif.Spec.Finish
import Verif.Props.Finish
import Verif.Model.Args
import Verif.Spec.Args
import Verif.Lemmas.Args
import Verif.Props.Args
import Verif.Spec.HwCalls
import Verif.Lemmas.HwCalls
import Verif.Lemmas.HwCallsEnc
import Verif.Lemmas.HwTotal
import Verif.Props.HwCalls
import Verif.Model.HwModels
import Verif.Spec.HwReal
import Verif.Lemmas.HwReal
import Verif.Lemmas.HwEven
import Verif.Props.HwReal
import Verif.Lemmas.HwFine
import Verif.Props.HwFine
import Verif.Lemmas.Sparsity
import Verif.Props.Sparsity
import Verif.Lemmas.Precise
import Verif.Props.Precise
import Verif.Model.BpCsv
import Verif.Spec.BpCsv
import Verif.Lemmas.BpCsv
import Verif.Props.BpCsv
import Verif.Spec.Json
import Verif.Lemmas.Json
import Verif.Model.HwStats
import Verif.Lemmas.HwStats
import Verif.Props.HwStats
import Verif.Props.HwSize
import Verif.Model.ProfJson
import Verif.Props.ProfJson
import Verif.Spec.Bin
import Verif.Model.ProfBin
import Verif.Lemmas.ProfBin
import Verif.Props.ProfBin
import Verif.Model.Main
import Verif.Spec.Options
import Verif.Lemmas.Main
import Verif.Props.Main
import Verif.Model.OutDir
import Verif.Props.OutDir
import Verif.Model.PerfText
import Verif.Spec.Folded
import Verif.Props.PerfText
import Verif.Lemmas.Pieces
import Verif.Model.Report
import Verif.Spec.StateText
import Verif.Lemmas.Report
import Verif.Props.Report
import Verif.Model.SimdText
import Verif.Spec.LaneText
import Verif.Spec.SimdHost
import Verif.Lemmas.SimdText
import Verif.Lemmas.SimdLanes
import Verif.Lemmas.SimdTold
import Verif.Props.SimdText
import Verif.Props.SimdHost
import Verif.Spec.HwFetch
import Verif.Lemmas.HwFetch
import Verif.Props.HwFetch
import Verif.Props.HwRefs
import Verif.Model.LogFile
import Verif.Spec.LogText
import Verif.Lemmas.LogFile
import Verif.Props.LogFile
import Verif.Props.LogSimd
