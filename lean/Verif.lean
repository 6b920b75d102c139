import Verif.Props.Spsc
import Verif.Props.SpscWeak
import Verif.Props.SpscCtor
import Verif.Props.CircBuf
import Verif.Props.CircAccess
import Verif.Props.CircStack
import Verif.Props.FixedVector
import Verif.Props.StaticString
import Verif.Props.SeqMap
import Verif.Props.SequentialMap
import Verif.Props.WearLevel
import Verif.Props.Pool
import Verif.Props.Alloc
import Verif.Props.CompactBinary
import Verif.Props.IntToStr
import Verif.Props.Version
import Verif.Props.Strings
import Verif.Props.Partition
import Verif.Props.Toggler
import Verif.Props.Poll
import Verif.Props.DoubleBuf
import Verif.Props.IntMath
import Verif.Props.RatMath
import Verif.Props.Color
import Verif.Props.Oscs
import Verif.Props.Filter
import Verif.Props.Interp
import Verif.Props.Calib
import Verif.Props.Params
import Verif.Flt
import Verif.FltEven
import Verif.Props.MemTest
import Verif.Props.Small
import Verif.Props.Geometry
import Verif.Props.AudioFrame
import Verif.Props.MathFns
import Verif.Props.SineOsc
import Verif.Lemmas.RealTables
import Verif.Props.Accuracy
import Verif.Props.AccuracyTan
import Verif.Model.TrigFloat
import Verif.Props.AccuracyFloat
import Verif.Props.AccuracyLut
import Verif.Lemmas.FltErr
import Verif.Model.FilterFloat
import Verif.Props.FilterFloat
import Verif.Model.ParamsFloat
import Verif.Props.ParamsFloat
import Verif.Lemmas.FltLerp
import Verif.Model.InterpFloat
import Verif.Props.LookupFloat
import Verif.Props.InterpFloat
import Verif.Model.CalibFloat
import Verif.Props.CalibFloat
import Verif.Model.OscsFloat
import Verif.Props.OscsFloat
import Verif.Props.OneShotFloat
import Verif.Model.ColorFloat
import Verif.Props.ColorFloat
import Verif.Model.MathFloat
import Verif.Props.MathFloat
import Verif.Model.PoolWeak
import Verif.Spec.PoolWeak
import Verif.Props.PoolWeak
import Verif.Model.ExpFloat
import Verif.Props.ExpFloat
import Verif.Props.TanFloat
import Verif.Props.VoctFloat
import Verif.Props.LatchFloat
import Verif.Props.DoubleBufNested
import Verif.Model.FiltConc
import Verif.Spec.FiltConc
import Verif.Props.FiltConc
import Verif.Model.FiltWeak
import Verif.Spec.FiltWeak
import Verif.Props.FiltWeak
import Verif.Model.NeonFloat
import Verif.Props.NeonFloat
import Verif.Model.TogglerIsr
import Verif.Spec.TogglerIsr
import Verif.Props.TogglerIsr
import Verif.Model.ParamsInt
import Verif.Props.ParamsInt
import Verif.Props.CircAccessFloat
import Verif.Model.FilterInt
import Verif.Spec.FilterInt
import Verif.Props.FilterInt
import Verif.Model.HystInt
import Verif.Props.HystInt
import Verif.Model.InterpInt
import Verif.Props.InterpInt
import Verif.Model.MapInt
import Verif.Props.MapInt
import Verif.Model.WrapInt
import Verif.Props.WrapInt
import Verif.Model.CompactSigned
import Verif.Props.CompactSigned
import Verif.Model.CalibInt
import Verif.Props.CalibInt
import Verif.Model.MotionIsr
import Verif.Spec.MotionIsr
import Verif.Props.MotionIsr
import Verif.Model.DiffInt
import Verif.Props.DiffInt
import Verif.Model.ParamIsr
import Verif.Spec.ParamIsr
import Verif.Props.ParamIsr
import Verif.Props.VoctLatest
import Verif.Props.CircBufIsr
import Verif.Props.WrapFloat
import Verif.Props.FilterMix
import Verif.Props.PartitionNum
import Verif.Props.LookupInt
import Verif.Props.PollTypes
import Verif.Props.DoubleBufIsr
import Verif.Props.ChopText
import Verif.Props.Exact2
import Verif.Props.XCirc
import Verif.Props.XTable
import Verif.Props.XFilter
import Verif.Props.XMath
import Verif.Props.XParam
import Verif.Props.XAudio
import Verif.Props.XCalib
import Verif.Props.XWrap
import Verif.Conform.Text
import Verif.Conform.Containers
import Verif.Conform.Bytes
import Verif.Conform.Events
import Verif.Conform.Numbers
import Verif.Conform.Headers
import Verif.Props.MapRefs
import Verif.Props.StringsExact
import Verif.Props.ExactConds
import Verif.Props.FVMove
import Verif.Props.VersionText
import Verif.Props.ExactConds2
import Verif.Props.ExactConds3
import Verif.Spec.WearCrash
import Verif.Props.WearCrash
import Verif.Model.CircBufTake
import Verif.Spec.CircBufTake
import Verif.Props.CircBufTake
import Verif.Model.TokenAlias
import Verif.Spec.TokenAlias
import Verif.Props.TokenAlias
import Verif.Model.Callable
import Verif.Spec.Callable
import Verif.Props.Callable
import Verif.Model.CircOverlap
import Verif.Spec.CircOverlap
import Verif.Lemmas.CircOverlap
import Verif.Props.CircOverlap
import Verif.Model.Entry
import Verif.Spec.Entry
import Verif.Props.Entry
import Verif.Model.SelfOps
import Verif.Props.SelfOps
import Verif.Model.RgbLedIsr
import Verif.Spec.RgbLedIsr
import Verif.Props.RgbLedIsr
import Verif.Model.PlateauT
import Verif.Spec.PlateauT
import Verif.Props.PlateauT
import Verif.Model.ParamCopy
import Verif.Spec.ParamCopy
import Verif.Props.ParamCopy
import Verif.Model.CompactState
import Verif.Spec.CompactState
import Verif.Props.CompactState
import Verif.Props.ExactConds4
import Verif.Props.ExactConds5
import Verif.Model.EdgeIsr
import Verif.Spec.EdgeIsr
import Verif.Props.EdgeIsr
import Verif.Model.PollIsr
import Verif.Spec.PollIsr
import Verif.Props.PollIsr
import Verif.Model.MemTestTop
import Verif.Spec.MemTestTop
import Verif.Props.MemTestTop
import Verif.Model.TermCodes
import Verif.Spec.TermCodes
import Verif.Props.TermCodes
import Verif.Spec.SpscReset
import Verif.Lemmas.SpscReset
import Verif.Props.SpscReset
import Verif.Model.Bounce
import Verif.Spec.Bounce
import Verif.Props.Bounce
import Verif.Spec.QuadShaft
import Verif.Props.QuadShaft
import Verif.Spec.PartitionBest
import Verif.Props.PartitionBest
import Verif.Spec.MemFaults
import Verif.Props.MemFaults
import Verif.Spec.Gradual
import Verif.Props.Gradual
import Verif.Spec.NoJumps
import Verif.Props.NoJumps
import Verif.Props.ParabolicSine
import Verif.Props.Settle
import Verif.Spec.Noise
import Verif.Props.Noise
import Verif.Props.IsrExact
import Verif.Props.WaitFree
import Verif.Spec.LongRun
import Verif.Props.LongRun
import Verif.Model.HandOver
import Verif.Spec.HandOver
import Verif.Props.HandOver
import Verif.Model.PoolSignal
import Verif.Spec.PoolSignal
import Verif.Props.PoolSignal
import Verif.Spec.SpscPromise
import Verif.Lemmas.SpscPromise
import Verif.Props.SpscPromise
import Verif.Spec.SpscView
import Verif.Lemmas.SpscView
import Verif.Props.SpscView
import Verif.Spec.Held
import Verif.Props.Held
import Verif.Spec.CircBufWhen
import Verif.Props.CircBufWhen
import Verif.Spec.CircBufFill
import Verif.Props.CircBufFill
import Verif.Spec.PoolWhen
import Verif.Props.PoolWhen
import Verif.Spec.PoolSize
import Verif.Props.PoolSize
import Verif.Model.MapKeys
import Verif.Spec.MapKeys
import Verif.Props.MapKeys
import Verif.Spec.FiltHull
import Verif.Props.FiltHull
import Verif.Spec.GateNoise
import Verif.Props.GateNoise
import Verif.Spec.OwnerLedger
import Verif.Props.OwnerLedger
import Verif.Model.ZipWrite
import Verif.Spec.ZipWrite
import Verif.Props.ZipWrite
import Verif.Model.ByteSelf
import Verif.Props.ByteSelf
import Verif.Model.CompactWide
import Verif.Props.CompactWide
import Verif.Model.PolyTypes
import Verif.Props.PolyTypes
import Verif.Model.AlignHeap
import Verif.Spec.AlignHeap
import Verif.Props.AlignHeap
import Verif.Spec.VersionOrder
import Verif.Props.VersionOrder
import Verif.Model.XNeon
import Verif.Spec.XNeon
import Verif.Props.XNeon
import Verif.Model.RandomDraw
import Verif.Spec.RandomDraw
import Verif.Props.RandomDraw
import Verif.Model.Throwing
import Verif.Spec.Throwing
import Verif.Props.Throwing
import Verif.Spec.SpscIncl
import Verif.Props.SpscIncl
import Verif.Model.OscIsr
import Verif.Spec.OscIsr
import Verif.Props.OscIsr
import Verif.Model.ReadIsr
import Verif.Spec.ReadIsr
import Verif.Props.ReadIsr
import Verif.Props.ReadIsrMap
import Verif.Model.StringIsr
import Verif.Spec.StringIsr
import Verif.Props.StringIsr
import Verif.Model.AllocIsr
import Verif.Spec.AllocIsr
import Verif.Props.AllocIsr
import Verif.Model.MeterIsr
import Verif.Spec.MeterIsr
import Verif.Props.MeterIsr
import Verif.Model.FilterIsr
import Verif.Spec.FilterIsr
import Verif.Props.FilterIsr
import Verif.Model.SpscRewind
import Verif.Spec.SpscRewind
import Verif.Props.SpscRewind
import Verif.Model.ThrowFifo
import Verif.Spec.ThrowFifo
import Verif.Props.ThrowFifo
import Verif.Model.StringRange
import Verif.Spec.StringRange
import Verif.Props.StringRange
import Verif.Model.CalibIsr
import Verif.Spec.CalibIsr
import Verif.Props.CalibIsr
import Verif.Model.ThrowStream
import Verif.Spec.ThrowStream
import Verif.Props.ThrowStream
import Verif.Model.VecLoops
import Verif.Spec.VecLoops
import Verif.Props.VecLoops
import Verif.Model.MapSelf
import Verif.Props.MapSelf
import Verif.Model.WearShared
import Verif.Spec.WearShared
import Verif.Props.WearShared
import Verif.Props.CompactCut
import Verif.Spec.CompactOpen
import Verif.Props.CompactOpen
import Verif.Spec.CompactDeep
import Verif.Props.CompactDeep
import Verif.Model.ThrowClear
import Verif.Props.ThrowClear
import Verif.Spec.CompactAny
import Verif.Props.CompactAny
import Verif.Spec.NoWait
import Verif.Props.NoWait
import Verif.Props.NoWaitCirc
import Verif.Props.Alone
