import Verif.Props.ScalarArith
import Verif.Props.ScalarShift
import Verif.Props.Fp16
import Verif.Props.Fp16Order
import Verif.Props.Ufp
import Verif.Props.X86Int
import Verif.Props.X86Narrow
import Verif.Props.CpuMem
import Verif.Props.CpuLoop
import Verif.Props.CpuLogical
import Verif.Props.CpuLogMem
import Verif.Props.CpuShuffle
import Verif.Props.CpuLane
import Verif.Props.Tutorial
import Verif.Props.Popcnt
import Verif.Props.X86Mask
import Verif.Props.X86Deg
import Verif.Props.X86Zip
import Verif.Props.Pack
import Verif.Props.Tet1d
import Verif.Props.Spmd
import Verif.Props.Random
import Verif.Props.Alloc
import Verif.Props.Launch
import Verif.Props.FloatClass
import Verif.Props.Round
import Verif.Props.FixedPoint
import Verif.Props.PpcDeg
import Verif.Props.PpcLane
import Verif.Props.Arm
import Verif.Props.Ppc
import Verif.Props.Addv
import Verif.Props.DoubleDouble
import Verif.Model.X86Lane
import Verif.Lemmas.X86Lane
import Verif.Props.X86Lane
import Verif.Model.X86Mem
import Verif.Props.X86Mem
import Verif.Model.X86Cvt
import Verif.Props.X86Cvt
import Verif.Lemmas.Newton
import Verif.Props.FixedSqrt
import Verif.Props.FixedUlp
import Verif.Props.Fmod
import Verif.Props.Remainder
import Verif.Props.MathCalls
import Verif.Props.Hypot
import Verif.Props.FixedSimd
import Verif.Props.F16Arith
import Verif.Props.FloatLane
import Verif.Props.Ieee
import Verif.Props.X86Float
import Verif.Props.ArmFloat
import Verif.Props.PpcFloat
import Verif.Model.ArmMem
import Verif.Props.ArmMem
import Verif.Model.ArmLane
import Verif.Props.ArmLane
import Verif.Model.Gpu
import Verif.Props.Gpu
import Verif.Model.X86Rev
import Verif.Props.X86Rei
import Verif.Props.X86Rev
import Verif.Model.X86Ops
import Verif.Lemmas.X86Ops
import Verif.Props.X86OpsLogic
import Verif.Props.X86OpsArith
import Verif.Props.X86OpsSat
import Verif.Props.X86OpsAgree
import Verif.Props.PackZip
import Verif.Props.ArmCvt
import Verif.Props.PpcCvt
import Verif.Props.Exp
import Verif.Props.Cosh
import Verif.Props.Atan
import Verif.Props.Log
import Verif.Props.Cbrt
import Verif.Props.Asin
import Verif.Props.Atan2
import Verif.Props.Sin
import Verif.Props.MathF16
import Verif.Props.MathF16Two
import Verif.Props.MathF16Special
import Verif.Props.Log2
import Verif.Props.Log2F16
import Verif.Props.Log2Exact
import Verif.Props.Exp2Exact
import Verif.Props.MathExact
