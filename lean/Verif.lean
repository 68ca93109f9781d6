import Verif.Props.Notation
import Verif.Props.Rotation
import Verif.Props.SlipGeom
import Verif.Props.Eos
import Verif.Props.Elast
import Verif.Props.Deriv
import Verif.Props.Hardening
import Verif.Props.Voce
import Verif.Props.KMBalD
import Verif.Props.Balance
import Verif.Props.Tangent
import Verif.Lemmas.Example
import Verif.Props.Response
import Verif.Props.Objectivity
import Verif.Props.Symmetry
import Verif.Props.Batch
import Verif.Props.Params
import Verif.Props.Wrap
import Verif.Props.Python
import Verif.Props.Miniapp
import Verif.Props.Parallel
import Verif.Props.WellDefined
import Verif.Props.VoceNonlinear
import Verif.Props.KMLaw
import Verif.Props.Moduli
import Verif.Props.Device
import Verif.Props.DPEff
import Verif.Props.Stability
import Verif.Props.Unique
import Verif.Props.Start
import Verif.Props.HcpFamily
import Verif.Props.Rounding
import Verif.Props.Implicit
import Verif.Props.Solvable
import Verif.Props.StabilityHex
import Verif.Lemmas.Converge
import Verif.Lemmas.RateEq
import Verif.Lemmas.ConvergeSeq
import Verif.Lemmas.ConvergeStep
import Verif.Lemmas.Steady
import Verif.Props.Converge
import Verif.Props.ConvergeVoce
import Verif.Lemmas.ConvergeGlobal
import Verif.Props.ConvergeGlobal
import Verif.Lemmas.RoundingAcc
import Verif.Props.RoundingAcc
import Verif.SpecUnits
import Verif.Lemmas.Units
import Verif.Lemmas.UnitsKin
import Verif.Props.Units
import Verif.Lemmas.Numeric
import Verif.Props.TestValues
import Verif.Lemmas.Axisym
import Verif.Lemmas.AxisHcp
import Verif.Lemmas.KMPoint
import Verif.Lemmas.KMRoot
import Verif.Lemmas.KMHex
import Verif.Props.TestStep
import Verif.Lemmas.JumpStep
import Verif.Props.ColdStep
import Verif.Lemmas.SlipBound
import Verif.Lemmas.RotLip
import Verif.Lemmas.UniqueStep
import Verif.Props.UniqueStep
import Verif.Lemmas.NewtonMatrix
import Verif.Lemmas.KMSlope
import Verif.Props.NewtonMatrix
import Verif.Model.Driver
import Verif.Lemmas.Driver
import Verif.Props.Driver
import Verif.Props.Runs
import Verif.Lemmas.KMWarm
import Verif.Props.Warm
import Verif.Props.Heat
import Verif.Lemmas.Yield
import Verif.Props.Yield
import Verif.Lemmas.YieldFree
import Verif.Props.YieldHex
import Verif.Model.PyCall
import Verif.Props.PyCall
import Verif.Model.Shipped
import Verif.Props.Shipped
import Verif.Model.RotRound
import Verif.Lemmas.RotRound
import Verif.Lemmas.RotRoundAux
import Verif.Props.RotRound
import Verif.Model.Range
import Verif.Lemmas.Range
import Verif.Lemmas.RangeKM
import Verif.Props.Range
import Verif.Model.ResidRound
import Verif.Model.TableRound
import Verif.Lemmas.LawRound
import Verif.Lemmas.ResidRound
import Verif.Lemmas.ResidParts
import Verif.Lemmas.ResidTerms
import Verif.Lemmas.ResidSum
import Verif.Lemmas.ResidScale
import Verif.Lemmas.TableRound
import Verif.Props.ResidRound
import Verif.Props.FltStability
import Verif.Props.SlowLoad
import Verif.Props.VolumeCycle
import Verif.Props.FirstLaw
import Verif.Props.SlipHeat
import Verif.Model.Space
import Verif.Props.Space
import Verif.SpecNewton
import Verif.Lemmas.NewtonConv
import Verif.Lemmas.NewtonRun
import Verif.Props.PlainNewton
import Verif.Model.DevObj
import Verif.Props.DevObj
import Verif.Props.DevScript
import Verif.Props.DevMixed
import Verif.Lemmas.Fold
import Verif.Lemmas.AxisStep
import Verif.Lemmas.AxisScalar
import Verif.Props.AxisFlow
import Verif.Props.AxisRun
import Verif.Model.AnisoVoce
import Verif.Lemmas.AnisoVoce
import Verif.Props.AnisoVoce
import Verif.Lemmas.SharedSym
import Verif.Lemmas.SharedSymExist
import Verif.Props.SharedSym
import Verif.Props.SharedSymCases
import Verif.Props.SharedSymRuns
import Verif.Lemmas.ObjTangent
import Verif.Props.ObjTangent
import Verif.Lemmas.SymTangent
import Verif.Props.SymTangent
import Verif.Props.DriverFail
import Verif.Props.Decimal
import Verif.Props.DeviceBatch
import Verif.Model.EosRound
import Verif.Lemmas.EosRound
import Verif.Props.EosRound
import Verif.Model.Print
import Verif.Lemmas.Print
import Verif.Props.Print
import Verif.Model.HardRound
import Verif.Lemmas.HardRound
import Verif.Props.HardRound
import Verif.Lemmas.Restart
import Verif.Props.Restart
import Verif.Props.KMDrag
import Verif.Model.DensRound
import Verif.Lemmas.DensRound
import Verif.Props.DensRound
import Verif.Model.TestPx
import Verif.Props.TestPx
import Verif.Lemmas.StepLip
import Verif.Props.StepLip
import Verif.Model.TestUpdst
import Verif.Props.TestUpdst
import Verif.Model.TestEvptn
import Verif.Props.TestEvptn
import Verif.Model.TestHard
import Verif.Lemmas.TestNewton
import Verif.Props.TestHard
import Verif.Model.NoChecks
import Verif.Props.NoChecks
import Verif.Props.HexRatio
import Verif.Model.PrintVec
import Verif.Props.PrintVec
import Verif.Model.Nan
import Verif.Props.Nan
import Verif.Model.NanSlip
import Verif.Model.NanKM
import Verif.Props.NanSlip
import Verif.Props.NanKM
