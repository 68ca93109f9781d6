/-
  The rate of slip of the balanced MTS law with values that may be NaN (src/ecmech/ECMech_kinetics_KMBalD.h:307-356, 391-604).

  Values are those of Model/Nan; stress and strength may be NaN, the other values are numbers.  Simplifications: only the rate,
  not its derivatives; numbers are not rounded, and divisions by zero are as in Model/KMBalD; the exponents p and q are not zero
  (`pow(NaN, 0)` is one, here it is NaN); `copysign` with a NaN as sign is not reached with a number as magnitude.
-/
import Verif.Model.NanSlip
import Verif.Model.KMBalD

namespace Ecm
open Classical

variable {nV : ℕ}

/-- C `fmax`: a NaN is left aside -/
noncomputable def fmaxF : Fl → Fl → Fl
  | .num a, .num b => .num (max a b)
  | .nan, y => y
  | x, .nan => x

/-- ECMech_kinetics_KMBalD.h:312-333 p_func of get_mts_dG -/
noncomputable def kmPFuncF (k : KMBalD nV) (tFrac : Fl) : Fl :=
  if k.pOne then tFrac
  else if tFrac.abs.lt (.num idpTinySqrt) then .num 0
  else Fl.op2 copysign (tFrac.abs.op1 (· ^ k.p)) tFrac

/-- ECMech_kinetics_KMBalD.h:335-355 exp_arg of get_mts_dG -/
noncomputable def kmExpArgF (k : KMBalD nV) (cE : ℝ) (tFrac : Fl) : Fl :=
  let qArg := Fl.num 1 - kmPFuncF k tFrac
  if qArg.lt (.num idpTinySqrt) then .num (-cE * 0)
  else if k.qOne then .num (-cE) * qArg
  else .num (-cE) * Fl.op2 copysign (qArg.abs.op1 (· ^ k.q)) qArg

/-- ECMech_kinetics_KMBalD.h:446-460 gdot_r; `none` for the return at 450 -/
noncomputable def kmDragF (gamR : ℝ) (expArg : Fl) : Option Fl :=
  if expArg.lt (.num gamRatioMin) then none
  else if expArg.lt (.num idpEpsSqrt) then some (.num gamR * expArg)
  else some (.num gamR * (.num 1 - (-expArg).op1 Real.exp))

/-- ECMech_kinetics_KMBalD.h:501-552 gdot_w; `none` for the returns at 511 and 549 -/
noncomputable def kmThermalF (k : KMBalD nV) (gamW cE : ℝ) (gI gAth tau : Fl) : Option Fl :=
  let e := kmExpArgF k cE ((tau.abs - gAth) * gI)
  if e.lt (.num lnGamRatioMin) then none
  else
    let gw := Fl.num gamW * e.op1 Real.exp
    let em := kmExpArgF k cE ((-tau.abs - gAth) * gI)
    if (Fl.num lnGamRatioMin).lt em then
      let gwm := Fl.num gamW * em.op1 Real.exp
      if ((gw - gwm).op1 (· / gamW)).abs.lt (.num gamRatioMin) then none else some (gw - gwm)
    else some gw

/-- ECMech_kinetics_KMBalD.h:473-603 gdot with given gAth, g_i, at_0 and gdot_r -/
noncomputable def kmCoreF (k : KMBalD nV) (gamW ct xn tMin tMax : ℝ) (gAth gI at0 gdotR tau : Fl) : Fl :=
  if (Fl.num tMax).lt at0 then Fl.op2 copysign gdotR tau
  else
    match kmThermalF k gamW (ct * k.muRef) gI gAth tau with
    | none => .num 0
    | some gw0 =>
      let temp := Fl.num (gamW * 10) * (Fl.num xn * at0.op1 Real.log).op1 Real.exp
      let gw := if (Fl.num tMin).lt at0 then gw0 + temp * at0 else gw0
      Fl.op2 copysign (gw.inv + gdotR.inv).inv tau

/-- ECMech_kinetics_KMBalD.h:391-604 gdot of evalGdot for the values selected for one slip system -/
noncomputable def kmRateF (k : KMBalD nV) (gamW gamR ct xn tMin tMax : ℝ) (g tau : Fl) : Fl :=
  let gAth := if k.withGA then g else .num k.tauA
  let gI := if k.withGA then .num (1 / k.tauA) else g.inv
  if k.withGA = false ∧ tau = .num 0 then .num 0
  else
    match kmDragF gamR ((tau.abs - gAth).op1 (· / k.wrD)) with
    | none => .num 0
    | some gdotR => kmCoreF k gamW ct xn tMin tMax gAth gI (fmaxF (.num 0) (tau.abs - gAth) * gI) gdotR tau

end Ecm
