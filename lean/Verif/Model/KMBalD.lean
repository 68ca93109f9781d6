/-
  Model of src/ecmech/ECMech_kinetics_KMBalD.h.

  Real arithmetic.  Divisions: by `tau_a` or the strength (asserted positive in getVals), by `wrD`,
  by `gam_w`, and by the two partial rates; theorems assume positive parameters and C28 shows that
  the remaining divisors are non-zero.
-/
import Verif.Model.Kinetics
import Mathlib.Analysis.SpecialFunctions.Pow.Real

namespace Ecm
open Classical

/-- template arguments and parameters of KineticsKMBalD<withGAthermal, pOne, qOne, perSS, nVPer>
    (ECMech_kinetics_KMBalD.h:37-41, 205-226); `nV` is nVPer -/
structure KMBalD (nV : ℕ) where
  withGA : Bool
  pOne : Bool
  qOne : Bool
  perSS : Bool
  muRef : ℝ
  tKRef : ℝ
  c1 : Vec nV
  tauA : ℝ
  p : ℝ
  q : ℝ
  gamWo : ℝ
  gamRo : ℝ
  wrD : ℝ
  go : Vec nV
  s : Vec nV
  k1 : ℝ
  k2o : ℝ
  ninv : ℝ
  gammaO : ℝ
  hdnInit : ℝ

/-- ECMech_kinetics_KMBalD.h:103 -/
noncomputable def KMBalD.xm {nV : ℕ} (k : KMBalD nV) (i : Fin nV) : ℝ :=
  1 / (2 * ((k.c1 i / k.tKRef) * k.muRef * k.p * k.q))
/-- ECMech_kinetics_KMBalD.h:107 -/
noncomputable def KMBalD.xnn {nV : ℕ} (k : KMBalD nV) (i : Fin nV) : ℝ := 1 / k.xm i
/-- ECMech_kinetics_KMBalD.h:108 -/
noncomputable def KMBalD.xn {nV : ℕ} (k : KMBalD nV) (i : Fin nV) : ℝ := k.xnn i - 1
/-- ECMech_kinetics_KMBalD.h:112 -/
noncomputable def KMBalD.tMin {nV : ℕ} (k : KMBalD nV) (i : Fin nV) : ℝ := gamRatioMin ^ k.xm i
/-- ECMech_kinetics_KMBalD.h:113 -/
noncomputable def KMBalD.tMax {nV : ℕ} (k : KMBalD nV) (i : Fin nV) : ℝ := gamRatioOvf ^ k.xm i
/-- ECMech_kinetics_KMBalD.h:129 -/
noncomputable def KMBalD.hdnMin {nV : ℕ} (k : KMBalD nV) : ℝ := 1e-4 * k.hdnInit

/-- the contents of the array `vals` (ECMech_kinetics_KMBalD.h:258-266): gam_w, gam_r, strengths,
    activation constants over temperature -/
structure KMVals (nV : ℕ) where
  gamW : ℝ
  gamR : ℝ
  g : Vec nV
  ct : Vec nV

/-- ECMech_kinetics_KMBalD.h:247-279 getVals; returns the values and the hardness scale.  A
    non-positive density makes `sqrt`/the division unusable, a zero temperature the division at
    266, and the asserts at 268 and 275 must hold. -/
noncomputable def KMBalD.getVals {nV : ℕ} (k : KMBalD nV) (tK : ℝ) (h : Vec 1) :
    Out (KMVals nV × ℝ) :=
  if h 0 ≤ 0 then .undef "sqrt of a non-positive density"
  else if tK = 0 then .undef "division by zero temperature"
  else
    let sqrtDDens := Real.sqrt (h 0)
    let v : KMVals nV :=
      { gamW := k.gamWo / sqrtDDens
        gamR := k.gamRo * sqrtDDens * sqrtDDens
        g := fun i => k.go i + k.s i * sqrtDDens
        ct := fun i => k.c1 i / tK }
    if k.withGA = false ∧ ∃ i, v.g i ≤ 0 then .undef "assert(vals[2 + iVal] > zero)"
    else if k.withGA = true ∧ k.tauA ≤ 0 then .undef "assert(_tau_a > 0)"
    else .ok (v, (∑ i, v.g i) * (1 / (nV : ℝ)))

/-- `p_func` of get_mts_dG, ECMech_kinetics_KMBalD.h:312-333 -/
noncomputable def KMBalD.pFunc {nV : ℕ} (k : KMBalD nV) (tFrac : ℝ) : ℝ :=
  if k.pOne then tFrac
  else if |tFrac| < idpTinySqrt then 0
  else copysign (|tFrac| ^ k.p) tFrac

/-- ECMech_kinetics_KMBalD.h:307-356 get_mts_dG, returning (exp_arg, mts_dfac) -/
noncomputable def KMBalD.mtsDG {nV : ℕ} (k : KMBalD nV) (cE denomI tFrac : ℝ) : ℝ × ℝ :=
  let pF := k.pFunc tFrac
  let dfac1 :=
    if k.pOne then cE * denomI
    else if |tFrac| < idpTinySqrt then cE * denomI * 10 ^ 10
    else cE * denomI * k.p * pF / tFrac
  let qArg := 1 - pF
  if qArg < idpTinySqrt then (-cE * 0, 0)
  else if k.qOne then (-cE * qArg, dfac1)
  else
    let temp := |qArg| ^ k.q
    (-cE * copysign temp qArg, dfac1 * k.q * temp / |qArg|)

/-- drag limited kinetics, ECMech_kinetics_KMBalD.h:446-461: `none` for the early return at 450,
    otherwise (gdot_r, dgdot_r) -/
noncomputable def KMBalD.drag {nV : ℕ} (k : KMBalD nV) (gamR expArg : ℝ) : Option (ℝ × ℝ) :=
  if expArg < gamRatioMin then none
  else if expArg < idpEpsSqrt then some (gamR * expArg, gamR * (1 - expArg) / k.wrD)
  else some (gamR * (1 - Real.exp (-expArg)), gamR * Real.exp (-expArg) / k.wrD)

/-- thermally activated kinetics before the power-law part, ECMech_kinetics_KMBalD.h:501-552:
    `none` for the early returns at 511 and 549, otherwise (gdot_w, dgdot_w, dgdot_wg) -/
noncomputable def KMBalD.thermal {nV : ℕ} (k : KMBalD nV) (gamW cE gI gAth tau : ℝ) :
    Option (ℝ × ℝ × ℝ) :=
  let tFrac := (|tau| - gAth) * gI
  let m := k.mtsDG cE gI tFrac
  if m.1 < lnGamRatioMin then none
  else
    let gw := gamW * Real.exp m.1
    let dgw := m.2 * gw
    let dgwg := dgw * tFrac
    let tFracM := (-|tau| - gAth) * gI
    let mm := k.mtsDG cE gI tFracM
    if lnGamRatioMin < mm.1 then
      let gwm := gamW * Real.exp mm.1
      let contrib := mm.2 * gwm
      if |(gw - gwm) / gamW| < gamRatioMin then none
      else some (gw - gwm, dgw - contrib, dgwg - contrib * tFracM)
    else some (gw, dgw, dgwg)

/-- ECMech_kinetics_KMBalD.h:391-604, evalGdot for the values already selected for one slip system:
    `g` the strength, `ct` the activation constant over temperature, `xn xnn tMin tMax` the power
    law constants -/
noncomputable def KMBalD.evalGdotSel {nV : ℕ} (k : KMBalD nV)
    (gamW gamR g ct xn xnn tMin tMax tau : ℝ) : Gd :=
  let gAth := if k.withGA then g else k.tauA
  let gI := if k.withGA then 1 / k.tauA else 1 / g
  if k.withGA = false ∧ tau = 0 then { gdot := 0, dtau := 0, dg := 0 }
  else
    let at0 := max 0 (|tau| - gAth) * gI
    match k.drag gamR ((|tau| - gAth) / k.wrD) with
    | none => { gdot := 0, dtau := 0, dg := 0 }
    | some (gdotR, dgdotR) =>
      if tMax < at0 then
        { gdot := copysign gdotR tau, dtau := dgdotR
          dg := if k.withGA then -copysign dgdotR tau else 0 }
      else
        match k.thermal gamW (ct * k.muRef) gI gAth tau with
        | none => { gdot := 0, dtau := 0, dg := 0 }
        | some (gw0, dgw0, dgwg0) =>
          let temp := gamW * 10 * Real.exp (xn * Real.log at0)
          let contrib := temp * xnn * gI
          let gw := if tMin < at0 then gw0 + temp * at0 else gw0
          let dgw := if tMin < at0 then dgw0 + contrib else dgw0
          let dgwg := if tMin < at0 then dgwg0 + contrib * at0 else dgwg0
          let gdot := 1 / (1 / gw + 1 / gdotR)
          let gdrdiv2 := 1 / (gdotR * gdotR)
          let gdwdiv2 := 1 / (gw * gw)
          let temp1 := gdot * copysign gdot tau * gdwdiv2
          let temp2 := gdot * copysign gdot tau * gdrdiv2
          { gdot := copysign gdot tau
            dtau := gdot * gdot * (dgw * gdwdiv2 + dgdotR * gdrdiv2)
            dg := if k.withGA then -temp2 * dgdotR + -temp1 * dgw else -temp1 * dgwg }

/-- index into the per-system arrays, ECMech_kinetics_KMBalD.h:391-402.  With perSS the constructor
    asserts nslip = nVPer (line 54), so the index is in range. -/
def KMBalD.iVal {nV : ℕ} [NeZero nV] {n : ℕ} (k : KMBalD nV) (i : Fin n) : Fin nV :=
  if k.perSS then Fin.ofNat nV i.val else 0

/-- ECMech_kinetics_KMBalD.h:364-604 evalGdot -/
noncomputable def KMBalD.evalGdot {nV : ℕ} [NeZero nV] {n : ℕ} (k : KMBalD nV) (v : KMVals nV)
    (i : Fin n) (tau : ℝ) : Gd :=
  let j := k.iVal i
  k.evalGdotSel v.gamW v.gamR (v.g j) (v.ct j) (k.xn j) (k.xnn j) (k.tMin j) (k.tMax j) tau

/-- ECMech_kinetics_KMBalD.h:631-645 getEvolVals: (effective shear rate, k2) -/
noncomputable def KMBalD.getEvolVals {nV n : ℕ} (k : KMBalD nV) (gdot : Vec n) : ℝ × ℝ :=
  let shrateEff := vecsssumabs gdot
  (shrateEff, if idpTinySqrt < shrateEff then k.k2o * (k.gammaO / shrateEff) ^ k.ninv else k.k2o)

/-- ECMech_kinetics_KMBalD.h:650-675 getSdot1 (the argument is the logarithm of the density) -/
noncomputable def KMBalD.getSdot1 {nV : ℕ} (k : KMBalD nV) (evol : ℝ × ℝ) : Law1 := fun h =>
  let shrateEff := evol.1
  let k2 := evol.2
  let a := Real.exp (-(1 / 2) * h)
  some ((k.k1 * a - k2) * shrateEff, -k.k1 * (1 / 2) * a * shrateEff)

/-- ECMech_kinetics_KMBalD.h:609-626 updateH; the logarithm needs a positive argument and `pow` in
    getEvolVals a positive base -/
noncomputable def KMBalD.updateH {nV n : ℕ} (k : KMBalD nV) (S : Solver 1) (hsO : Vec 1) (dt : ℝ)
    (gdot : Vec n) : Out (Vec 1 × ℕ) :=
  if k.gammaO ≤ 0 then .undef "pow(gamma_o / shrate_eff) with non-positive gamma_o"
  else if max (hsO 0) k.hdnMin ≤ 0 then .undef "log of a non-positive density"
  else (updateH1 S (k.getSdot1 (k.getEvolVals gdot)) (Real.log (max (hsO 0) k.hdnMin)) dt).bind
    fun r => .ok ((fun _ => Real.exp r.1), r.2)

/-- the kinetics object: ECMech_kinetics_KMBalD.h:233-236 (getFixedRefRate), 247-279 (getVals),
    284-299 (evalGdots), 609-626 (updateH) -/
noncomputable def KMBalD.kin {nV : ℕ} [NeZero nV] (k : KMBalD nV) (S : Solver 1) (n : ℕ) :
    Kin n 1 where
  Vals := KMVals nV
  getVals := fun _ tK h => k.getVals tK h
  fixedRefRate := fun v => v.gamW + v.gamR
  evalGdot := fun v i tau => k.evalGdot v i tau
  updateH := k.updateH S

end Ecm
