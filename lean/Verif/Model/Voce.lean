/-
  Model of src/ecmech/ECMech_kinetics_VocePL.h.

  Real arithmetic.  `pow`/`log` are only used where the C++ arguments are in their domain; where the
  C++ would produce NaN or infinity the law is `none`.  The derived members divide by `xm`;
  theorems assume `0 < xm`.
-/
import Verif.Model.Kinetics
import Mathlib.Analysis.SpecialFunctions.Pow.Real

namespace Ecm
open Classical

/-- template argument and parameters of KineticsVocePL<nonlinear> (ECMech_kinetics_VocePL.h:137-152);
    for `nonlinear = false` the exponent `xmprime` is one (line 64) -/
structure Voce where
  nonlinear : Bool
  mu : ℝ
  xm : ℝ
  gamW : ℝ
  h0 : ℝ
  tausi : ℝ
  taus0 : ℝ
  xmprime : ℝ
  xms : ℝ
  gamss0 : ℝ
  hdnInit : ℝ

/-- ECMech_kinetics_VocePL.h:45 -/
noncomputable def Voce.xnn (k : Voce) : ℝ := 1 / k.xm
/-- ECMech_kinetics_VocePL.h:46 -/
noncomputable def Voce.xn (k : Voce) : ℝ := k.xnn - 1
/-- ECMech_kinetics_VocePL.h:50 -/
noncomputable def Voce.tMin (k : Voce) : ℝ := gamRatioMin ^ k.xm
/-- ECMech_kinetics_VocePL.h:51 -/
noncomputable def Voce.tMax (k : Voce) : ℝ := gamRatioOvf ^ k.xm
/-- ECMech_kinetics_VocePL.h:61, 65 -/
noncomputable def Voce.xmprime1 (k : Voce) : ℝ := if k.nonlinear then k.xmprime - 1 else 0

/-- ECMech_kinetics_VocePL.h:204-279 evalGdot (the strength `gIn` is positive, see `getVals`) -/
noncomputable def Voce.evalGdot (k : Voce) (gIn tau : ℝ) : Gd :=
  let gI := 1 / gIn
  let tFrac := tau * gI
  let at' := |tFrac|
  if k.tMin < at' then
    if k.tMax < at' then
      { gdot := copysign (gamRatioOvffx * k.gamW) tau, dtau := 0, dg := 0 }
    else
      let temp := k.gamW * Real.exp (k.xn * Real.log at')
      let dtau := temp * k.xnn * gI
      { gdot := temp * tFrac, dtau := dtau, dg := -dtau * tFrac }
  else { gdot := 0, dtau := 0, dg := 0 }

/-- ECMech_kinetics_VocePL.h:302-315 getEvolVals: (effective shear rate, saturation strength) -/
noncomputable def Voce.getEvolVals {n : ℕ} (k : Voce) (gdot : Vec n) : ℝ × ℝ :=
  let shrateEff := vecsssumabs gdot
  (shrateEff, if idpTinySqrt < shrateEff then k.taus0 * (shrateEff / k.gamss0) ^ k.xms else k.taus0)

/-- ECMech_kinetics_VocePL.h:320-345 getSdot1: (sdot, dsdot_ds).  In the nonlinear law `pow` has a
    usable value only for a positive base, for a zero base with a non-negative exponent, and for a
    negative base with an integer exponent (Mathlib's power agrees with `pow` there). -/
noncomputable def Voce.getSdot1 (k : Voce) (evol : ℝ × ℝ) : Law1 := fun h =>
  let shrateEff := evol.1
  let svSat := evol.2
  let temp2 := if svSat ≤ k.tausi then 0 else 1 / (svSat - k.tausi)
  if k.nonlinear then
    let base := (svSat - h) * temp2
    if 0 < base ∨ (base = 0 ∧ 0 ≤ k.xmprime1) ∨ (base < 0 ∧ ∃ z : ℤ, k.xmprime1 = z) then
      let temp1 := base ^ k.xmprime1
      some (k.h0 * temp1 * (svSat - h) * temp2 * shrateEff,
        -k.h0 * temp2 * shrateEff * k.xmprime * temp1)
    else none
  else
    let temp1 := k.h0 * ((svSat - h) * temp2)
    some (temp1 * shrateEff, -k.h0 * temp2 * shrateEff)

/-- test/test_aniso_kinetics_VocePL.h:339-375 getSdotN: one strength per slip system, each with its own
    initial strength `tausi`, otherwise as getSdot1; the derivative matrix is diagonal -/
noncomputable def Voce.getSdotN {n : ℕ} (k : Voce) (tausi : Vec n) (evol : ℝ × ℝ) : LawN n := fun h =>
  if ∀ i, ({ k with tausi := tausi i } : Voce).getSdot1 evol (h i) ≠ none then
    some (fun i => ((({ k with tausi := tausi i } : Voce).getSdot1 evol (h i)).getD (0, 0)).1,
      fun i j => if i = j then
        ((({ k with tausi := tausi i } : Voce).getSdot1 evol (h i)).getD (0, 0)).2 else 0)
  else none

/-- ECMech_kinetics_VocePL.h:284-297 updateH; `pow(shrate_eff / gamss0, xms)` in getEvolVals needs a
    positive base -/
noncomputable def Voce.updateH {n : ℕ} (k : Voce) (S : Solver 1) (hsO : Vec 1) (dt : ℝ)
    (gdot : Vec n) : Out (Vec 1 × ℕ) :=
  if k.gamss0 ≤ 0 then .undef "pow(shrate_eff / gamss0) with non-positive gamss0"
  else (updateH1 S (k.getSdot1 (k.getEvolVals gdot)) (hsO 0) dt).bind fun r =>
    .ok ((fun _ => r.1), r.2)

/-- the kinetics object: ECMech_kinetics_VocePL.h:157-161 (getFixedRefRate), 166-175 (getVals, with
    its assert), 180-196 (evalGdots), 284-297 (updateH) -/
noncomputable def Voce.kin (k : Voce) (S : Solver 1) (n : ℕ) : Kin n 1 where
  Vals := ℝ
  getVals := fun _ _ h => if 0 < h 0 then .ok (h 0, h 0) else .undef "assert(vals[0] > zero)"
  fixedRefRate := fun _ => k.gamW
  evalGdot := fun g _ tau => k.evalGdot g tau
  updateH := k.updateH S

end Ecm
