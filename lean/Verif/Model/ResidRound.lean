/- The residual of the implicit step in floating-point arithmetic (src/ecmech/ECMech_const.h:44-55, 152-153,
   src/ecmech/ECMech_util.h:33-50, 161-187, 611-635, src/ecmech/ECMech_evptn.h:99-111, 440-443, 456, 514-533,
   565-654, src/ecmech/ECMech_kinetics_VocePL.h:45-51, 238-260).

   Same arithmetic and simplifications as Verif/Model/Rounding.lean and Verif/Model/RotRound.lean.  Cubic
   elasticity.  The members that the constructor copies (time step, relative volume, state before the step,
   imposed rate and spin, elastic moduli) are numbers of the machine and therefore the same as in
   Verif/Model/Problem.lean.  The tables of the slip systems and the slip law are arguments. -/
import Verif.Model.RotRound
import Verif.Model.Problem
import Verif.Model.Voce

namespace Ecm

/-- `exp`, `log` and `pow` of the mathematical library: right up to two roundoffs -/
structure Libm (F : Flt) where
  expF : ℝ → ℝ
  logF : ℝ → ℝ
  powF : ℝ → ℝ → ℝ
  exp_err : ∀ x, |x| ≤ 500 → |expF x - Real.exp x| ≤ 2 * F.u * Real.exp x
  log_err : ∀ x, 1 / 10 ^ 250 ≤ x → x ≤ 10 ^ 250 → |logF x - Real.log x| ≤ 2 * F.u * |Real.log x| + F.η
  pow_err : ∀ x y, 0 < x → 1 / 10 ^ 150 ≤ x ^ y → x ^ y ≤ 10 ^ 150 →
    |powF x y - x ^ y| ≤ 2 * F.u * x ^ y

namespace Flt
variable (F : Flt)

/-- ECMech_const.h:152 e_scale: the literal is rounded -/
noncomputable def eScale : ℝ := F.fl Ecm.eScale
/-- ECMech_const.h:153 r_scale -/
noncomputable def rScale : ℝ := F.fl Ecm.rScale
/-- ECMech_const.h:49-51, 136 (halfsqr3) -/
noncomputable def halfsqr3 : ℝ := F.fl litHalfsqr3

/-- ECMech_util.h:611-635 M35_d_AAoB_dA; the changes of sign are exact -/
noncomputable def m35 (b : Vec 5) : Mat 3 5 :=
  let vb1 := b 0; let vb2 := b 1; let vb3 := b 2; let vb4 := b 3; let vb5 := b 4
  !![F.fl (vb5 * (1/2)), F.fl (vb5 * F.halfsqr3), F.fl (-vb4 * (1/2)), F.fl (vb3 * (1/2)),
      F.fl (F.fl (-vb1 * (1/2)) - F.fl (F.halfsqr3 * vb2));
     F.fl (vb4 * (1/2)), F.fl (-vb4 * F.halfsqr3), F.fl (vb5 * (1/2)),
      F.fl (F.fl (F.halfsqr3 * vb2) - F.fl (vb1 * (1/2))), F.fl (-vb3 * (1/2));
     -vb3, 0, vb1, F.fl (-vb5 * (1/2)), F.fl (vb4 * (1/2))]

/-- what the floating-point evaluation of the residual works with: the members of the problem, the quaternion
    as stored before the step, the tables of the slip systems as computed, the slip law as computed -/
structure Run (n : ℕ) where
  P : Updst n
  q : Vec 4
  pT : Mat 5 n
  qT : Mat 3 n
  law : Fin n → ℝ → ℝ

namespace Run
variable {F} (L : Libm F) {n : ℕ} (R : Run n)

/-- ECMech_evptn.h:440 -/
noncomputable def dtRi (F : Flt) (R : Run n) : ℝ := F.fl (1 / R.P.dt)
/-- ECMech_evptn.h:442, ECMech_const.h (onethird = 1.0 / 3.0) -/
noncomputable def aV : ℝ := L.powF R.P.detV (F.fl (1 / 3))
/-- ECMech_evptn.h:443 -/
noncomputable def aVri : ℝ := F.fl (1 / R.aV L)
open Classical in
/-- ECMech_evptn.h:447-454.  For a zero norm the quotient is an infinity and `fmin` returns its other
    argument. -/
noncomputable def sE (F : Flt) (R : Run n) : ℝ :=
  let eff := F.norm R.P.dSm
  if eff < F.fl (F.fl epsdotSclNzeff * R.P.adotsRef) then F.fl (1 / R.P.adotsRef)
  else if eff = 0 then F.fl (10 ^ 6 * R.P.dt)
  else min (F.fl (1 / eff)) (F.fl (10 ^ 6 * R.P.dt))
/-- ECMech_evptn.h:456 -/
noncomputable def sR (F : Flt) (R : Run n) : ℝ := F.fl (R.dtRi F * R.sE F)
/-- ECMech_evptn.h:569, 571: the change of the elastic strain, scaled -/
noncomputable def eDelta (F : Flt) (x : Vec 8) : Vec 5 := fun i => F.fl (F.eScale * x (iE i))
/-- ECMech_evptn.h:571-572: elastic strain at the trial point -/
noncomputable def eF (F : Flt) (R : Run n) (x : Vec 8) : Vec 5 := fun i => F.fl (eDelta F x i + R.P.eN i)
/-- ECMech_evptn.h:573: elastic strain rate -/
noncomputable def edot (F : Flt) (R : Run n) (x : Vec 8) : Vec 5 := fun i => F.fl (eDelta F x i * R.dtRi F)
/-- ECMech_evptn.h:575-576: rotation increment -/
noncomputable def xiF (F : Flt) (x : Vec 8) : Vec 3 := fun i => F.fl (F.rScale * x (iR i))
/-- ECMech_evptn.h:582-586, 1047: orientation, from the stored quaternion -/
noncomputable def cQuat (F : Flt) (R : Run n) (x : Vec 8) : Vec 4 := F.quatStep R.q (xiF F x)
/-- ECMech_evptn.h:594-597: imposed rate in the lattice frame -/
noncomputable def dLat (F : Flt) (R : Run n) (x : Vec 8) : Vec 5 := F.rateLat (R.cQuat F x) R.P.dSm
/-- ECMech_evptn.h:604-605: imposed spin in the lattice frame -/
noncomputable def wLat (F : Flt) (R : Run n) (x : Vec 8) : Vec 3 :=
  F.mulVecT (F.quatToTensor (R.cQuat F x)) R.P.wSm
/-- ECMech_evptn.h:70-74, 109, 523-532: deviatoric stress of the cubic crystal; the moduli are computed by one
    operation each -/
noncomputable def stress (x : Vec 8) : Vec 5 := fun i =>
  F.fl (F.fl (R.P.el.kDiag i) * F.fl (R.aVri L * R.eF F x i))
/-- ECMech_evptn.h:620: resolved stresses -/
noncomputable def taua (x : Vec 8) : Vec n := fun s => F.dot (R.stress L x) (fun i => R.pT i s)
/-- ECMech_evptn.h:623: slip rates -/
noncomputable def gdot (x : Vec 8) : Vec n := fun s => R.law s (R.taua L x s)
/-- ECMech_evptn.h:644-647: first five components of the residual -/
noncomputable def residE (x : Vec 8) : Vec 5 := fun i =>
  F.fl (R.sE F * F.fl (F.fl (F.fl (R.aVri L * R.edot F x i) + F.mulVec R.pT (R.gdot L x) i) - R.dLat F x i))
/-- ECMech_evptn.h:640 -/
noncomputable def eeFac : ℝ := F.fl (F.fl ((1/2) * R.aVri L) * R.aVri L)
/-- ECMech_evptn.h:634-640: the part of the spin that comes from the elastic strain -/
noncomputable def eeSpin (x : Vec 8) : Vec 3 := fun i =>
  F.fl (R.eeFac L * F.mulVec (F.m35 (R.eF F x)) (R.edot F x) i)
/-- ECMech_evptn.h:651-654: last three components of the residual -/
noncomputable def residR (x : Vec 8) : Vec 3 := fun i =>
  F.fl (R.sR F * F.fl (xiF F x i - F.fl (R.P.dt * F.fl (F.fl (R.wLat F x i - F.mulVec R.qT (R.gdot L x) i)
    + R.eeSpin L x i))))
/-- ECMech_evptn.h:565-654: the residual as the machine computes it -/
noncomputable def resid (x : Vec 8) : Vec 8 := block8 (R.residE L x) (R.residR L x)

end Run

open Classical in
/-- ECMech_kinetics_VocePL.h:45-51, 238-258: the power law with its two thresholds.  The literals 1e-60, 1e45
    and 1e60 are rounded, the exponent is computed from the rate sensitivity and the thresholds by `pow`. -/
noncomputable def voceLaw {F : Flt} (L : Libm F) (k : Voce) (g tau : ℝ) : ℝ :=
  let xn := F.fl (F.fl (1 / k.xm) - 1)
  let tMin := L.powF (F.fl (1 / 10 ^ 60)) k.xm
  let tMax := L.powF (F.fl (10 ^ 60)) k.xm
  let tf := F.fl (tau * F.fl (1 / g))
  if tMin < |tf| then
    if tMax < |tf| then copysign (F.fl (F.fl (10 ^ 45) * k.gamW)) tau
    else F.fl (F.fl (k.gamW * L.expF (F.fl (xn * L.logF |tf|))) * tf)
  else 0

end Flt
end Ecm
