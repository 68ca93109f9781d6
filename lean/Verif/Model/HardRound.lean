/- The hardness update of the power law with linear Voce hardening in floating-point arithmetic
   (src/ecmech/ECMech_kinetics.h:93-137, 177-180, src/ecmech/ECMech_kinetics_VocePL.h:299-345).

   Same arithmetic and simplifications as Verif/Model/Rounding.lean; the library function `pow` as in
   Verif/Model/ResidRound.lean.  The maximum and the changes of sign are exact. -/
import Verif.Model.ResidRound
import Verif.Model.Hardening

namespace Ecm.Flt
variable (F : Flt)

/-- ECMech_kinetics_VocePL.h:307, 309-312 getEvolVals: the saturation strength at the (computed) rate of slip `g` -/
noncomputable def satStrength {F : Flt} (L : Libm F) (k : Voce) (g : ℝ) : ℝ :=
  if idpTinySqrt < g then F.fl (k.taus0 * L.powF (F.fl (g / k.gamss0)) k.xms) else k.taus0

/-- ECMech_kinetics_VocePL.h:328 -/
noncomputable def hardTemp2 (k : Voce) (s : ℝ) : ℝ := if s ≤ k.tausi then 0 else F.fl (1 / F.fl (s - k.tausi))

/-- ECMech_kinetics_VocePL.h:340-341 getSdot1, linear law: the rate of the strength at the rate of slip `g` and the
    saturation strength `s` -/
noncomputable def hardRate (k : Voce) (g s h : ℝ) : ℝ :=
  F.fl (F.fl (k.h0 * F.fl (F.fl (s - h) * F.hardTemp2 k s)) * g)

/-- ECMech_kinetics_VocePL.h:343 -/
noncomputable def hardSlope (k : Voce) (g s : ℝ) : ℝ := F.fl (F.fl (-k.h0 * F.hardTemp2 k s) * g)

/-- ECMech_kinetics.h:121: the change of the strength at the trial point `x`, from the old strength `hO` -/
noncomputable def hardDelta (hO x : ℝ) : ℝ := F.fl (x * max hO 1)

/-- ECMech_kinetics.h:110-112 getHn, 122 -/
noncomputable def hardNew (hO x : ℝ) : ℝ := F.fl (hO + F.hardDelta hO x)

/-- ECMech_kinetics.h:99-101, 116-127: the residual -/
noncomputable def hardResid (k : Voce) (g s hO dt x : ℝ) : ℝ :=
  F.fl (F.fl (F.hardDelta hO x - F.fl (F.hardRate k g s (F.hardNew hO x) * dt)) * F.fl (1 / max hO 1))

/-- ECMech_kinetics.h:129-134: its derivative -/
noncomputable def hardJac (k : Voce) (g s dt : ℝ) : ℝ := F.fl (1 - F.fl (F.hardSlope k g s * dt))

end Ecm.Flt
