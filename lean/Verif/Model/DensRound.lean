/- The density update of the dislocation kinetics in floating-point arithmetic
   (src/ecmech/ECMech_kinetics.h:93-137, 177-180, src/ecmech/ECMech_kinetics_KMBalD.h:609-675).

   Same arithmetic and simplifications as Verif/Model/Rounding.lean; the library functions `exp`, `log` and `pow` as in
   Verif/Model/ResidRound.lean.  The maximum and the changes of sign are exact.  The update works on the logarithm of
   the density; scale, increment and new value are those of Verif/Model/HardRound.lean (`hardDelta`, `hardNew`). -/
import Verif.Model.HardRound
import Verif.Model.KMBalD

namespace Ecm.Flt
variable {F : Flt} {nV : ℕ}

/-- ECMech_kinetics_KMBalD.h:638-641 getEvolVals: the coefficient of recovery at the (computed) rate of slip `g` -/
noncomputable def recovery (L : Libm F) (k : KMBalD nV) (g : ℝ) : ℝ :=
  if idpTinySqrt < g then F.fl (k.k2o * L.powF (F.fl (k.gammaO / g)) k.ninv) else k.k2o

/-- ECMech_kinetics_KMBalD.h:669-671 getSdot1: the rate of the logarithm `y` of the density -/
noncomputable def densRate (L : Libm F) (k : KMBalD nV) (g k2 y : ℝ) : ℝ :=
  F.fl (F.fl (F.fl (k.k1 * L.expF (F.fl (-(1 / 2) * y))) - k2) * g)

/-- ECMech_kinetics_KMBalD.h:669, 673 -/
noncomputable def densSlope (L : Libm F) (k : KMBalD nV) (g y : ℝ) : ℝ :=
  F.fl (F.fl (F.fl (-k.k1 * (1 / 2)) * L.expF (F.fl (-(1 / 2) * y))) * g)

/-- ECMech_kinetics.h:99-101, 116-127: the residual at the trial point `x`, from the old logarithm `yO` -/
noncomputable def densResid (L : Libm F) (k : KMBalD nV) (g k2 yO dt x : ℝ) : ℝ :=
  F.fl (F.fl (F.hardDelta yO x - F.fl (densRate L k g k2 (F.hardNew yO x) * dt)) * F.fl (1 / max yO 1))

/-- ECMech_kinetics.h:129-134: its derivative -/
noncomputable def densJac (L : Libm F) (k : KMBalD nV) (g yO dt x : ℝ) : ℝ :=
  F.fl (1 - F.fl (densSlope L k g (F.hardNew yO x) * dt))

/-- ECMech_kinetics_KMBalD.h:619: the logarithm of the stored density, not below the least density -/
noncomputable def densLog (L : Libm F) (k : KMBalD nV) (h : ℝ) : ℝ := L.logF (max h k.hdnMin)

/-- ECMech_kinetics_KMBalD.h:623: the density that is stored -/
noncomputable def densStore (L : Libm F) (y : ℝ) : ℝ := L.expF y

end Ecm.Flt
