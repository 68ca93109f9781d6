/-
  src/ecmech/ECMech_slipgeom.h and miller_to_orthog_sngl (src/ecmech/ECMech_util.h) with the compile-time option NO_CHECKS.
  The lines between `#ifndef NO_CHECKS` and `#endif` are left out, the others are as in Model/SlipGeom.
-/
import Verif.Model.SlipGeom

namespace Ecm
open Matrix Classical

/-- ECMech_slipgeom.h:13-47 fillFromMS without lines 22-26 -/
noncomputable def fillFree {n : ℕ} (mVecs sVecs : Fin n → Vec 3) : Out (SlipGeom n) := .ok (slipPQ mVecs sVecs)

/-- ECMech_util.h:1230-1323 miller_to_orthog_sngl without lines 1236-1244 and 1318-1322 -/
noncomputable def millerFree (ann abb : Vec 4) (cOverA : ℝ) : Out (Vec 3 × Vec 3) :=
  let s0 := mToODir abb cOverA
  if vecNorm s0 = 0 then .undef "normalisation of a zero direction"
  else
    (millerPlane ann cOverA).bind fun m0 =>
      if vecNorm m0 = 0 then .undef "normalisation of a zero normal"
      else .ok (millerAlign ann (vecsVNormalize m0), vecsVNormalize s0)

/-- ECMech_slipgeom.h:338-424 with NO_CHECKS -/
noncomputable def hcpMSFree (cOverA : ℝ) : Out ((Fin 24 → Vec 3) × (Fin 24 → Vec 3)) :=
  (millerFree ![1, 0, -1, 1] ![1, -2, 1, 0] cOverA).bind fun ya =>
    (millerFree ![1, 0, -1, 1] ![-1, -1, 2, 3] cOverA).bind fun y1 =>
      .ok (hcpM ya.1 y1.1 (Real.sqrt (1 - ya.1 2 * ya.1 2)) (Real.sqrt (1 - y1.1 2 * y1.1 2)),
           hcpS ya.2 y1.2 (Real.sqrt (1 - y1.2 2 * y1.2 2)))

/-- ECMech_slipgeom.h:333-430 SlipGeomHCPaBRYcaY1::setParams with NO_CHECKS -/
noncomputable def slipGeomHCPFree (cOverA : ℝ) : Out (SlipGeom 24) :=
  (hcpMSFree cOverA).bind fun ms => fillFree ms.1 ms.2

end Ecm
