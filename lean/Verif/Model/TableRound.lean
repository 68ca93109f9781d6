/- The tables of the slip systems in floating-point arithmetic (src/ecmech/ECMech_slipgeom.h:28-42, 62-100, 150-186,
   src/ecmech/ECMech_util.h:271-320, 349-361, 447-465).

   Same arithmetic and simplifications as Verif/Model/Rounding.lean.  Changes of sign are exact. -/
import Verif.Model.RotRound
import Verif.Model.SlipGeom

namespace Ecm.Flt
variable (F : Flt)

/-- ECMech_const.h:17-19, 128 (sqr2): the literal is rounded -/
noncomputable def sqr2 : ℝ := F.fl litSqr2

/-- ECMech_util.h:286-294 vecsMsymm -/
noncomputable def msymm (A : Mat 3 3) : Mat 3 3 := fun i j => F.fl ((1/2) * F.fl (A i j + A j i))
/-- ECMech_util.h:298-306 vecsMskew -/
noncomputable def mskew (A : Mat 3 3) : Mat 3 3 := fun i j => F.fl ((1/2) * F.fl (A i j - A j i))
/-- ECMech_util.h:349-361 symmToVecd -/
noncomputable def symmToVecd (A : Mat 3 3) : Vec 5 :=
  ![F.fl (F.sqr2i * F.fl (A 0 0 - A 1 1)),
    F.fl (F.sqr6i * F.fl (F.fl (F.fl (2 * A 2 2) - A 0 0) - A 1 1)),
    F.fl (F.sqr2 * A 1 0), F.fl (F.sqr2 * A 2 0), F.fl (F.sqr2 * A 2 1)]

/-- ECMech_slipgeom.h:28-38, ECMech_util.h:271-282, 447-458: the symmetric part, one column per slip system -/
noncomputable def tableP {n : ℕ} (m s : Fin n → Vec 3) : Mat 5 n := fun k a =>
  F.symmToVecd (F.msymm fun i j => F.fl (s a i * m a j)) k
/-- ECMech_slipgeom.h:28-42, ECMech_util.h:271-282, 462-464: the skew part -/
noncomputable def tableQ {n : ℕ} (m s : Fin n → Vec 3) : Mat 3 n := fun k a =>
  Ecm.skewToVeccp (F.mskew fun i j => F.fl (s a i * m a j)) k

/-- ECMech_slipgeom.h:70-95, 158-183: a table of components `±sqr3i` or `±sqr2i` or zero as stored: the exact
    table in the file Verif/Model/SlipGeom.lean with each of these numbers rounded -/
noncomputable def stored (v : Vec 3) : Vec 3 := fun i =>
  open Classical in
  if v i = Ecm.sqr3i then F.sqr3i else if v i = -Ecm.sqr3i then -F.sqr3i
  else if v i = Ecm.sqr2i then F.sqr2i else if v i = -Ecm.sqr2i then -F.sqr2i else 0

end Ecm.Flt
