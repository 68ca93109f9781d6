/-
  Model of src/ecmech/ECMech_slipgeom.h and of miller_to_orthog_sngl
  (src/ecmech/ECMech_util.h:1230-1323).  NO_CHECKS is not defined, so checks are active.
-/
import Verif.Model.Util
import Verif.Model.Outcome
import Mathlib.Data.Fin.Tuple.Basic

namespace Ecm
open Matrix Classical

/-- Output of a slip geometry class: the arrays `_P_ref_vec` (ntvec x nslip) and
    `_Q_ref_vec` (nwvec x nslip), e.g. ECMech_slipgeom.h:112-113 -/
structure SlipGeom (n : ℕ) where
  P : Mat 5 n
  Q : Mat 3 n

/-- ECMech_slipgeom.h:28-42, the arrays written by fillFromMS -/
noncomputable def slipPQ {n : ℕ} (mVecs sVecs : Fin n → Vec 3) : SlipGeom n where
  P := fun k i => matToP (vecsMaTb (sVecs i) (mVecs i)) k
  Q := fun k i => matToQ (vecsMaTb (sVecs i) (mVecs i)) k

/-- ECMech_slipgeom.h:13-47 fillFromMS; the partial writes before a failure are not modelled
    (the failure propagates out of setParams) -/
noncomputable def fillFromMS {n : ℕ} (mVecs sVecs : Fin n → Vec 3) : Out (SlipGeom n) :=
  if ∃ i, idpEpsSqrt < |vecsyadotb (mVecs i) (sVecs i)| then .fail "internal error"
  else .ok (slipPQ mVecs sVecs)

/-- ECMech_util.h:1260-1287: basal points m_a, m_b, vec_basal and pnt_b; the divisions by a zero
    index are reported as `undef` -/
noncomputable def millerBasal (ann : Vec 4) (cOverA : ℝ) : Out (Vec 3 × Vec 3) :=
  if |ann 0| < idpEpsSqrt then
    if ann 1 = 0 ∨ ann 2 = 0 then .undef "division by zero plane index"
    else
      let pa := mToODir ![0, 1 / ann 1, 0, 0] cOverA
      let pb := mToODir ![0, 0, 1 / ann 2, 0] cOverA
      .ok (fun i => pa i - pb i, pb)
  else if |ann 1| < idpEpsSqrt then
    if ann 2 = 0 then .undef "division by zero plane index"
    else
      let pa := mToODir ![1 / ann 0, 0, 0, 0] cOverA
      let pb := mToODir ![0, 0, 1 / ann 2, 0] cOverA
      .ok (fun i => pa i - pb i, pb)
  else
    let pa := mToODir ![1 / ann 0, 0, 0, 0] cOverA
    let pb := mToODir ![0, 1 / ann 1, 0, 0] cOverA
    .ok (fun i => pa i - pb i, pb)

/-- ECMech_util.h:1255-1307: the plane normal before normalisation -/
noncomputable def millerPlane (ann : Vec 4) (cOverA : ℝ) : Out (Vec 3) :=
  if |ann 0| + |ann 1| + |ann 2| < idpEpsSqrt then .ok ![0, 0, 1]
  else
    (millerBasal ann cOverA).bind fun bp =>
      if |ann 3| < idpEpsSqrt then .ok (vecCrossProd bp.1 ![0, 0, 1])
      else
        let pc := mToODir ![0, 0, 0, 1 / ann 3] cOverA
        .ok (vecCrossProd bp.1 (fun i => pc i - bp.2 i))

/-- ECMech_util.h:1312-1316: align vecm with ann -/
noncomputable def millerAlign (ann : Vec 4) (vecm : Vec 3) : Vec 3 :=
  if vecm 2 * ann 3 < 0 then fun i => -vecm i else vecm

/-- ECMech_util.h:1230-1323 miller_to_orthog_sngl, returning (vecm, vecs) -/
noncomputable def millerToOrthogSngl (ann abb : Vec 4) (cOverA : ℝ) : Out (Vec 3 × Vec 3) :=
  if idpEpsSqrt < |ann 0 + ann 1 + ann 2| then .fail "bad ann"
  else if idpEpsSqrt < |abb 0 + abb 1 + abb 2| then .fail "bad abb"
  else
    let s0 := mToODir abb cOverA
    if vecNorm s0 = 0 then .undef "normalisation of a zero direction"
    else
      let vecs := vecsVNormalize s0
      (millerPlane ann cOverA).bind fun m0 =>
        if vecNorm m0 = 0 then .undef "normalisation of a zero normal"
        else
          let vecm := millerAlign ann (vecsVNormalize m0)
          if idpEpsSqrt < |vecsyadotb vecm vecs| then .fail "internal error"
          else .ok (vecm, vecs)

/-- ECMech_slipgeom.h:70-81 mVecs of SlipGeomFCC -/
noncomputable def fccM : Fin 12 → Vec 3 :=
  ![![sqr3i, sqr3i, sqr3i],
    ![sqr3i, sqr3i, sqr3i],
    ![sqr3i, sqr3i, sqr3i],
    ![-sqr3i, sqr3i, sqr3i],
    ![-sqr3i, sqr3i, sqr3i],
    ![-sqr3i, sqr3i, sqr3i],
    ![-sqr3i, -sqr3i, sqr3i],
    ![-sqr3i, -sqr3i, sqr3i],
    ![-sqr3i, -sqr3i, sqr3i],
    ![sqr3i, -sqr3i, sqr3i],
    ![sqr3i, -sqr3i, sqr3i],
    ![sqr3i, -sqr3i, sqr3i]]

/-- ECMech_slipgeom.h:84-95 sVecs of SlipGeomFCC -/
noncomputable def fccS : Fin 12 → Vec 3 :=
  ![![0, sqr2i, -sqr2i],
    ![-sqr2i, 0, sqr2i],
    ![sqr2i, -sqr2i, 0],
    ![-sqr2i, 0, -sqr2i],
    ![0, -sqr2i, sqr2i],
    ![sqr2i, sqr2i, 0],
    ![0, -sqr2i, -sqr2i],
    ![sqr2i, 0, sqr2i],
    ![-sqr2i, sqr2i, 0],
    ![sqr2i, 0, -sqr2i],
    ![0, sqr2i, sqr2i],
    ![-sqr2i, -sqr2i, 0]]

/-- ECMech_slipgeom.h:158-169 mVecsThese, {110} planes -/
noncomputable def bccBaseM : Fin 12 → Vec 3 :=
  ![![0, sqr2i, -sqr2i],
    ![-sqr2i, 0, sqr2i],
    ![sqr2i, -sqr2i, 0],
    ![-sqr2i, 0, -sqr2i],
    ![0, -sqr2i, sqr2i],
    ![sqr2i, sqr2i, 0],
    ![0, -sqr2i, -sqr2i],
    ![sqr2i, 0, sqr2i],
    ![-sqr2i, sqr2i, 0],
    ![sqr2i, 0, -sqr2i],
    ![0, sqr2i, sqr2i],
    ![-sqr2i, -sqr2i, 0]]

/-- ECMech_slipgeom.h:172-183 sVecsThese for the {110} planes -/
noncomputable def bccBaseS : Fin 12 → Vec 3 :=
  ![![sqr3i, sqr3i, sqr3i],
    ![sqr3i, sqr3i, sqr3i],
    ![sqr3i, sqr3i, sqr3i],
    ![-sqr3i, sqr3i, sqr3i],
    ![-sqr3i, sqr3i, sqr3i],
    ![-sqr3i, sqr3i, sqr3i],
    ![-sqr3i, -sqr3i, sqr3i],
    ![-sqr3i, -sqr3i, sqr3i],
    ![-sqr3i, -sqr3i, sqr3i],
    ![sqr3i, -sqr3i, sqr3i],
    ![sqr3i, -sqr3i, sqr3i],
    ![sqr3i, -sqr3i, sqr3i]]

/-- ECMech_slipgeom.h:190 twSqr6i -/
noncomputable def twSqr6i : ℝ := 2 * sqr6i

/-- ECMech_slipgeom.h:196-207 mVecsThese, {112} planes -/
noncomputable def bccPGaM : Fin 12 → Vec 3 :=
  ![![-twSqr6i, sqr6i, sqr6i],
    ![sqr6i, -twSqr6i, sqr6i],
    ![sqr6i, sqr6i, -twSqr6i],
    ![-sqr6i, -twSqr6i, sqr6i],
    ![twSqr6i, sqr6i, sqr6i],
    ![-sqr6i, sqr6i, -twSqr6i],
    ![twSqr6i, -sqr6i, sqr6i],
    ![-sqr6i, twSqr6i, sqr6i],
    ![-sqr6i, -sqr6i, -twSqr6i],
    ![sqr6i, twSqr6i, sqr6i],
    ![-twSqr6i, -sqr6i, sqr6i],
    ![sqr6i, -sqr6i, -twSqr6i]]

/-- ECMech_slipgeom.h:210-221 sVecsThese for the {112} planes -/
noncomputable def bccPGaS : Fin 12 → Vec 3 :=
  ![![sqr3i, sqr3i, sqr3i],
    ![sqr3i, sqr3i, sqr3i],
    ![sqr3i, sqr3i, sqr3i],
    ![-sqr3i, sqr3i, sqr3i],
    ![-sqr3i, sqr3i, sqr3i],
    ![-sqr3i, sqr3i, sqr3i],
    ![-sqr3i, -sqr3i, sqr3i],
    ![-sqr3i, -sqr3i, sqr3i],
    ![-sqr3i, -sqr3i, sqr3i],
    ![sqr3i, -sqr3i, sqr3i],
    ![sqr3i, -sqr3i, sqr3i],
    ![sqr3i, -sqr3i, sqr3i]]

/-- ECMech_slipgeom.h:228 mPg2a -/
noncomputable def mPg2a : ℝ := 1 / Real.sqrt 14
/-- ECMech_slipgeom.h:229 mPg2b -/
noncomputable def mPg2b : ℝ := 2 / Real.sqrt 14
/-- ECMech_slipgeom.h:230 mPg2c -/
noncomputable def mPg2c : ℝ := 3 / Real.sqrt 14

/-- ECMech_slipgeom.h:236-259 mVecsThese, {123} planes -/
noncomputable def bccPGbM : Fin 24 → Vec 3 :=
  ![![mPg2c, -mPg2a, -mPg2b],
    ![-mPg2b, mPg2c, -mPg2a],
    ![-mPg2a, -mPg2b, mPg2c],
    ![mPg2a, mPg2c, -mPg2b],
    ![-mPg2c, -mPg2b, -mPg2a],
    ![mPg2b, -mPg2a, mPg2c],
    ![-mPg2c, mPg2a, -mPg2b],
    ![mPg2b, -mPg2c, -mPg2a],
    ![mPg2a, mPg2b, mPg2c],
    ![-mPg2a, -mPg2c, -mPg2b],
    ![mPg2c, mPg2b, -mPg2a],
    ![-mPg2b, mPg2a, mPg2c],
    ![-mPg2a, mPg2c, mPg2b],
    ![mPg2c, -mPg2b, mPg2a],
    ![-mPg2b, -mPg2a, -mPg2c],
    ![-mPg2c, -mPg2a, mPg2b],
    ![mPg2b, mPg2c, mPg2a],
    ![mPg2a, -mPg2b, -mPg2c],
    ![mPg2a, -mPg2c, mPg2b],
    ![-mPg2c, mPg2b, mPg2a],
    ![mPg2b, mPg2a, -mPg2c],
    ![mPg2c, mPg2a, mPg2b],
    ![-mPg2b, -mPg2c, mPg2a],
    ![-mPg2a, mPg2b, -mPg2c]]

/-- ECMech_slipgeom.h:262-285 sVecsThese for the {123} planes -/
noncomputable def bccPGbS : Fin 24 → Vec 3 :=
  ![![sqr3i, sqr3i, sqr3i],
    ![sqr3i, sqr3i, sqr3i],
    ![sqr3i, sqr3i, sqr3i],
    ![-sqr3i, sqr3i, sqr3i],
    ![-sqr3i, sqr3i, sqr3i],
    ![-sqr3i, sqr3i, sqr3i],
    ![-sqr3i, -sqr3i, sqr3i],
    ![-sqr3i, -sqr3i, sqr3i],
    ![-sqr3i, -sqr3i, sqr3i],
    ![sqr3i, -sqr3i, sqr3i],
    ![sqr3i, -sqr3i, sqr3i],
    ![sqr3i, -sqr3i, sqr3i],
    ![sqr3i, sqr3i, -sqr3i],
    ![sqr3i, sqr3i, -sqr3i],
    ![sqr3i, sqr3i, -sqr3i],
    ![-sqr3i, sqr3i, -sqr3i],
    ![-sqr3i, sqr3i, -sqr3i],
    ![-sqr3i, sqr3i, -sqr3i],
    ![-sqr3i, -sqr3i, -sqr3i],
    ![-sqr3i, -sqr3i, -sqr3i],
    ![-sqr3i, -sqr3i, -sqr3i],
    ![sqr3i, -sqr3i, -sqr3i],
    ![sqr3i, -sqr3i, -sqr3i],
    ![sqr3i, -sqr3i, -sqr3i]]

/-- ECMech_slipgeom.h:368-394 mVecs of SlipGeomHCPaBRYcaY1, from the vectors found at lines 342-364 -/
noncomputable def hcpM (m_ya m_y1ca : Vec 3) (m_ya_pp m_y1ca_pp : ℝ) : Fin 24 → Vec 3 :=
  ![![0, 0, 1],
    ![0, 0, 1],
    ![0, 0, 1],
    ![-halfsqr3, (1/2), 0],
    ![-halfsqr3, -(1/2), 0],
    ![0, -1, 0],
    ![m_ya 0, m_ya 1, m_ya 2],
    ![m_ya 0, -m_ya 1, -m_ya 2],
    ![m_ya 0, m_ya 1, -m_ya 2],
    ![-m_ya 0, m_ya 1, -m_ya 2],
    ![0, m_ya_pp, -m_ya 2],
    ![0, -m_ya_pp, -m_ya 2],
    ![m_y1ca 0, m_y1ca 1, m_y1ca 2],
    ![m_y1ca 0, -m_y1ca 1, -m_y1ca 2],
    ![m_y1ca 0, m_y1ca 1, -m_y1ca 2],
    ![0, m_y1ca_pp, -m_y1ca 2],
    ![-m_y1ca 0, m_y1ca 1, -m_y1ca 2],
    ![-m_y1ca 0, -m_y1ca 1, -m_y1ca 2],
    ![0, -m_y1ca_pp, -m_y1ca 2],
    ![0, m_y1ca_pp, m_y1ca 2],
    ![-m_y1ca 0, m_y1ca 1, m_y1ca 2],
    ![-m_y1ca 0, -m_y1ca 1, m_y1ca 2],
    ![m_y1ca 0, -m_y1ca 1, m_y1ca 2],
    ![0, -m_y1ca_pp, m_y1ca 2]]

/-- ECMech_slipgeom.h:397-423 sVecs of SlipGeomHCPaBRYcaY1 -/
noncomputable def hcpS (s_ya s_y1ca : Vec 3) (s_y1ca_pp : ℝ) : Fin 24 → Vec 3 :=
  ![![(1/2), halfsqr3, 0],
    ![(1/2), -halfsqr3, 0],
    ![1, 0, 0],
    ![(1/2), halfsqr3, 0],
    ![(1/2), -halfsqr3, 0],
    ![1, 0, 0],
    ![s_ya 0, s_ya 1, 0],
    ![s_ya 0, -s_ya 1, 0],
    ![-s_ya 0, -s_ya 1, 0],
    ![-s_ya 0, s_ya 1, 0],
    ![-1, 0, 0],
    ![1, 0, 0],
    ![s_y1ca 0, s_y1ca 1, s_y1ca 2],
    ![s_y1ca 0, -s_y1ca 1, -s_y1ca 2],
    ![-s_y1ca_pp, 0, -s_y1ca 2],
    ![s_y1ca 0, s_y1ca 1, -s_y1ca 2],
    ![-s_y1ca 0, s_y1ca 1, -s_y1ca 2],
    ![s_y1ca_pp, 0, -s_y1ca 2],
    ![-s_y1ca 0, -s_y1ca 1, -s_y1ca 2],
    ![-s_y1ca 0, s_y1ca 1, s_y1ca 2],
    ![s_y1ca_pp, 0, s_y1ca 2],
    ![-s_y1ca 0, -s_y1ca 1, s_y1ca 2],
    ![-s_y1ca_pp, 0, s_y1ca 2],
    ![s_y1ca 0, -s_y1ca 1, s_y1ca 2]]

/-- ECMech_slipgeom.h:61-100 SlipGeomFCC::setParams -/
noncomputable def slipGeomFCC : Out (SlipGeom 12) := fillFromMS fccM fccS

/-- ECMech_slipgeom.h:148-187: systems when nslip = 12 -/
noncomputable def bccM12 : Fin 12 → Vec 3 := bccBaseM
/-- ECMech_slipgeom.h:148-187 -/
noncomputable def bccS12 : Fin 12 → Vec 3 := bccBaseS
/-- ECMech_slipgeom.h:148-225: systems when nslip = 24 (appended in this order) -/
noncomputable def bccM24 : Fin 24 → Vec 3 := Fin.append bccBaseM bccPGaM
/-- ECMech_slipgeom.h:148-225 -/
noncomputable def bccS24 : Fin 24 → Vec 3 := Fin.append bccBaseS bccPGaS
/-- ECMech_slipgeom.h:148-289: systems when nslip = 48 (appended in this order) -/
noncomputable def bccM48 : Fin 48 → Vec 3 := Fin.append bccM24 bccPGbM
/-- ECMech_slipgeom.h:148-289 -/
noncomputable def bccS48 : Fin 48 → Vec 3 := Fin.append bccS24 bccPGbS

/-- ECMech_slipgeom.h:144-293 SlipGeomBCC<12>::setParams -/
noncomputable def slipGeomBCC12 : Out (SlipGeom 12) := fillFromMS bccM12 bccS12
/-- ECMech_slipgeom.h:144-293 SlipGeomBCC<24>::setParams -/
noncomputable def slipGeomBCC24 : Out (SlipGeom 24) := fillFromMS bccM24 bccS24
/-- ECMech_slipgeom.h:144-293 SlipGeomBCC<48>::setParams -/
noncomputable def slipGeomBCC48 : Out (SlipGeom 48) := fillFromMS bccM48 bccS48

/-- ECMech_slipgeom.h:338-424: normals and directions of the 24 HCP systems as a function of c/a -/
noncomputable def hcpMS (cOverA : ℝ) : Out ((Fin 24 → Vec 3) × (Fin 24 → Vec 3)) :=
  (millerToOrthogSngl ![1, 0, -1, 1] ![1, -2, 1, 0] cOverA).bind fun ya =>
    (millerToOrthogSngl ![1, 0, -1, 1] ![-1, -1, 2, 3] cOverA).bind fun y1 =>
      .ok (hcpM ya.1 y1.1 (Real.sqrt (1 - ya.1 2 * ya.1 2)) (Real.sqrt (1 - y1.1 2 * y1.1 2)),
           hcpS ya.2 y1.2 (Real.sqrt (1 - y1.2 2 * y1.2 2)))

/-- ECMech_slipgeom.h:333-430 SlipGeomHCPaBRYcaY1::setParams -/
noncomputable def slipGeomHCP (cOverA : ℝ) : Out (SlipGeom 24) :=
  (hcpMS cOverA).bind fun ms => fillFromMS ms.1 ms.2

end Ecm
