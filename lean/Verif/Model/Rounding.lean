/- The quaternion update and the accumulated slip in floating-point arithmetic
   (src/ecmech/ECMech_util.h:67-74, 99-136, 468-508,
   src/ecmech/ECMech_evptn.h:490-510, 668, 1040-1047, 1183-1184, 1219-1227).

   The other model files evaluate the code over the reals; here each operation is followed by a rounding.
   Simplifications: sums are evaluated from left to right without fused multiply-add, and the results are
   in the range where the arithmetic does not overflow. -/
import Verif.Model.Util

namespace Ecm

/-- floating-point arithmetic: every operation returns its exact result up to a relative error `u` and,
    because of gradual underflow, an absolute error `η`, as long as the result does not exceed 1e250.
    The trigonometric functions of the mathematical library return values within `2 u`.
    Double precision: u = 2^-53, η = 2^-1075. -/
structure Flt where
  /-- relative error of one operation -/
  u : ℝ
  /-- absolute error of one operation near zero -/
  η : ℝ
  /-- rounding of an exact result -/
  fl : ℝ → ℝ
  /-- `cos` of the library -/
  cosF : ℝ → ℝ
  /-- `sin` of the library -/
  sinF : ℝ → ℝ
  u_nonneg : 0 ≤ u
  u_le : u ≤ 1 / 10 ^ 6
  η_nonneg : 0 ≤ η
  η_le : η ≤ u / 10 ^ 200
  fl_err : ∀ x, |x| ≤ 10 ^ 250 → |fl x - x| ≤ u * |x| + η
  cos_err : ∀ x, |cosF x - Real.cos x| ≤ 2 * u
  sin_err : ∀ x, |sinF x - Real.sin x| ≤ 2 * u

namespace Flt
variable (F : Flt)

/-- ECMech_util.h:100-103: the sum of squares accumulated in `vecNorm` -/
def sumSq : {n : ℕ} → Vec n → ℝ
  | 0, _ => 0
  | _ + 1, v => F.fl (sumSq (fun i => v i.castSucc) + F.fl (v (Fin.last _) * v (Fin.last _)))

/-- ECMech_util.h:99-107 vecNorm; the square root is rounded like the other operations (IEEE 754) -/
noncomputable def norm {n : ℕ} (v : Vec n) : ℝ := F.fl (Real.sqrt (F.sumSq v))

/-- ECMech_util.h:133-136 vecsVNormalize -/
noncomputable def normalize {n : ℕ} (v : Vec n) : Vec n := fun i => F.fl (v i * F.fl (1 / F.norm v))

/-- ECMech_util.h:468-474 inv_to_quat -/
noncomputable def invToQuat (inv : Vec 4) : Vec 4 :=
  let a := F.fl (inv 0 * 0.5)
  ![F.cosF a, F.fl (F.sinF a * inv 1), F.fl (F.sinF a * inv 2), F.fl (F.sinF a * inv 3)]

open Classical in
/-- ECMech_util.h:477-486 emap_to_quat -/
noncomputable def emapToQuat (e : Vec 3) : Vec 4 :=
  let n := F.norm e
  if 1 / 10 ^ 90 < n then
    let i := F.fl (1 / n)
    F.invToQuat ![n, F.fl (i * e 0), F.fl (i * e 1), F.fl (i * e 2)]
  else
    F.invToQuat ![n, 1, 0, 0]

/-- ECMech_util.h:492-500 quat_prod -/
def quatProd (a b : Vec 4) : Vec 4 :=
  ![F.fl (F.fl (F.fl (F.fl (a 0 * b 0) - F.fl (a 1 * b 1)) - F.fl (a 2 * b 2)) - F.fl (a 3 * b 3)),
    F.fl (F.fl (F.fl (F.fl (a 0 * b 1) + F.fl (a 1 * b 0)) + F.fl (a 2 * b 3)) - F.fl (a 3 * b 2)),
    F.fl (F.fl (F.fl (F.fl (a 0 * b 2) - F.fl (a 1 * b 3)) + F.fl (a 2 * b 0)) + F.fl (a 3 * b 1)),
    F.fl (F.fl (F.fl (F.fl (a 0 * b 3) + F.fl (a 1 * b 2)) - F.fl (a 2 * b 1)) + F.fl (a 3 * b 0))]

/-- ECMech_evptn.h:1047 and 504-509: the stored quaternion is normalised, then multiplied by the
    quaternion of the rotation increment.  The change of sign at 1223-1227 is exact and left to the
    user of this definition. -/
noncomputable def quatStep (q : Vec 4) (xi : Vec 3) : Vec 4 :=
  F.quatProd (F.normalize q) (F.emapToQuat xi)

/-- ECMech_util.h:67-74 vecsssumabs: the absolute values are exact, the sum starts at zero -/
def sumAbs : {n : ℕ} → Vec n → ℝ
  | 0, _ => 0
  | _ + 1, v => F.fl (sumAbs (fun i => v i.castSucc) + |v (Fin.last _)|)

/-- ECMech_evptn.h:668, 1183-1184: the slip accumulated over the step of length `dt` is added to the
    stored value `s` -/
def shrEff {n : ℕ} (s dt : ℝ) (gdot : Vec n) : ℝ := F.fl (s + F.fl (F.sumAbs gdot * dt))

end Flt
end Ecm
