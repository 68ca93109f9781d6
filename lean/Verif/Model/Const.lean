/-
  Constants of src/ecmech/ECMech_const.h.

  Square-root constants are the exact real numbers; the decimal literals of the
  source are kept separately (`lit…`) and compared in Verif/Props/PConst.lean.
-/
import Mathlib.Analysis.Real.Sqrt

namespace Ecm

/-- ECMech_const.h:128 (sqr2) -/
noncomputable def sqr2 : ℝ := Real.sqrt 2
/-- ECMech_const.h:129 (sqr3) -/
noncomputable def sqr3 : ℝ := Real.sqrt 3
/-- ECMech_const.h:130 (sqr3b2) -/
noncomputable def sqr3b2 : ℝ := Real.sqrt (3 / 2)
/-- ECMech_const.h:131 (sqr2i) -/
noncomputable def sqr2i : ℝ := 1 / Real.sqrt 2
/-- ECMech_const.h:132 (sqr3i) -/
noncomputable def sqr3i : ℝ := 1 / Real.sqrt 3
/-- ECMech_const.h:133 (sqr6) -/
noncomputable def sqr6 : ℝ := Real.sqrt 6
/-- ECMech_const.h:134 (sqr6i) -/
noncomputable def sqr6i : ℝ := 1 / Real.sqrt 6
/-- ECMech_const.h:135 (sqr2b3) -/
noncomputable def sqr2b3 : ℝ := Real.sqrt (2 / 3)
/-- ECMech_const.h:136 (halfsqr3) -/
noncomputable def halfsqr3 : ℝ := Real.sqrt 3 / 2
/-- ECMech_const.h:137 (twosqr3) -/
noncomputable def twosqr3 : ℝ := 2 * Real.sqrt 3

/-- ECMech_const.h:18 literal of M_SQRT2 -/
noncomputable def litSqr2 : ℝ := 1.41421356237309504880168872421
/-- ECMech_const.h:22 literal of M_SQRT3 -/
noncomputable def litSqr3 : ℝ := 1.73205080756887729352744634151
/-- ECMech_const.h:26 literal of M_SQRT3B2 -/
noncomputable def litSqr3b2 : ℝ := 1.22474487139158904909864203735
/-- ECMech_const.h:30 literal of M_SQRT2I -/
noncomputable def litSqr2i : ℝ := 0.707106781186547524400844362105
/-- ECMech_const.h:34 literal of M_SQRT3I -/
noncomputable def litSqr3i : ℝ := 0.577350269189625764509148780501
/-- ECMech_const.h:38 literal of M_SQRT6 -/
noncomputable def litSqr6 : ℝ := 2.44948974278317809819728407471
/-- ECMech_const.h:42 literal of M_SQRT6I -/
noncomputable def litSqr6i : ℝ := 0.408248290463863016366214012450
/-- ECMech_const.h:46 literal of M_SQRT2B3 -/
noncomputable def litSqr2b3 : ℝ := 0.816496580927726032732428024904
/-- ECMech_const.h:50 literal of M_HALFSQRT3 -/
noncomputable def litHalfsqr3 : ℝ := 0.866025403784438646763723170755
/-- ECMech_const.h:54 literal of M_TWOSQRT3 -/
noncomputable def litTwosqr3 : ℝ := 3.46410161513775458705489268302

/-- ECMech_const.h:139 idp_tiny_sqrt = 1.0e-90 -/
noncomputable def idpTinySqrt : ℝ := 1 / 10 ^ 90
/-- ECMech_const.h:140 idp_eps_sqrt = 1.0e-8 -/
noncomputable def idpEpsSqrt : ℝ := 1 / 10 ^ 8
/-- ECMech_const.h:142 gam_ratio_min = 1.0e-60 -/
noncomputable def gamRatioMin : ℝ := 1 / 10 ^ 60
/-- ECMech_const.h:143 ln_gam_ratio_min = -138.16 -/
noncomputable def lnGamRatioMin : ℝ := -(13816 / 100)
/-- ECMech_const.h:145 gam_ratio_ovffx = 1.0e45 -/
noncomputable def gamRatioOvffx : ℝ := 10 ^ 45
/-- ECMech_const.h:146 gam_ratio_ovf = 1.0e60 -/
noncomputable def gamRatioOvf : ℝ := 10 ^ 60
/-- ECMech_const.h:151 epsdot_scl_nzeff = idp_eps_sqrt -/
noncomputable def epsdotSclNzeff : ℝ := idpEpsSqrt
/-- ECMech_const.h:152 e_scale = 5e-4 -/
noncomputable def eScale : ℝ := 5 / 10 ^ 4
/-- ECMech_const.h:153 r_scale = 0.01 -/
noncomputable def rScale : ℝ := 1 / 100

/-! Integer constants, ECMech_const.h:78-111. -/

/-- ECMech_const.h:78 -/
def nsvp : ℕ := 7
/-- ECMech_const.h:79 -/
def ndim : ℕ := 3
/-- ECMech_const.h:80 -/
def ne : ℕ := 1
/-- ECMech_const.h:82 -/
def nsvec2 : ℕ := 36
/-- ECMech_const.h:83 -/
def nvr : ℕ := 4
/-- ECMech_const.h:97 -/
def nstride : ℕ := 8
/-- ECMech_const.h:99 -/
def ntvec : ℕ := 5
/-- ECMech_const.h:101 -/
def qdim : ℕ := 4
/-- ECMech_const.h:111 -/
def nsdd : ℕ := 2

end Ecm
