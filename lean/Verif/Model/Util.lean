/-
  Model of src/ecmech/ECMech_util.h (tensor notation, quaternion and rotation helpers).

  Simplifications: `double` is ℝ; arrays are functions on `Fin n`; row-major
  matrices (macros at lines 24-25) are `Matrix`; output pointers are return values.
-/
import Verif.Model.Const
import Mathlib.Data.Matrix.Mul
import Mathlib.Analysis.SpecialFunctions.Trigonometric.Basic

namespace Ecm

open Matrix

/-- `double x[n]` -/
abbrev Vec (n : ℕ) := Fin n → ℝ
/-- row-major `double M[m*n]` (ECMech_util.h:24-25) -/
abbrev Mat (m n : ℕ) := Matrix (Fin m) (Fin n) ℝ

/-- ECMech_util.h:34-40 vecsVapb -/
def vecsVapb {n : ℕ} (a b : Vec n) : Vec n := fun i => a i + b i
/-- ECMech_util.h:44-50 vecsVAdiagB -/
def vecsVAdiagB {n : ℕ} (a b : Vec n) : Vec n := fun i => a i * b i
/-- ECMech_util.h:55-63 vecsyadotb -/
def vecsyadotb {n : ℕ} (a b : Vec n) : ℝ := ∑ i, a i * b i
/-- ECMech_util.h:67-74 vecsssumabs and 88-95 vecsssumabs_n -/
def vecsssumabs {n : ℕ} (a : Vec n) : ℝ := ∑ i, |a i|
/-- ECMech_util.h:78-85 vecsssum -/
def vecsssum {n : ℕ} (a : Vec n) : ℝ := ∑ i, a i
/-- ECMech_util.h:99-107 vecNorm -/
noncomputable def vecNorm {n : ℕ} (v : Vec n) : ℝ := Real.sqrt (∑ i, v i * v i)
/-- ECMech_util.h:111-117 vecsVxa -/
def vecsVxa {n : ℕ} (x : ℝ) (a : Vec n) : Vec n := fun i => x * a i
/-- ECMech_util.h:124-129 vecsVsa (in place: a[i] *= s) -/
def vecsVsa {n : ℕ} (a : Vec n) (s : ℝ) : Vec n := fun i => a i * s
/-- ECMech_util.h:133-136 vecsVNormalize.  The C++ divides by the norm; users of this
    definition must exclude the zero vector (then C++ yields infinities/NaN). -/
noncomputable def vecsVNormalize {n : ℕ} (v : Vec n) : Vec n := vecsVsa v (1 / vecNorm v)
/-- ECMech_util.h:145-154 vecsVMTa: p[i] = sum_j M[j,i] v[j] -/
def vecsVMTa {n : ℕ} (M : Mat n n) (v : Vec n) : Vec n := fun i => ∑ j, M j i * v j
/-- ECMech_util.h:161-170 vecsVaTM -/
def vecsVaTM {n q : ℕ} (a : Vec n) (M : Mat n q) : Vec q := fun iQ => ∑ iN, a iN * M iN iQ
/-- ECMech_util.h:177-186 and 193-202 vecsVMa -/
def vecsVMa {n q : ℕ} (M : Mat n q) (a : Vec q) : Vec n := fun iN => ∑ iQ, M iN iQ * a iQ
/-- ECMech_util.h:209-245 vecsMABT -/
def vecsMABT {n m q : ℕ} (A : Mat n q) (B : Mat m q) : Mat n m :=
  fun iN jM => ∑ iQ, A iN iQ * B jM iQ
/-- ECMech_util.h:252-266 vecsMAB -/
def vecsMAB {n m q : ℕ} (A : Mat n q) (B : Mat q m) : Mat n m :=
  fun iN jM => ∑ iQ, A iN iQ * B iQ jM
/-- ECMech_util.h:273-282 vecsMaTb -/
def vecsMaTb {n : ℕ} (a b : Vec n) : Mat n n := fun iN jN => a iN * b jN
/-- ECMech_util.h:286-294 vecsMsymm -/
noncomputable def vecsMsymm {n : ℕ} (A : Mat n n) : Mat n n :=
  fun iN jN => 0.5 * (A iN jN + A jN iN)
/-- ECMech_util.h:298-306 vecsMskew -/
noncomputable def vecsMskew {n : ℕ} (A : Mat n n) : Mat n n :=
  fun iN jN => 0.5 * (A iN jN - A jN iN)

/-- ECMech_util.h:313-320 skewToVeccp -/
def skewToVeccp (W : Mat 3 3) : Vec 3 := ![W 2 1, W 0 2, W 1 0]
/-- ECMech_util.h:323-331 trace3 -/
def trace3 (A : Mat 3 3) : ℝ := A 0 0 + A 1 1 + A 2 2
/-- ECMech_util.h:335-338 traceToVecdsS -/
noncomputable def traceToVecdsS (dkk : ℝ) : ℝ := sqr3i * dkk
/-- ECMech_util.h:342-346 vecd_Deff -/
noncomputable def vecdDeff (vecd : Vec 5) : ℝ := sqr2b3 * vecNorm vecd
/-- ECMech_util.h:349-361 symmToVecd -/
noncomputable def symmToVecd (A : Mat 3 3) : Vec 5 :=
  ![sqr2i * (A 0 0 - A 1 1),
    sqr6i * (2 * A 2 2 - A 0 0 - A 1 1),
    sqr2 * A 1 0, sqr2 * A 2 0, sqr2 * A 2 1]
/-- ECMech_util.h:369-379 svecToVecd (entry 6 of the input is not accessed) -/
noncomputable def svecToVecd (s : Vec 7) : Vec 5 :=
  ![sqr2i * (s 0 - s 1), sqr3b2 * s 2, sqr2 * s 5, sqr2 * s 4, sqr2 * s 3]
/-- ECMech_util.h:386-393 symmToVecds -/
noncomputable def symmToVecds (A : Mat 3 3) : Vec 6 :=
  ![symmToVecd A 0, symmToVecd A 1, symmToVecd A 2, symmToVecd A 3, symmToVecd A 4,
    traceToVecdsS (trace3 A)]
/-- ECMech_util.h:396-407 vecsInnerSvecDev -/
def vecsInnerSvecDev (s d : Vec 7) : ℝ :=
  s 0 * d 0 + s 1 * d 1 + s 2 * d 2 + 2 * (s 3 * d 3 + s 4 * d 4 + s 5 * d 5)
/-- ECMech_util.h:411-426 vecdsToSvecP -/
noncomputable def vecdsToSvecP (v : Vec 6) : Vec 7 :=
  ![sqr2i * v 0 - sqr6i * v 1, -(sqr2i * v 0) - sqr6i * v 1, sqr2b3 * v 1,
    sqr2i * v 4, sqr2i * v 3, sqr2i * v 2, -sqr3i * v 5]
/-- ECMech_util.h:430-443 svecpToSvec -/
def svecpToSvec (a : Vec 7) : Vec 6 :=
  ![a 0 + -a 6, a 1 + -a 6, a 2 + -a 6, a 3, a 4, a 5]
/-- ECMech_util.h:447-465 matToPQ, first output -/
noncomputable def matToP (T : Mat 3 3) : Vec 5 := symmToVecd (vecsMsymm T)
/-- ECMech_util.h:447-465 matToPQ, second output -/
noncomputable def matToQ (T : Mat 3 3) : Vec 3 := skewToVeccp (vecsMskew T)

/-- ECMech_util.h:468-474 inv_to_quat -/
noncomputable def invToQuat (inv : Vec 4) : Vec 4 :=
  ![Real.cos (inv 0 * 0.5), Real.sin (inv 0 * 0.5) * inv 1, Real.sin (inv 0 * 0.5) * inv 2,
    Real.sin (inv 0 * 0.5) * inv 3]

open Classical in
/-- ECMech_util.h:477-486 emap_to_quat -/
noncomputable def emapToQuat (emap : Vec 3) : Vec 4 :=
  let n := vecNorm emap
  if idpTinySqrt < n then
    invToQuat ![n, 1 / n * emap 0, 1 / n * emap 1, 1 / n * emap 2]
  else
    invToQuat ![n, 1, 0, 0]

/-- ECMech_util.h:492-500 quat_prod -/
def quatProd (a b : Vec 4) : Vec 4 :=
  ![a 0 * b 0 - a 1 * b 1 - a 2 * b 2 - a 3 * b 3,
    a 0 * b 1 + a 1 * b 0 + a 2 * b 3 - a 3 * b 2,
    a 0 * b 2 - a 1 * b 3 + a 2 * b 0 + a 3 * b 1,
    a 0 * b 3 + a 1 * b 2 - a 2 * b 1 + a 3 * b 0]
/-- ECMech_util.h:503-508 get_c_quat: c = c_n * dr -/
def getCQuat (dr cn : Vec 4) : Vec 4 := quatProd cn dr

/-- ECMech_util.h:514-540 quat_to_tensor -/
def quatToTensor (q : Vec 4) : Mat 3 3 :=
  !![q 0 * q 0 + q 1 * q 1 - q 2 * q 2 - q 3 * q 3, 2 * (q 1 * q 2 - q 0 * q 3),
      2 * (q 1 * q 3 + q 0 * q 2);
     2 * (q 1 * q 2 + q 0 * q 3), q 0 * q 0 - q 1 * q 1 + q 2 * q 2 - q 3 * q 3,
      2 * (q 2 * q 3 - q 0 * q 1);
     2 * (q 1 * q 3 - q 0 * q 2), 2 * (q 2 * q 3 + q 0 * q 1),
      q 0 * q 0 - q 1 * q 1 - q 2 * q 2 + q 3 * q 3]

/-- ECMech_util.h:552-595 get_rot_mat_vecd (names c11.. as in mc_vars_set.h) -/
noncomputable def getRotMatVecd (c : Mat 3 3) : Mat 5 5 :=
  let c11 := c 0 0; let c21 := c 1 0; let c31 := c 2 0
  let c12 := c 0 1; let c22 := c 1 1; let c32 := c 2 1
  let c13 := c 0 2; let c23 := c 1 2; let c33 := c 2 2
  !![(1/2) * (c11 * c11 - c12 * c12 - c21 * c21 + c22 * c22),
      sqr3 * (1/2) * (c13 * c13 - c23 * c23),
      c11 * c12 - c21 * c22, c11 * c13 - c21 * c23, c12 * c13 - c22 * c23;
     sqr3 * (1/2) * (c31 * c31 - c32 * c32), (3/2) * c33 * c33 - 1/2,
      sqr3 * c31 * c32, sqr3 * c31 * c33, sqr3 * c32 * c33;
     c11 * c21 - c12 * c22, sqr3 * c13 * c23, c11 * c22 + c12 * c21, c11 * c23 + c13 * c21,
      c12 * c23 + c13 * c22;
     c11 * c31 - c12 * c32, sqr3 * c13 * c33, c11 * c32 + c12 * c31, c11 * c33 + c13 * c31,
      c12 * c33 + c13 * c32;
     c21 * c31 - c22 * c32, sqr3 * c23 * c33, c21 * c32 + c22 * c31, c21 * c33 + c23 * c31,
      c22 * c33 + c23 * c32]

/-- ECMech_util.h:611-635 M35_d_AAoB_dA (names vb1.. as in vb_d_vars_set.h) -/
noncomputable def m35 (b : Vec 5) : Mat 3 5 :=
  let vb1 := b 0; let vb2 := b 1; let vb3 := b 2; let vb4 := b 3; let vb5 := b 4
  !![vb5 * (1/2), vb5 * halfsqr3, -vb4 * (1/2), vb3 * (1/2), -vb1 * (1/2) - halfsqr3 * vb2;
     vb4 * (1/2), -vb4 * halfsqr3, vb5 * (1/2), halfsqr3 * vb2 - vb1 * (1/2), -vb3 * (1/2);
     -vb3, 0, vb1, -vb5 * (1/2), vb4 * (1/2)]

/-- ECMech_util.h:679 theta_sm_a -/
noncomputable def thetaSmA : ℝ := 1 / 10 ^ 9

/-- intermediate values (halfsthh, sthhbyth, na, nb, nc) of dquat_demap_T,
    ECMech_util.h:683-704 -/
structure DqAux where
  halfsthh : ℝ
  sthhbyth : ℝ
  na : ℝ
  nb : ℝ
  nc : ℝ

open Classical in
/-- ECMech_util.h:683-704: branches of dquat_demap_T -/
noncomputable def dqAux (emap : Vec 3) : DqAux :=
  let theta := vecNorm emap
  if |theta| < thetaSmA then
    if |theta| < idpTinySqrt then
      { halfsthh := theta * (1/4), sthhbyth := 1/2 - theta * theta * (1/48),
        na := 1, nb := 0, nc := 0 }
    else
      { halfsthh := theta * (1/4), sthhbyth := 1/2 - theta * theta * (1/48),
        na := emap 0 * (1 / theta), nb := emap 1 * (1 / theta), nc := emap 2 * (1 / theta) }
  else
    { halfsthh := Real.sin (theta * (1/2)) * (1/2), sthhbyth := Real.sin (theta * (1/2)) / theta,
      na := emap 0 * (1 / theta), nb := emap 1 * (1 / theta), nc := emap 2 * (1 / theta) }

/-- ECMech_util.h:675-738 dquat_demap_T: rows are the exponential map parameters,
    columns the quaternion components -/
noncomputable def dquatDemapT (emap : Vec 3) : Mat 3 4 :=
  let a := dqAux emap
  let halfcthh := Real.cos (vecNorm emap * (1/2)) * (1/2)
  let temp := halfcthh - a.sthhbyth
  !![-a.halfsthh * a.na, halfcthh * (a.na * a.na) + a.sthhbyth * (1 - a.na * a.na),
      temp * a.na * a.nb, temp * a.na * a.nc;
     -a.halfsthh * a.nb, temp * a.na * a.nb,
      halfcthh * (a.nb * a.nb) + a.sthhbyth * (1 - a.nb * a.nb), temp * a.nb * a.nc;
     -a.halfsthh * a.nc, temp * a.na * a.nc, temp * a.nb * a.nc,
      halfcthh * (a.nc * a.nc) + a.sthhbyth * (1 - a.nc * a.nc)]

/-- ECMech_util.h:741-805 d_quat_to_tensor: `dcdq(p, q, r)` -/
def dQuatToTensor (quat : Vec 4) (p q : Fin 3) : Vec 4 :=
  let tqa := 2 * quat 0; let tqb := 2 * quat 1; let tqc := 2 * quat 2; let tqd := 2 * quat 3
  (!![![tqa, tqb, -tqc, -tqd], ![-tqd, tqc, tqb, -tqa], ![tqc, tqd, tqa, tqb];
      ![tqd, tqc, tqb, tqa], ![tqa, -tqb, tqc, -tqd], ![-tqb, -tqa, tqd, tqc];
      ![-tqc, tqd, -tqa, tqb], ![tqb, tqa, tqd, tqc], ![tqa, -tqb, -tqc, tqd]] :
    Matrix (Fin 3) (Fin 3) (Fin 4 → ℝ)) p q

/-- ECMech_util.h:816-871 d_rot_mat_vecd_latop: `dvdc(i, p, q)` -/
noncomputable def dRotMatVecdLatop (c : Mat 3 3) (v : Vec 5) (i : Fin 5) : Mat 3 3 :=
  let c11 := c 0 0; let c21 := c 1 0; let c31 := c 2 0
  let c12 := c 0 1; let c22 := c 1 1; let c32 := c 2 1
  let c13 := c 0 2; let c23 := c 1 2; let c33 := c 2 2
  let va1 := v 0; let va2 := v 1; let va3 := v 2; let va4 := v 3; let va5 := v 4
  (![
    !![c11 * va1 - c11 * sqr3 * va2 * (1/3) + c21 * va3 + c31 * va4,
       -c12 * va1 + c12 * sqr3 * va2 * (1/3) - c22 * va3 - c32 * va4,
       0;
       c11 * va3 - c21 * va1 - c21 * sqr3 * va2 * (1/3) + c31 * va5,
       -c12 * va3 + c22 * va1 + c22 * sqr3 * va2 * (1/3) - c32 * va5,
       0;
       c11 * va4 + c21 * va5 + (2/3) * c31 * sqr3 * va2,
       -c12 * va4 - c22 * va5 - (2/3) * c32 * sqr3 * va2,
       0],
    !![-sqr3 * (3 * c11 * va1 - c11 * sqr3 * va2 + 3 * c21 * va3 + 3 * c31 * va4) * (1/9),
       sqr3 * (-3 * c12 * va1 + c12 * sqr3 * va2 - 3 * c22 * va3 - 3 * c32 * va4) * (1/9),
       -(2/3) * sqr3i * (-3 * c13 * va1 + sqr3 * c13 * va2 - 3 * c23 * va3 - 3 * c33 * va4);
       sqr3 * (-3 * c11 * va3 + 3 * c21 * va1 + c21 * sqr3 * va2 - 3 * c31 * va5) * (1/9),
       sqr3 * (-3 * c12 * va3 + 3 * c22 * va1 + c22 * sqr3 * va2 - 3 * c32 * va5) * (1/9),
       -(2/3) * sqr3i * (-3 * va3 * c13 + 3 * va1 * c23 + sqr3 * c23 * va2 - 3 * va5 * c33);
       -sqr3 * c11 * va4 * (1/3) - sqr3 * c21 * va5 * (1/3) - (2/3) * c31 * va2,
       -sqr3 * c12 * va4 * (1/3) - sqr3 * c22 * va5 * (1/3) - (2/3) * c32 * va2,
       (2/3) * sqr3 * c13 * va4 + (2/3) * sqr3 * c23 * va5 + (4/3) * c33 * va2],
    !![c12 * va1 - c12 * sqr3 * va2 * (1/3) + c22 * va3 + c32 * va4,
       c11 * va1 - c11 * sqr3 * va2 * (1/3) + c21 * va3 + c31 * va4,
       0;
       c12 * va3 - c22 * va1 - c22 * sqr3 * va2 * (1/3) + c32 * va5,
       c11 * va3 - c21 * va1 - c21 * sqr3 * va2 * (1/3) + c31 * va5,
       0;
       c12 * va4 + c22 * va5 + (2/3) * c32 * sqr3 * va2,
       c11 * va4 + c21 * va5 + (2/3) * c31 * sqr3 * va2,
       0],
    !![c13 * va1 - c13 * sqr3 * va2 * (1/3) + c23 * va3 + c33 * va4,
       0,
       c11 * va1 - c11 * sqr3 * va2 * (1/3) + c21 * va3 + c31 * va4;
       c13 * va3 - c23 * va1 - c23 * sqr3 * va2 * (1/3) + c33 * va5,
       0,
       c11 * va3 - c21 * va1 - c21 * sqr3 * va2 * (1/3) + c31 * va5;
       c13 * va4 + c23 * va5 + (2/3) * c33 * sqr3 * va2,
       0,
       c11 * va4 + c21 * va5 + (2/3) * c31 * sqr3 * va2],
    !![0,
       c13 * va1 - c13 * sqr3 * va2 * (1/3) + c23 * va3 + c33 * va4,
       c12 * va1 - c12 * sqr3 * va2 * (1/3) + c22 * va3 + c32 * va4;
       0,
       c13 * va3 - c23 * va1 - c23 * sqr3 * va2 * (1/3) + c33 * va5,
       c12 * va3 - c22 * va1 - c22 * sqr3 * va2 * (1/3) + c32 * va5;
       0,
       c13 * va4 + c23 * va5 + (2/3) * c33 * sqr3 * va2,
       c12 * va4 + c22 * va5 + (2/3) * c32 * sqr3 * va2]] : Fin 5 → Mat 3 3) i

/-- ECMech_util.h:884-921 d_rot_mat_wveccp_latop: `dvdc(i, p, q)` -/
def dRotMatWveccpLatop (w : Vec 3) (i : Fin 3) : Mat 3 3 :=
  let vw1 := w 0; let vw2 := w 1; let vw3 := w 2
  (![!![vw1, 0, 0; vw2, 0, 0; vw3, 0, 0],
     !![0, vw1, 0; 0, vw2, 0; 0, vw3, 0],
     !![0, 0, vw1; 0, 0, vw2; 0, 0, vw3]] : Fin 3 → Mat 3 3) i

/-- ECMech_util.h:984-1047 d_rot_mat_vecd_smop: `dvdc(i, p, q)` -/
noncomputable def dRotMatVecdSmop (c : Mat 3 3) (v : Vec 5) (i : Fin 5) : Mat 3 3 :=
  let c11 := c 0 0; let c21 := c 1 0; let c31 := c 2 0
  let c12 := c 0 1; let c22 := c 1 1; let c32 := c 2 1
  let c13 := c 0 2; let c23 := c 1 2; let c33 := c 2 2
  let va1 := v 0; let va2 := v 1; let va3 := v 2; let va4 := v 3; let va5 := v 4
  (![
    !![c11 * va1 - c11 * sqr3 * va2 * (1/3) + c12 * va3 + c13 * va4,
       c11 * va3 - c12 * va1 - c12 * sqr3 * va2 * (1/3) + c13 * va5,
       c11 * va4 + c12 * va5 + (2/3) * c13 * sqr3 * va2;
       -c21 * va1 + c21 * sqr3 * va2 * (1/3) - c22 * va3 - c23 * va4,
       -c21 * va3 + c22 * va1 + c22 * sqr3 * va2 * (1/3) - c23 * va5,
       -c21 * va4 - c22 * va5 - (2/3) * c23 * sqr3 * va2;
       0, 0, 0],
    !![sqr3 * (-3 * c11 * va1 + sqr3 * c11 * va2 - 3 * c12 * va3 - 3 * c13 * va4) * (1/9),
       sqr3 * (-3 * c11 * va3 + 3 * c12 * va1 + c12 * sqr3 * va2 - 3 * c13 * va5) * (1/9),
       -sqr3 * c11 * va4 * (1/3) - sqr3 * c12 * va5 * (1/3) - (2/3) * c13 * va2;
       -sqr3 * (3 * c21 * va1 - c21 * sqr3 * va2 + 3 * c22 * va3 + 3 * c23 * va4) * (1/9),
       sqr3 * (-3 * c21 * va3 + 3 * c22 * va1 + sqr3 * va2 * c22 - 3 * c23 * va5) * (1/9),
       -sqr3 * c21 * va4 * (1/3) - sqr3 * c22 * va5 * (1/3) - (2/3) * c23 * va2;
       -(2/3) * sqr3i * (-3 * c31 * va1 + c31 * sqr3 * va2 - 3 * c32 * va3 - 3 * c33 * va4),
       -(2/3) * sqr3i * (-3 * c31 * va3 + 3 * c32 * va1 + sqr3 * va2 * c32 - 3 * c33 * va5),
       (2/3) * sqr3 * c31 * va4 + (2/3) * sqr3 * c32 * va5 + (4/3) * c33 * va2],
    !![c21 * va1 - c21 * sqr3 * va2 * (1/3) + c22 * va3 + c23 * va4,
       c21 * va3 - c22 * va1 - c22 * sqr3 * va2 * (1/3) + c23 * va5,
       c21 * va4 + c22 * va5 + (2/3) * c23 * sqr3 * va2;
       c11 * va1 - c11 * sqr3 * va2 * (1/3) + c12 * va3 + c13 * va4,
       c11 * va3 - c12 * va1 - c12 * sqr3 * va2 * (1/3) + c13 * va5,
       c11 * va4 + c12 * va5 + (2/3) * c13 * sqr3 * va2;
       0, 0, 0],
    !![c31 * va1 - c31 * sqr3 * va2 * (1/3) + c32 * va3 + c33 * va4,
       c31 * va3 - c32 * va1 - c32 * sqr3 * va2 * (1/3) + c33 * va5,
       c31 * va4 + c32 * va5 + (2/3) * c33 * sqr3 * va2;
       0, 0, 0;
       c11 * va1 - c11 * sqr3 * va2 * (1/3) + c12 * va3 + c13 * va4,
       c11 * va3 - c12 * va1 - c12 * sqr3 * va2 * (1/3) + c13 * va5,
       c11 * va4 + c12 * va5 + (2/3) * c13 * sqr3 * va2],
    !![0, 0, 0;
       c31 * va1 - c31 * sqr3 * va2 * (1/3) + c32 * va3 + c33 * va4,
       c31 * va3 - c32 * va1 - c32 * sqr3 * va2 * (1/3) + c33 * va5,
       c31 * va4 + c32 * va5 + (2/3) * c33 * sqr3 * va2;
       c21 * va1 - c21 * sqr3 * va2 * (1/3) + c22 * va3 + c23 * va4,
       c21 * va3 - c22 * va1 - c22 * sqr3 * va2 * (1/3) + c23 * va5,
       c21 * va4 + c22 * va5 + (2/3) * c23 * sqr3 * va2]] : Fin 5 → Mat 3 3) i

/-- ECMech_util.h:944-955, first output of eval_d_dxi_impl_quat: `dC_quat_dxi_T(w, q)` -/
noncomputable def dCquatDxiT (xi : Vec 3) (cnQuat : Vec 4) : Mat 3 4 :=
  fun w => quatProd cnQuat (dquatDemapT xi w)
/-- ECMech_util.h:958-964: `dC_matx_dxi(p, q, w)` (vecsMABT over the quaternion index) -/
noncomputable def dCmatxDxi (xi : Vec 3) (cnQuat cQuat : Vec 4) (p q w : Fin 3) : ℝ :=
  ∑ r, dQuatToTensor cQuat p q r * dCquatDxiT xi cnQuat w r
/-- ECMech_util.h:966-972, second output of eval_d_dxi_impl_quat: `dDapp_dxi(i, w)`;
    the contraction over the flattened pair (p,q) is written as a double sum -/
noncomputable def dDappDxi (d : Vec 5) (xi : Vec 3) (cnQuat : Vec 4) (cMatx : Mat 3 3)
    (cQuat : Vec 4) : Mat 5 3 :=
  fun i w => ∑ p, ∑ q, dRotMatVecdLatop cMatx d i p q * dCmatxDxi xi cnQuat cQuat p q w
/-- ECMech_util.h:974-980, third output of eval_d_dxi_impl_quat: `dWapp_dxi(i, w)` -/
noncomputable def dWappDxi (wsm : Vec 3) (xi : Vec 3) (cnQuat : Vec 4) (cQuat : Vec 4) :
    Mat 3 3 :=
  fun i w => ∑ p, ∑ q, dRotMatWveccpLatop wsm i p q * dCmatxDxi xi cnQuat cQuat p q w

/-- ECMech_util.h:1054-1081 qr6x6_pre_mul<n, l_T> -/
def qr6x6PreMul {n : ℕ} (lT : Bool) (Min : Mat 6 n) (qr : Mat 5 5) : Mat 6 n :=
  fun iM jM =>
    if h : iM.val < 5 then
      ∑ p : Fin 5, (if lT then qr p ⟨iM.val, h⟩ else qr ⟨iM.val, h⟩ p) * Min (p.castSucc) jM
    else Min 5 jM

/-- ECMech_util.h:1096-1136: the intermediate C = T . mtanSD_vecds -/
noncomputable def mtanConvC (M : Mat 6 6) : Mat 6 6 :=
  fun i j =>
    (![sqr2i * M 0 j - sqr6i * M 1 j + sqr3i * M 5 j,
       -(sqr2i * M 0 j) - sqr6i * M 1 j + sqr3i * M 5 j,
       sqr2b3 * M 1 j + sqr3i * M 5 j,
       sqr2i * M 4 j, sqr2i * M 3 j, sqr2i * M 2 j] : Fin 6 → ℝ) i
/-- ECMech_util.h:1083-1193 mtan_conv_sd_svec<l_ddsdde_gamma> -/
noncomputable def mtanConvSdSvec (gamma : Bool) (M : Mat 6 6) : Mat 6 6 :=
  let C := mtanConvC M
  fun i j =>
    (![C i 0 * sqr2i - C i 1 * sqr6i + C i 5 * sqr3i,
       -(C i 0 * sqr2i) - C i 1 * sqr6i + C i 5 * sqr3i,
       sqr2b3 * C i 1 + C i 5 * sqr3i,
       if gamma then C i 4 * sqr2i else C i 4 * sqr2,
       if gamma then C i 3 * sqr2i else C i 3 * sqr2,
       if gamma then C i 2 * sqr2i else C i 2 * sqr2] : Fin 6 → ℝ) j

/-- ECMech_util.h:1198-1205 vecCrossProd -/
def vecCrossProd (v1 v2 : Vec 3) : Vec 3 :=
  ![v1 1 * v2 2 - v1 2 * v2 1, -v1 0 * v2 2 + v1 2 * v2 0, v1 0 * v2 1 - v1 1 * v2 0]
/-- ECMech_util.h:1213-1222 m_to_o_dir -/
noncomputable def mToODir (m : Vec 4) (cOverA : ℝ) : Vec 3 :=
  ![m 0 - (1/2) * (m 1 + m 2), sqr3 * (1/2) * (m 1 - m 2), m 3 * cOverA]

end Ecm
