/- The rotation of the stress into the sample frame and of the deformation rate into the lattice frame, in
   floating-point arithmetic (src/ecmech/ECMech_const.h:16-55, 128-137, src/ecmech/ECMech_util.h:145-155,
   193-203, 411-426, 514-595, src/ecmech/ECMech_evptn.h:585-597, 1202-1213).

   Same arithmetic and simplifications as Verif/Model/Rounding.lean.  The changes of sign are exact.  The
   multiplications by 2 and 1/2 are rounded like the others, although they are exact in binary arithmetic. -/
import Verif.Model.Rounding

namespace Ecm.Flt
variable (F : Flt)

/-- ECMech_util.h:514-540 quat_to_tensor -/
noncomputable def quatToTensor (q : Vec 4) : Mat 3 3 :=
  let x0sq := F.fl (q 0 * q 0); let x1sq := F.fl (q 1 * q 1)
  let x2sq := F.fl (q 2 * q 2); let x3sq := F.fl (q 3 * q 3)
  let x0x1 := F.fl (q 0 * q 1); let x0x2 := F.fl (q 0 * q 2); let x0x3 := F.fl (q 0 * q 3)
  let x1x2 := F.fl (q 1 * q 2); let x1x3 := F.fl (q 1 * q 3); let x2x3 := F.fl (q 2 * q 3)
  !![F.fl (F.fl (F.fl (x0sq + x1sq) - x2sq) - x3sq), F.fl (2 * F.fl (x1x2 - x0x3)),
      F.fl (2 * F.fl (x1x3 + x0x2));
     F.fl (2 * F.fl (x1x2 + x0x3)), F.fl (F.fl (F.fl (x0sq - x1sq) + x2sq) - x3sq),
      F.fl (2 * F.fl (x2x3 - x0x1));
     F.fl (2 * F.fl (x1x3 - x0x2)), F.fl (2 * F.fl (x2x3 + x0x1)),
      F.fl (F.fl (F.fl (x0sq - x1sq) - x2sq) + x3sq)]

/-- ECMech_const.h:21-23, 129 (sqr3): the literal is rounded -/
noncomputable def sqr3 : ℝ := F.fl litSqr3
/-- ECMech_const.h:29-31, 131 (sqr2i) -/
noncomputable def sqr2i : ℝ := F.fl litSqr2i
/-- ECMech_const.h:33-35, 132 (sqr3i) -/
noncomputable def sqr3i : ℝ := F.fl litSqr3i
/-- ECMech_const.h:41-43, 134 (sqr6i) -/
noncomputable def sqr6i : ℝ := F.fl litSqr6i
/-- ECMech_const.h:45-47, 135 (sqr2b3) -/
noncomputable def sqr2b3 : ℝ := F.fl litSqr2b3

/-- a rounded product of two numbers, plus or minus another one: the form of most entries below -/
noncomputable def mm (a b c d : ℝ) : ℝ := F.fl (F.fl (a * b) - F.fl (c * d))
/-- the same with a sum -/
noncomputable def mp (a b c d : ℝ) : ℝ := F.fl (F.fl (a * b) + F.fl (c * d))

/-- ECMech_util.h:552-595 get_rot_mat_vecd -/
noncomputable def getRotMatVecd (c : Mat 3 3) : Mat 5 5 :=
  let c11 := c 0 0; let c21 := c 1 0; let c31 := c 2 0
  let c12 := c 0 1; let c22 := c 1 1; let c32 := c 2 1
  let c13 := c 0 2; let c23 := c 1 2; let c33 := c 2 2
  let h := F.fl (F.sqr3 * (1/2))
  !![F.fl ((1/2) * F.fl (F.fl (F.mm c11 c11 c12 c12 - F.fl (c21 * c21)) + F.fl (c22 * c22))),
      F.fl (h * F.mm c13 c13 c23 c23),
      F.mm c11 c12 c21 c22, F.mm c11 c13 c21 c23, F.mm c12 c13 c22 c23;
     F.fl (h * F.mm c31 c31 c32 c32), F.fl (F.fl (F.fl ((3/2) * c33) * c33) - 1/2),
      F.fl (F.fl (F.sqr3 * c31) * c32), F.fl (F.fl (F.sqr3 * c31) * c33),
      F.fl (F.fl (F.sqr3 * c32) * c33);
     F.mm c11 c21 c12 c22, F.fl (F.fl (F.sqr3 * c13) * c23), F.mp c11 c22 c12 c21,
      F.mp c11 c23 c13 c21, F.mp c12 c23 c13 c22;
     F.mm c11 c31 c12 c32, F.fl (F.fl (F.sqr3 * c13) * c33), F.mp c11 c32 c12 c31,
      F.mp c11 c33 c13 c31, F.mp c12 c33 c13 c32;
     F.mm c21 c31 c22 c32, F.fl (F.fl (F.sqr3 * c23) * c33), F.mp c21 c32 c22 c31,
      F.mp c21 c33 c23 c31, F.mp c22 c33 c23 c32]

/-- ECMech_util.h:150-153, 198-201: the accumulation of one entry of a product, starting from zero -/
def dot : {n : ℕ} → Vec n → Vec n → ℝ
  | 0, _, _ => 0
  | _ + 1, a, b => F.fl (dot (fun i => a i.castSucc) (fun i => b i.castSucc)
      + F.fl (a (Fin.last _) * b (Fin.last _)))

/-- ECMech_util.h:193-203 vecsVMa, 177-187 for a matrix that is not square -/
def mulVec {m n : ℕ} (M : Mat m n) (a : Vec n) : Vec m := fun i => F.dot (M i) a

/-- ECMech_util.h:145-155 vecsVMTa -/
def mulVecT {n : ℕ} (M : Mat n n) (a : Vec n) : Vec n := fun i => F.dot (fun j => M j i) a

/-- ECMech_util.h:411-426 vecdsToSvecP -/
noncomputable def vecdsToSvecP (v : Vec 6) : Vec 7 :=
  let t1 := F.fl (F.sqr2i * v 0)
  let t2 := F.fl (F.sqr6i * v 1)
  ![F.fl (t1 - t2), F.fl (-t1 - t2), F.fl (F.sqr2b3 * v 1), F.fl (F.sqr2i * v 4), F.fl (F.sqr2i * v 3),
    F.fl (F.sqr2i * v 2), F.fl (-F.sqr3i * v 5)]

/-- ECMech_evptn.h:1202-1213: the stress handed back, from the quaternion and the stress in the lattice -/
noncomputable def stressOut (q : Vec 4) (s : Vec 6) : Vec 7 :=
  let r := F.mulVec (F.getRotMatVecd (F.quatToTensor q)) ![s 0, s 1, s 2, s 3, s 4]
  F.vecdsToSvecP ![r 0, r 1, r 2, r 3, r 4, s 5]

/-- ECMech_evptn.h:587-597: the deformation rate in the lattice frame -/
noncomputable def rateLat (q : Vec 4) (d : Vec 5) : Vec 5 :=
  F.mulVecT (F.getRotMatVecd (F.quatToTensor q)) d

end Ecm.Flt
