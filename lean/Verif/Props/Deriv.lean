/- Property theorems C09, C10: derivatives of the orientation parametrisation and of rotated
   vectors (src/ecmech/ECMech_util.h:675-1047). -/
import Verif.Lemmas.Emap

namespace Ecm.Props
open Ecm Spec Matrix

/-- C09 `dquat_demap_T` (rows are the rotation-vector components) is the derivative of
    `emap_to_quat` for rotation vectors of length at least 1e-9. -/
theorem C09_quaternion_derivative (e : Vec 3) (he : 1 / 10 ^ 9 ≤ len e) :
    HasJacobian emapToQuat (dquatDemapT e).transpose e := by
  apply hasJacobian_of_FD
  intro i
  exact (VFD.emapToQuat (fun k => FD.coord k e) he i).congr fun v => rfl

/-- C09 at zero it is the derivative of the exponential map. -/
theorem C09_quaternion_derivative_zero : HasJacobian expQuat (dquatDemapT 0).transpose 0 := by
  apply hasJacobian_of_FD
  intro i
  exact (VFD.expQuat_zero i).congr fun v => rfl

/-- C09 in the series branch the exponential map is differentiable and every entry of the reported
    derivative is within 1e-28 of the exact one. -/
theorem C09_quaternion_derivative_series (e : Vec 3) (h0 : 0 < len e) (h1 : len e < 1 / 10 ^ 9) :
    ∃ J : Mat 4 3, HasJacobian expQuat J e ∧
      ∀ i w, |(dquatDemapT e).transpose i w - J i w| ≤ 1 / 10 ^ 28 := by
  refine ⟨(dExp e).transpose, ?_, fun i w => dquatDemapT_series h0 h1 w i⟩
  apply hasJacobian_of_FD
  intro i
  exact (VFD.expQuat (fun k => FD.coord k e) h0 i).congr fun v => rfl

/-- C09 the code's map is the exponential map outside 0 < |e| ≤ 1e-90. -/
theorem C09_map_is_exponential (e : Vec 3) (he : 1 / 10 ^ 90 < len e ∨ e = 0) :
    emapToQuat e = expQuat e := emapToQuat_eq_expQuat he

/-- C09 `d_quat_to_tensor` is the derivative of `quat_to_tensor`, for every quaternion. -/
theorem C09_tensor_derivative (q : Vec 4) (a b : Fin 3) :
    HasFDerivAt (fun p : Vec 4 => quatToTensor p a b) (lin (dQuatToTensor q a b)) q :=
  (MFD.quatToTensor (fun k => FD.coord k q) a b).lin

theorem len_345 : len (![0, 3, 4] : Vec 3) = 5 := by
  have h : dot (![0, 3, 4] : Vec 3) ![0, 3, 4] = 5 ^ 2 := by
    simp [dot, Fin.sum_univ_succ]; norm_num
  unfold len; rw [h, Real.sqrt_sq (by norm_num)]

example : (1 : ℝ) / 10 ^ 9 ≤ len (![0, 3, 4] : Vec 3) := by rw [len_345]; norm_num

example : ∃ e : Vec 3, 0 < len e ∧ len e < 1 / 10 ^ 9 := by
  refine ⟨![0, 1 / 10 ^ 10, 0], ?_⟩
  have h : dot (![0, 1 / 10 ^ 10, 0] : Vec 3) ![0, 1 / 10 ^ 10, 0] = (1 / 10 ^ 10) ^ 2 := by
    simp [dot, Fin.sum_univ_succ]; norm_num
  unfold len; rw [h, Real.sqrt_sq (by positivity)]
  constructor <;> norm_num

/-- C10 `d_rot_mat_vecd_latop` is the derivative, with respect to the nine entries of C, of the
    five components of Cᵀ A C, for any symmetric traceless A and any 3x3 array C. -/
theorem C10_lattice_rate (A : T3) (hA : IsDev A) (C : Fin 3 → Fin 3 → ℝ) (i : Fin 5) :
    HasFDerivAt (fun X : Fin 3 → Fin 3 → ℝ => symmToVecd ((of X).transpose * A * of X) i)
      (lin33 (dRotMatVecdLatop (of C) (symmToVecd A) i)) C := by
  have hC : MFD (fun X : Fin 3 → Fin 3 → ℝ => of X) C (fun h => of h) := fun a b => FD.coord33 a b C
  refine FD.lin33 (((VFD.symmToVecd (MFD.conjT hC (MFD.const A))) i).congr fun h => ?_)
  rw [show (∑ p, ∑ q, dRotMatVecdLatop (of C) (symmToVecd A) i p q * h p q) = _ from
    latop_eq (of C) (of h) (symmToVecd A) i, vecdToSymm_symmToVecd A hA]
  simp

/-- C10 `d_rot_mat_vecd_smop` is the derivative of the five components of C A Cᵀ. -/
theorem C10_sample_stress (A : T3) (hA : IsDev A) (C : Fin 3 → Fin 3 → ℝ) (i : Fin 5) :
    HasFDerivAt (fun X : Fin 3 → Fin 3 → ℝ => symmToVecd (of X * A * (of X).transpose) i)
      (lin33 (dRotMatVecdSmop (of C) (symmToVecd A) i)) C := by
  have hC : MFD (fun X : Fin 3 → Fin 3 → ℝ => of X) C (fun h => of h) := fun a b => FD.coord33 a b C
  refine FD.lin33 (((VFD.symmToVecd (MFD.conj hC (MFD.const A))) i).congr fun h => ?_)
  rw [show (∑ p, ∑ q, dRotMatVecdSmop (of C) (symmToVecd A) i p q * h p q) = _ from
    smop_eq (of C) (of h) (symmToVecd A) i, vecdToSymm_symmToVecd A hA]
  simp

/-- C10 `d_rot_mat_wveccp_latop` is the derivative of Cᵀ w. -/
theorem C10_lattice_spin (w : Vec 3) (C : Fin 3 → Fin 3 → ℝ) (i : Fin 3) :
    HasFDerivAt (fun X : Fin 3 → Fin 3 → ℝ => (of X).transpose.mulVec w i)
      (lin33 (dRotMatWveccpLatop w i)) C := by
  have hC : MFD (fun X : Fin 3 → Fin 3 → ℝ => of X) C (fun h => of h) := fun a b => FD.coord33 a b C
  refine FD.lin33 (((VFD.mulVec hC.transpose (VFD.const w)) i).congr fun h => ?_)
  rw [show (∑ p, ∑ q, dRotMatWveccpLatop w i p q * h p q) = _ from wveccp_eq (of h) w i]
  simp

/-- C10 composed with the quaternion derivatives: `eval_d_dxi_impl_quat` returns the derivatives,
    with respect to the rotation increment ξ, of the deformation rate (given by its five
    components) and of the spin expressed in the lattice frame C(ξ) = C_n exp(ξ). -/
theorem C10_increment (d : Vec 5) (w : Vec 3) (cn : Vec 4) (hcn : dot cn cn = 1) (xi : Vec 3)
    (hxi : 1 / 10 ^ 9 ≤ len xi) :
    HasJacobian
      (fun y => vecsVMTa (getRotMatVecd (quatToTensor (getCQuat (emapToQuat y) cn))) d)
      (dDappDxi d xi cn (quatToTensor (getCQuat (emapToQuat xi) cn)) (getCQuat (emapToQuat xi) cn))
      xi ∧
    HasJacobian
      (fun y => vecsVMTa (quatToTensor (getCQuat (emapToQuat y) cn)) w)
      (dWappDxi w xi cn (getCQuat (emapToQuat xi) cn)) xi := by
  rw [dot_self_quat] at hcn
  obtain ⟨h1, h2⟩ := rotIncr_FD d w hcn (fun k => FD.coord k xi) hxi
  exact ⟨hasJacobian_of_FD fun i => h1 i, hasJacobian_of_FD fun i => h2 i⟩

example : dot (![3 / 5, 0, 4 / 5, 0] : Vec 4) ![3 / 5, 0, 4 / 5, 0] = 1 ∧
    (1 : ℝ) / 10 ^ 9 ≤ len (![0, 3, 4] : Vec 3) := by
  constructor
  · simp [dot, Fin.sum_univ_succ]; norm_num
  · rw [len_345]; norm_num

example : ∃ A : T3, IsDev A ∧ A ≠ 0 := by
  refine ⟨!![1, 2, 3; 2, 5, 6; 3, 6, -6], ?_, ?_⟩
  · rw [isDev_iff]; simp; norm_num
  · intro h; have := congrFun (congrFun h 0) 0; simp at this

end Ecm.Props
