/- Helper lemmas on quaternions and rotations. -/
import Verif.Lemmas.Notation
import Mathlib.LinearAlgebra.Matrix.NonsingularInverse

namespace Ecm
open Spec Matrix

/-- the symmetric traceless tensor with the given five components -/
noncomputable def vecdToSymm (v : Vec 5) : T3 :=
  ofSvecP (vecdsToSvecP ![v 0, v 1, v 2, v 3, v 4, 0])

theorem vecdToSymm_isDev (v : Vec 5) : IsDev (vecdToSymm v) := by
  rw [isDev_iff]
  refine ⟨?_, ?_, ?_, ?_⟩ <;> simp [vecdToSymm, ofSvecP, vecdsToSvecP]
  sqr_ring

theorem symmToVecd_vecdToSymm (v : Vec 5) : symmToVecd (vecdToSymm v) = v := by
  ext i
  fin_cases i <;> simp [symmToVecd, vecdToSymm, ofSvecP, vecdsToSvecP] <;> sqr_ring

theorem vecdToSymm_symmToVecd (A : T3) (hA : IsDev A) : vecdToSymm (symmToVecd A) = A := by
  obtain ⟨a1, a2, a3, a4⟩ := (isDev_iff A).1 hA
  ext i j
  fin_cases i <;> fin_cases j <;>
    simp [symmToVecd, vecdToSymm, ofSvecP, vecdsToSvecP, a1, a2, a3, a4] <;> sqr_ring

/-- squared quaternion norm -/
def qn (q : Vec 4) : ℝ := q 0 ^ 2 + q 1 ^ 2 + q 2 ^ 2 + q 3 ^ 2

theorem dot_self_quat (q : Vec 4) : dot q q = qn q := by
  simp [dot, qn, Fin.sum_univ_succ]; ring

theorem quatToTensor_mul_transpose (q : Vec 4) :
    quatToTensor q * (quatToTensor q).transpose = (qn q ^ 2) • (1 : T3) := by
  ext i j
  fin_cases i <;> fin_cases j <;>
    simp [quatToTensor, Matrix.mul_apply, Fin.sum_univ_succ, qn] <;> ring

theorem quatToTensor_transpose_mul (q : Vec 4) :
    (quatToTensor q).transpose * quatToTensor q = (qn q ^ 2) • (1 : T3) := by
  ext i j
  fin_cases i <;> fin_cases j <;>
    simp [quatToTensor, Matrix.mul_apply, Fin.sum_univ_succ, qn] <;> ring

theorem quatToTensor_det (q : Vec 4) : (quatToTensor q).det = qn q ^ 3 := by
  rw [Matrix.det_fin_three]
  simp [quatToTensor, qn]; ring

theorem quatToTensor_prod (a b : Vec 4) :
    quatToTensor (quatProd a b) = quatToTensor a * quatToTensor b := by
  ext i j
  fin_cases i <;> fin_cases j <;>
    simp [quatToTensor, quatProd, Matrix.mul_apply, Fin.sum_univ_succ] <;> ring

theorem qn_prod (a b : Vec 4) : qn (quatProd a b) = qn a * qn b := by
  simp [qn, quatProd]; ring

theorem quatProd_assoc (a b c : Vec 4) :
    quatProd (quatProd a b) c = quatProd a (quatProd b c) := by
  ext i
  fin_cases i <;> simp [quatProd] <;> ring

theorem getRotMatVecd_transpose (R : Mat 3 3) :
    getRotMatVecd R.transpose = (getRotMatVecd R).transpose := by
  ext i j
  fin_cases i <;> fin_cases j <;> simp [getRotMatVecd] <;> ring

/-- entries of an orthogonality relation -/
theorem mul_transpose_entries {R : T3} (h : R * R.transpose = 1) :
    R 0 0 * R 0 0 + R 0 1 * R 0 1 + R 0 2 * R 0 2 = 1 ∧
    R 1 0 * R 1 0 + R 1 1 * R 1 1 + R 1 2 * R 1 2 = 1 ∧
    R 2 0 * R 2 0 + R 2 1 * R 2 1 + R 2 2 * R 2 2 = 1 ∧
    R 1 0 * R 0 0 + R 1 1 * R 0 1 + R 1 2 * R 0 2 = 0 ∧
    R 2 0 * R 0 0 + R 2 1 * R 0 1 + R 2 2 * R 0 2 = 0 ∧
    R 2 0 * R 1 0 + R 2 1 * R 1 1 + R 2 2 * R 1 2 = 0 := by
  have e := fun i j => congrFun (congrFun h i) j
  have e00 := e 0 0; have e11 := e 1 1; have e22 := e 2 2
  have e10 := e 1 0; have e20 := e 2 0; have e21 := e 2 1
  simp [Matrix.mul_apply, Fin.sum_univ_succ] at e00 e11 e22 e10 e20 e21
  refine ⟨?_, ?_, ?_, ?_, ?_, ?_⟩ <;> linarith

theorem trace_conj {R A : T3} (h : R.transpose * R = 1) : (R * A * R.transpose).trace = A.trace := by
  rw [Matrix.trace_mul_comm, ← Matrix.mul_assoc, h, Matrix.one_mul]

theorem isDev_conj {R A : T3} (h : R.transpose * R = 1) (hA : IsDev A) :
    IsDev (R * A * R.transpose) := by
  refine ⟨?_, by rw [trace_conj h]; exact hA.2⟩
  unfold Matrix.IsSymm
  rw [Matrix.transpose_mul, Matrix.transpose_mul, Matrix.transpose_transpose, hA.1.eq,
    Matrix.mul_assoc]

theorem getRotMatVecd_mulVec {R A : T3} (h1 : R * R.transpose = 1) (h2 : R.transpose * R = 1)
    (hA : IsDev A) :
    (getRotMatVecd R).mulVec (symmToVecd A) = symmToVecd (R * A * R.transpose) := by
  obtain ⟨r00, r11, r22, r10, r20, r21⟩ := mul_transpose_entries h1
  obtain ⟨a1, a2, a3, a4⟩ := (isDev_iff A).1 hA
  have ht := (isDev_conj h2 hA).2
  rw [Matrix.trace_fin_three] at ht
  simp only [Matrix.mul_apply, Fin.sum_univ_three, Matrix.transpose_apply, a1, a2, a3, a4] at ht
  ext i
  fin_cases i <;>
    simp [getRotMatVecd, symmToVecd, Matrix.mulVec, dotProduct, Fin.sum_univ_succ,
      Matrix.mul_apply, a1, a2, a3, a4]
  · sqr_unfold
    linear_combination (exp := 1) (-(Real.sqrt 2 / 4) * (A 0 0 + A 1 1)) * (r00 - r11) -
      (Real.sqrt 2 / 4 * (R 0 2 ^ 2 - R 1 2 ^ 2) * (A 0 0 + A 1 1)) * s3_sq
  · sqr_unfold
    linear_combination (exp := 1) (Real.sqrt 2 * Real.sqrt 3 / 6) * ht -
      (Real.sqrt 2 * Real.sqrt 3 / 4 * (A 0 0 + A 1 1)) * r22
  · sqr_unfold
    linear_combination (exp := 1) (-(Real.sqrt 2 / 2) * (A 0 0 + A 1 1)) * r10 -
      (Real.sqrt 2 / 2 * (R 0 2 * R 1 2) * (A 0 0 + A 1 1)) * s3_sq
  · sqr_unfold
    linear_combination (exp := 1) (-(Real.sqrt 2 / 2) * (A 0 0 + A 1 1)) * r20 -
      (Real.sqrt 2 / 2 * (R 0 2 * R 2 2) * (A 0 0 + A 1 1)) * s3_sq
  · sqr_unfold
    linear_combination (exp := 1) (-(Real.sqrt 2 / 2) * (A 0 0 + A 1 1)) * r21 -
      (Real.sqrt 2 / 2 * (R 1 2 * R 2 2) * (A 0 0 + A 1 1)) * s3_sq

theorem getRotMatVecd_mulVec' {R : T3} (h1 : R * R.transpose = 1) (h2 : R.transpose * R = 1)
    (v : Vec 5) :
    (getRotMatVecd R).mulVec v = symmToVecd (R * vecdToSymm v * R.transpose) := by
  rw [← getRotMatVecd_mulVec h1 h2 (vecdToSymm_isDev v), symmToVecd_vecdToSymm]

theorem mat_ext_mulVec {m n : ℕ} {A B : Mat m n} (h : ∀ v, A.mulVec v = B.mulVec v) : A = B := by
  ext i j
  have := congrFun (h (Pi.single j 1)) i
  simpa using this

theorem getRotMatVecd_mul {R S : T3} (h1 : R * R.transpose = 1) (h2 : R.transpose * R = 1)
    (k1 : S * S.transpose = 1) (k2 : S.transpose * S = 1) :
    getRotMatVecd (R * S) = getRotMatVecd R * getRotMatVecd S := by
  apply mat_ext_mulVec
  intro v
  have e1 : (R * S) * (R * S).transpose = 1 := by
    rw [Matrix.transpose_mul, Matrix.mul_assoc, ← Matrix.mul_assoc S, k1, Matrix.one_mul, h1]
  have e2 : (R * S).transpose * (R * S) = 1 := by
    rw [Matrix.transpose_mul, Matrix.mul_assoc, ← Matrix.mul_assoc R.transpose, h2,
      Matrix.one_mul, k2]
  rw [getRotMatVecd_mulVec' e1 e2, ← Matrix.mulVec_mulVec, getRotMatVecd_mulVec' k1 k2,
    getRotMatVecd_mulVec h1 h2 (isDev_conj k2 (vecdToSymm_isDev v))]
  congr 1
  rw [Matrix.transpose_mul]
  simp only [Matrix.mul_assoc]

theorem getRotMatVecd_one : getRotMatVecd 1 = 1 := by
  ext i j
  fin_cases i <;> fin_cases j <;> simp [getRotMatVecd] <;> norm_num

theorem getRotMatVecd_orth {R : T3} (h1 : R * R.transpose = 1) (h2 : R.transpose * R = 1) :
    getRotMatVecd R * (getRotMatVecd R).transpose = 1 ∧
    (getRotMatVecd R).transpose * getRotMatVecd R = 1 := by
  have t1 : R.transpose * R.transpose.transpose = 1 := by rw [Matrix.transpose_transpose, h2]
  have t2 : R.transpose.transpose * R.transpose = 1 := by rw [Matrix.transpose_transpose, h1]
  rw [← getRotMatVecd_transpose, ← getRotMatVecd_mul h1 h2 t1 t2,
    ← getRotMatVecd_mul t1 t2 h1 h2, h1, h2, getRotMatVecd_one]
  exact ⟨rfl, rfl⟩

theorem isRot_of_unit {q : Vec 4} (h : qn q = 1) : IsRot (quatToTensor q) := by
  refine ⟨?_, ?_, ?_⟩
  · rw [quatToTensor_mul_transpose, h]; simp
  · rw [quatToTensor_transpose_mul, h]; simp
  · rw [quatToTensor_det, h]; simp

theorem quatToTensor_neg (q : Vec 4) : quatToTensor (-q) = quatToTensor q := by
  ext i j
  fin_cases i <;> fin_cases j <;> simp [quatToTensor]

theorem qn_invToQuat (t a b c : ℝ) (h : a ^ 2 + b ^ 2 + c ^ 2 = 1) :
    qn (invToQuat ![t, a, b, c]) = 1 := by
  have := Real.sin_sq_add_cos_sq (t * 0.5)
  simp [qn, invToQuat]
  linear_combination this + (Real.sin (t * 0.5)) ^ 2 * h

theorem vecNorm3_sq (e : Vec 3) : vecNorm e ^ 2 = e 0 ^ 2 + e 1 ^ 2 + e 2 ^ 2 := by
  unfold vecNorm
  rw [Real.sq_sqrt (Finset.sum_nonneg fun i _ => mul_self_nonneg _)]
  simp [Fin.sum_univ_succ]; ring

theorem vecNorm_nonneg {n : ℕ} (e : Vec n) : 0 ≤ vecNorm e := Real.sqrt_nonneg _

theorem idpTinySqrt_pos : 0 < idpTinySqrt := by unfold idpTinySqrt; positivity

theorem qn_emapToQuat (e : Vec 3) : qn (emapToQuat e) = 1 := by
  simp only [emapToQuat]
  split_ifs with h
  · have hp : 0 < vecNorm e := lt_trans idpTinySqrt_pos h
    have hs := vecNorm3_sq e
    apply qn_invToQuat
    field_simp
    linarith
  · exact qn_invToQuat _ _ _ _ (by norm_num)

theorem quat_rodrigues (t : ℝ) (n : Vec 3) (hn : n 0 ^ 2 + n 1 ^ 2 + n 2 ^ 2 = 1) :
    quatToTensor (invToQuat ![t, n 0, n 1, n 2]) = rodrigues t n := by
  have hc : Real.cos t = 2 * Real.cos (t * 0.5) ^ 2 - 1 := by
    rw [← Real.cos_two_mul]; congr 1; ring
  have hsn : Real.sin t = 2 * Real.sin (t * 0.5) * Real.cos (t * 0.5) := by
    rw [← Real.sin_two_mul]; congr 1; ring
  have hcs := Real.sin_sq_add_cos_sq (t * 0.5)
  simp only [rodrigues, hc, hsn]
  ext i j
  fin_cases i <;> fin_cases j <;> simp [quatToTensor, invToQuat, crossMat, dyad] <;>
    generalize Real.sin (t * 0.5) = S at * <;> generalize Real.cos (t * 0.5) = C at *
  · linear_combination (exp := 1) (2 * n 0 ^ 2 - 1) * hcs - S ^ 2 * hn
  · linear_combination (exp := 1) (2 * n 0 * n 1) * hcs
  · linear_combination (exp := 1) (2 * n 0 * n 2) * hcs
  · linear_combination (exp := 1) (2 * n 0 * n 1) * hcs
  · linear_combination (exp := 1) (2 * n 1 ^ 2 - 1) * hcs - S ^ 2 * hn
  · linear_combination (exp := 1) (2 * n 1 * n 2) * hcs
  · linear_combination (exp := 1) (2 * n 0 * n 2) * hcs
  · linear_combination (exp := 1) (2 * n 1 * n 2) * hcs
  · linear_combination (exp := 1) (2 * n 2 ^ 2 - 1) * hcs - S ^ 2 * hn

theorem rodrigues_mulVec (t : ℝ) (n : Vec 3) (hn : n 0 ^ 2 + n 1 ^ 2 + n 2 ^ 2 = 1) :
    (rodrigues t n).mulVec n = n := by
  ext i
  fin_cases i <;>
    simp [rodrigues, crossMat, dyad, Matrix.mulVec, dotProduct, Fin.sum_univ_three]
  · linear_combination (exp := 1) (n 0 * (1 - Real.cos t)) * hn
  · linear_combination (exp := 1) (n 1 * (1 - Real.cos t)) * hn
  · linear_combination (exp := 1) (n 2 * (1 - Real.cos t)) * hn

end Ecm
