/- Property theorems C03, C04, C05, C06, C08: quaternions, rotations, the 5x5 rotation matrix
   and the commutator matrix (src/ecmech/ECMech_util.h:468-635). -/
import Verif.Lemmas.Rotation
import Mathlib.Analysis.SpecialFunctions.Trigonometric.Bounds
import Mathlib.Analysis.Real.Pi.Bounds

namespace Ecm.Props
open Ecm Spec Matrix

/-- C03 -/
theorem C03_unit_quaternion_is_rotation (q : Vec 4) (hq : dot q q = 1) :
    IsRot (quatToTensor q) ∧ quatToTensor (-q) = quatToTensor q :=
  ⟨isRot_of_unit (by rw [← dot_self_quat, hq]), quatToTensor_neg q⟩

example : dot (![1 / 2, 1 / 2, 1 / 2, 1 / 2] : Vec 4) ![1 / 2, 1 / 2, 1 / 2, 1 / 2] = 1 := by
  simp [dot, Fin.sum_univ_succ]; norm_num

/-- C04 `getCQuat dr cn` is the composed orientation. -/
theorem C04_composition (dr cn : Vec 4) :
    quatToTensor (getCQuat dr cn) = quatToTensor cn * quatToTensor dr ∧
    dot (getCQuat dr cn) (getCQuat dr cn) = dot cn cn * dot dr dr ∧
    (dot cn cn = 1 → dot dr dr = 1 → dot (getCQuat dr cn) (getCQuat dr cn) = 1) := by
  have h : dot (getCQuat dr cn) (getCQuat dr cn) = dot cn cn * dot dr dr := by
    simp only [dot_self_quat, getCQuat, qn_prod]
  refine ⟨quatToTensor_prod cn dr, h, ?_⟩
  intro h1 h2
  rw [h, h1, h2, one_mul]

/-- C04 composition is associative. -/
theorem C04_composition_assoc (a b c : Vec 4) :
    getCQuat a (getCQuat b c) = getCQuat (getCQuat a b) c := by
  simp only [getCQuat, quatProd_assoc]

/-- C05 every rotation vector gives a unit quaternion, with no exception for zero or tiny
    vectors. -/
theorem C05_unit (e : Vec 3) : dot (emapToQuat e) (emapToQuat e) = 1 := by
  rw [dot_self_quat, qn_emapToQuat]

/-- C05 above the cut-off 1e-90 the tensor is the rotation about `e / |e|` by the angle `|e|`,
    and it fixes `e`. -/
theorem C05_rodrigues (e : Vec 3) (he : 1 / 10 ^ 90 < len e) :
    quatToTensor (emapToQuat e) = rodrigues (len e) ((1 / len e) • e) ∧
    (quatToTensor (emapToQuat e)).mulVec e = e := by
  have hl : len e = vecNorm e := rfl
  have hp : 0 < vecNorm e := lt_trans (by positivity) (hl ▸ he)
  have hs := vecNorm3_sq e
  rw [hl] at he ⊢
  have hif : idpTinySqrt < vecNorm e := he
  have hq : emapToQuat e = invToQuat ![vecNorm e, 1 / vecNorm e * e 0, 1 / vecNorm e * e 1,
      1 / vecNorm e * e 2] := by simp only [emapToQuat, if_pos hif]
  set t := vecNorm e with ht
  have hn : ((1 / t) • e) 0 ^ 2 + ((1 / t) • e) 1 ^ 2 + ((1 / t) • e) 2 ^ 2 = 1 := by
    simp only [Pi.smul_apply, smul_eq_mul]
    field_simp; linarith
  have hR : quatToTensor (emapToQuat e) = rodrigues t ((1 / t) • e) := by
    rw [hq, ← quat_rodrigues t _ hn]; rfl
  refine ⟨hR, ?_⟩
  have h := rodrigues_mulVec t _ hn
  rw [Matrix.mulVec_smul] at h
  have h' := congrArg (fun v => t • v) h
  simp only [smul_smul] at h'
  have : t * (1 / t) = 1 := by field_simp
  rw [this, one_smul, one_smul] at h'
  rw [hR, h']

example : (1 : ℝ) / 10 ^ 90 < len (![3, 0, 4] : Vec 3) := by
  have : len (![3, 0, 4] : Vec 3) = 5 := by
    have h : dot (![3, 0, 4] : Vec 3) ![3, 0, 4] = 5 ^ 2 := by
      simp [dot, Fin.sum_univ_succ]; norm_num
    unfold len; rw [h, Real.sqrt_sq (by norm_num)]
  rw [this]; norm_num

/-- C05 at or below the cut-off the code rotates about the first axis by the angle `|e|`; this is
    the identity for `e = 0`, and otherwise the quaternion is within 1e-90 (componentwise) of the
    exact one `(cos (|e|/2), sin (|e|/2) e/|e|)`. -/
theorem C05_tiny (e : Vec 3) (he : len e ≤ 1 / 10 ^ 90) :
    quatToTensor (emapToQuat e) = rodrigues (len e) ![1, 0, 0] ∧
    (e = 0 → quatToTensor (emapToQuat e) = 1) ∧
    (e ≠ 0 → emapToQuat e 0 = Real.cos (len e / 2) ∧
      ∀ i : Fin 3, |emapToQuat e i.succ - Real.sin (len e / 2) * (e i / len e)| ≤ 1 / 10 ^ 90) := by
  have hl : len e = vecNorm e := rfl
  rw [hl] at he ⊢
  have hif : ¬ idpTinySqrt < vecNorm e := not_lt.2 he
  have hq : emapToQuat e = invToQuat ![vecNorm e, 1, 0, 0] := by
    simp only [emapToQuat, if_neg hif]
  have hs := vecNorm3_sq e
  have h0 := vecNorm_nonneg e
  set t := vecNorm e with ht
  have hR : quatToTensor (emapToQuat e) = rodrigues t ![1, 0, 0] := by
    rw [hq]
    exact quat_rodrigues t ![1, 0, 0] (by simp)
  refine ⟨hR, ?_, ?_⟩
  · intro e0
    have t0 : t = 0 := by
      have : t ^ 2 = 0 := by rw [hs, e0]; simp
      exact pow_eq_zero_iff (two_ne_zero) |>.1 this
    rw [hR, t0]
    ext i j
    fin_cases i <;> fin_cases j <;> simp [rodrigues, crossMat]
  · intro e0
    have tpos : 0 < t := by
      rcases h0.lt_or_eq with h | h
      · exact h
      · exfalso; apply e0
        rw [← h] at hs
        have a0 : e 0 = 0 := by nlinarith [sq_nonneg (e 0), sq_nonneg (e 1), sq_nonneg (e 2)]
        have a1 : e 1 = 0 := by nlinarith [sq_nonneg (e 0), sq_nonneg (e 1), sq_nonneg (e 2)]
        have a2 : e 2 = 0 := by nlinarith [sq_nonneg (e 0), sq_nonneg (e 1), sq_nonneg (e 2)]
        ext i; fin_cases i <;> assumption
    have hsin0 : 0 ≤ Real.sin (t / 2) := by
      apply Real.sin_nonneg_of_nonneg_of_le_pi (by linarith)
      have := Real.pi_gt_three
      have : (1 : ℝ) / 10 ^ 90 ≤ 1 := by norm_num
      linarith
    have hsin1 : Real.sin (t / 2) ≤ t / 2 := Real.sin_le (by linarith)
    have hb : ∀ i : Fin 3, |e i / t| ≤ 1 := by
      intro i
      rw [abs_div, abs_of_pos tpos, div_le_one tpos]
      apply abs_le_of_sq_le_sq _ h0
      rw [hs]
      fin_cases i <;> simp <;> nlinarith [sq_nonneg (e 0), sq_nonneg (e 1), sq_nonneg (e 2)]
    have h5 : t * 0.5 = t / 2 := by ring
    refine ⟨by rw [hq]; simp [invToQuat, h5], ?_⟩
    intro i
    have key : ∀ d : ℝ, |d| ≤ 2 → |Real.sin (t / 2) * d| ≤ 1 / 10 ^ 90 := by
      intro d hd
      rw [abs_mul, abs_of_nonneg hsin0]
      nlinarith [abs_nonneg d]
    have hbi := hb i
    have e1 : emapToQuat e i.succ - Real.sin (t / 2) * (e i / t)
        = Real.sin (t / 2) * ((![1, 0, 0] : Fin 3 → ℝ) i - e i / t) := by
      rw [hq]; fin_cases i <;> simp [invToQuat, h5] <;> ring
    rw [e1]
    apply key
    rw [abs_le] at hbi ⊢
    fin_cases i <;> simp at hbi ⊢ <;> constructor <;> linarith

example : len (![0, 0, 0] : Vec 3) ≤ 1 / 10 ^ 90 := by
  have h : dot (![0, 0, 0] : Vec 3) ![0, 0, 0] = 0 := by simp [dot, Fin.sum_univ_succ]
  unfold len; rw [h]; simp

example : ∃ e : Vec 3, e ≠ 0 ∧ len e ≤ 1 / 10 ^ 90 := by
  refine ⟨![0, 1 / 10 ^ 91, 0], ?_, ?_⟩
  · intro h; have := congrFun h 1; simp at this
  · have h : dot (![0, 1 / 10 ^ 91, 0] : Vec 3) ![0, 1 / 10 ^ 91, 0] = (1 / 10 ^ 91) ^ 2 := by
      simp [dot, Fin.sum_univ_succ]; norm_num
    unfold len; rw [h, Real.sqrt_sq (by positivity)]; norm_num

/-- C06 the 5x5 matrix rotates deviators. -/
theorem C06_rotates (R A : T3) (hR : R * R.transpose = 1) (hA : IsDev A) :
    (getRotMatVecd R).mulVec (symmToVecd A) = symmToVecd (R * A * R.transpose) ∧
    vecsVMTa (getRotMatVecd R) (symmToVecd A) = symmToVecd (R.transpose * A * R) := by
  have hR' : R.transpose * R = 1 := mul_eq_one_comm.1 hR
  refine ⟨getRotMatVecd_mulVec hR hR' hA, ?_⟩
  have h := getRotMatVecd_mulVec (R := R.transpose) (by rw [Matrix.transpose_transpose, hR'])
    (by rw [Matrix.transpose_transpose, hR]) hA
  rw [getRotMatVecd_transpose, Matrix.transpose_transpose] at h
  exact h

/-- C06 the 5x5 matrix is orthogonal. -/
theorem C06_orthogonal (R : T3) (hR : R * R.transpose = 1) :
    getRotMatVecd R * (getRotMatVecd R).transpose = 1 ∧
    (getRotMatVecd R).transpose * getRotMatVecd R = 1 :=
  getRotMatVecd_orth hR (mul_eq_one_comm.1 hR)

example : ∃ R A : T3, R * R.transpose = 1 ∧ R ≠ 1 ∧ IsDev A ∧ A ≠ 0 := by
  refine ⟨!![0, -1, 0; 1, 0, 0; 0, 0, 1], !![1, 2, 3; 2, 5, 6; 3, 6, -6], ?_, ?_, ?_, ?_⟩
  · ext i j
    fin_cases i <;> fin_cases j <;> simp [Matrix.mul_apply, Fin.sum_univ_succ]
  · intro h; have := congrFun (congrFun h 0) 0; simp at this
  · rw [isDev_iff]; simp; norm_num
  · intro h; have := congrFun (congrFun h 0) 0; simp at this

/-- C08 the matrix built from `B`, applied to `A`, is the axial vector of `A B - B A`. -/
theorem C08_commutator (A B : T3) (hA : A.IsSymm) (hB : B.IsSymm) :
    (m35 (symmToVecd B)).mulVec (symmToVecd A) = axial (A * B - B * A) ∧
    IsSkew (A * B - B * A) := by
  have a1 : A 1 0 = A 0 1 := hA.apply 0 1
  have a2 : A 2 0 = A 0 2 := hA.apply 0 2
  have a3 : A 2 1 = A 1 2 := hA.apply 1 2
  have b1 : B 1 0 = B 0 1 := hB.apply 0 1
  have b2 : B 2 0 = B 0 2 := hB.apply 0 2
  have b3 : B 2 1 = B 1 2 := hB.apply 1 2
  constructor
  · ext i
    fin_cases i <;>
      simp [m35, symmToVecd, axial, Matrix.mulVec, dotProduct, Fin.sum_univ_succ,
        Matrix.mul_apply, a1, a2, a3, b1, b2, b3] <;> sqr_ring
  · unfold IsSkew
    rw [Matrix.transpose_sub, Matrix.transpose_mul, Matrix.transpose_mul, hA.eq, hB.eq, neg_sub]

/-- C08 consequences, for arbitrary five-component vectors. -/
theorem C08_antisymmetric (a b : Vec 5) (k : ℝ) :
    (m35 b).mulVec a = -(m35 a).mulVec b ∧ (m35 a).mulVec (k • a) = 0 := by
  constructor <;> ext i <;> fin_cases i <;>
    simp [m35, Matrix.mulVec, dotProduct, Fin.sum_univ_succ] <;> ring

example : ∃ A B : T3, A.IsSymm ∧ B.IsSymm ∧ A * B - B * A ≠ 0 := by
  refine ⟨!![1, 0, 0; 0, 2, 0; 0, 0, 3], !![0, 1, 0; 1, 0, 0; 0, 0, 0], ?_, ?_, ?_⟩
  · ext i j; fin_cases i <;> fin_cases j <;> rfl
  · ext i j; fin_cases i <;> fin_cases j <;> rfl
  · intro h
    have := congrFun (congrFun h 0) 1
    simp at this
    norm_num at this

end Ecm.Props
