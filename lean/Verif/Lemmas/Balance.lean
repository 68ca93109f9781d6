/- Lemmas on the balance equations. -/
import Verif.Lemmas.Problem
import Verif.Props.SlipGeom
import Verif.Props.Rotation
import Mathlib.LinearAlgebra.Matrix.Adjugate

namespace Ecm
open Spec Props

theorem len_eq_vecNorm {n : ℕ} (v : Vec n) : len v = vecNorm v := rfl

theorem vecsVMa_eq {m n : ℕ} (M : Mat m n) (v : Vec n) : vecsVMa M v = M.mulVec v := rfl

theorem symmToVecd_smul (k : ℝ) (A : T3) : symmToVecd (k • A) = k • symmToVecd A := by
  ext i
  fin_cases i <;> simp [symmToVecd] <;> ring

theorem symmToVecd_dev (A : T3) : symmToVecd (dev A) = symmToVecd A := by
  ext i
  fin_cases i <;> simp [symmToVecd, dev]
  left; ring

theorem symmToVecd_inj {A B : T3} (hA : IsDev A) (hB : IsDev B) (h : symmToVecd A = symmToVecd B) :
    A = B := by
  rw [← vecdToSymm_symmToVecd A hA, h, vecdToSymm_symmToVecd B hB]

theorem isDev_add {A B : T3} (hA : IsDev A) (hB : IsDev B) : IsDev (A + B) :=
  ⟨hA.1.add hB.1, by rw [Matrix.trace_add, hA.2, hB.2, add_zero]⟩

theorem isDev_sub {A B : T3} (hA : IsDev A) (hB : IsDev B) : IsDev (A - B) :=
  ⟨hA.1.sub hB.1, by rw [Matrix.trace_sub, hA.2, hB.2, sub_zero]⟩

theorem isDev_smul (k : ℝ) {A : T3} (hA : IsDev A) : IsDev (k • A) :=
  ⟨hA.1.smul k, by rw [Matrix.trace_smul, hA.2, smul_zero]⟩

theorem isDev_dev_sym (A : T3) : IsDev (dev (sym A)) := by
  rw [isDev_iff]
  simp [dev, sym, Matrix.trace, Fin.sum_univ_three]
  refine ⟨by ring, by ring, by ring, by ring⟩

theorem isDev_conjT {R A : T3} (h : R * R.transpose = 1) (hA : IsDev A) :
    IsDev (R.transpose * A * R) := by
  have := isDev_conj (R := R.transpose) (A := A) (by rwa [Matrix.transpose_transpose]) hA
  rwa [Matrix.transpose_transpose] at this

/-- a rotation equals its cofactor matrix -/
theorem IsRot.adjugate {R : T3} (h : IsRot R) : R.adjugate = R.transpose := by
  have e := Matrix.adjugate_mul R
  rw [h.2.2, one_smul] at e
  calc R.adjugate = R.adjugate * (R * R.transpose) := by rw [h.1, mul_one]
    _ = (R.adjugate * R) * R.transpose := by rw [mul_assoc]
    _ = R.transpose := by rw [e, one_mul]

/-- axial vectors rotate like vectors -/
theorem axial_conj {R : T3} (h : IsRot R) (A : T3) :
    axial (R * A * R.transpose) = R.mulVec (axial A) := by
  have e : ∀ i j, R.adjugate i j = R j i := fun i j => by rw [IsRot.adjugate h]; rfl
  rw [Matrix.adjugate_fin_three] at e
  have e00 := e 0 0; have e01 := e 0 1; have e02 := e 0 2
  have e10 := e 1 0; have e11 := e 1 1; have e12 := e 1 2
  have e20 := e 2 0; have e21 := e 2 1; have e22 := e 2 2
  simp at e00 e01 e02 e10 e11 e12 e20 e21 e22
  ext i
  fin_cases i <;>
    simp [axial, Matrix.mul_apply, Matrix.mulVec, dotProduct, Fin.sum_univ_three]
  · linear_combination (A 2 1 - A 1 2) / 2 * e00 + (A 0 2 - A 2 0) / 2 * e10
      + (A 1 0 - A 0 1) / 2 * e20
  · linear_combination (A 2 1 - A 1 2) / 2 * e01 + (A 0 2 - A 2 0) / 2 * e11
      + (A 1 0 - A 0 1) / 2 * e21
  · linear_combination (A 2 1 - A 1 2) / 2 * e02 + (A 0 2 - A 2 0) / 2 * e12
      + (A 1 0 - A 0 1) / 2 * e22

theorem axial_smul (k : ℝ) (A : T3) : axial (k • A) = k • axial A := by
  ext i
  fin_cases i <;> simp [axial] <;> ring

/-- rotated deviatoric components, as tensors -/
theorem vecsVMTa_rot {q : Vec 4} (hq : qn q = 1) {A : T3} (hA : IsDev A) :
    vecsVMTa (getRotMatVecd (quatToTensor q)) (symmToVecd A)
      = symmToVecd ((quatToTensor q).transpose * A * quatToTensor q) := by
  rw [vecsVMTa_getRotMatVecd hq, vecdToSymm_symmToVecd A hA]

theorem vecsVMa_rot {q : Vec 4} (hq : qn q = 1) {A : T3} (hA : IsDev A) :
    vecsVMa (getRotMatVecd (quatToTensor q)) (symmToVecd A)
      = symmToVecd (quatToTensor q * A * (quatToTensor q).transpose) := by
  obtain ⟨r1, r2, -⟩ := isRot_of_unit hq
  exact getRotMatVecd_mulVec r1 r2 hA

theorem block8_eq_zero {a : Vec 5} {b : Vec 3} : block8 a b = 0 ↔ a = 0 ∧ b = 0 := by
  constructor
  · intro h
    exact ⟨funext fun i => by have := congrFun h (iE i); simpa using this,
      funext fun i => by have := congrFun h (iR i); simpa using this⟩
  · rintro ⟨rfl, rfl⟩
    funext k
    revert k
    exact forall_fin8 (fun i => by simp) fun i => by simp

namespace Updst
variable {n : ℕ} (P : Updst n)

theorem qn_cQuat (hcn : qn P.cN = 1) (x : Vec 8) : qn (P.cQuat x) = 1 := qn_getCQuat hcn (xiF x)

theorem aV_pos (h : 0 < P.detV) : 0 < P.aV := Real.rpow_pos_of_pos h _

theorem aV_cube (h : 0 < P.detV) : P.aV ^ 3 = P.detV := by
  unfold aV
  rw [← Real.rpow_natCast, ← Real.rpow_mul h.le]
  norm_num

theorem epsdotScaleInv_pos (hdt : 0 < P.dt) (ha : 0 < P.adotsRef) : 0 < P.epsdotScaleInv := by
  unfold epsdotScaleInv
  simp only
  split_ifs with h1 h2
  · positivity
  · positivity
  · have : 0 < vecNorm P.dSm := lt_of_le_of_ne (vecNorm_nonneg _) (Ne.symm h2)
    exact lt_min (by positivity) (by positivity)

theorem rotincrScaleInv_pos (hdt : 0 < P.dt) (ha : 0 < P.adotsRef) : 0 < P.rotincrScaleInv := by
  unfold rotincrScaleInv dtRi
  have := P.epsdotScaleInv_pos hdt ha
  positivity

theorem resid_eq_zero (hdt : 0 < P.dt) (ha : 0 < P.adotsRef) (x : Vec 8) :
    P.resid x = 0 ↔ P.residE x = 0 ∧ P.residR x = 0 := by
  have h1 := (P.epsdotScaleInv_pos hdt ha).ne'
  have h2 := (P.rotincrScaleInv_pos hdt ha).ne'
  unfold resid
  rw [block8_eq_zero]
  constructor
  · rintro ⟨a, b⟩
    exact ⟨funext fun i => by have := congrFun a i; simpa [h1] using this,
      funext fun i => by have := congrFun b i; simpa [h2] using this⟩
  · rintro ⟨a, b⟩
    exact ⟨funext fun i => by simp [a], funext fun i => by simp [b]⟩

theorem edot_eq (x : Vec 8) : P.edot x = (1 / P.dt) • (P.eF x - P.eN) := by
  ext i
  simp [edot, eF, vecsVsa, vecsVxa, vecsVapb, dtRi]; ring

/-- the unscaled balance of strain rates as components of a tensor -/
theorem residE_eq {m s : Fin n → Vec 3} (hgeom : P.geom = slipPQ m s) (hcn : qn P.cN = 1)
    {D E E0 : T3} (hD : IsDev D) (x : Vec 8)
    (dD : symmToVecd D = P.dSm) (dE : symmToVecd E = P.eF x) (dE0 : symmToVecd E0 = P.eN) :
    P.residE x = symmToVecd ((1 / P.aV) • ((1 / P.dt) • (E - E0))
      + dev (sym (slipGrad (P.gdot x) s m)) + (-1 : ℝ) • ((P.cMatx x).transpose * D * P.cMatx x)) := by
  have hu := P.qn_cQuat hcn x
  have e1 : vecsVMTa (P.qr5x5 x) P.dSm
      = symmToVecd ((P.cMatx x).transpose * D * P.cMatx x) := by
    rw [← dD]; exact vecsVMTa_rot hu hD
  have e2 : vecsVMa P.geom.P (P.gdot x) = symmToVecd (dev (sym (slipGrad (P.gdot x) s m))) := by
    rw [hgeom, C18_plastic_rate, symmToVecd_dev]; rfl
  have e3 : P.edot x = symmToVecd ((1 / P.dt) • (E - E0)) := by
    rw [symmToVecd_smul, P.edot_eq, ← dE, ← dE0]
    congr 1
    ext i
    fin_cases i <;> simp [symmToVecd] <;> ring
  rw [symmToVecd_add, symmToVecd_add, symmToVecd_smul, symmToVecd_smul (-1), ← e3, ← e2, ← e1]
  ext i
  simp [residE, aVri]; ring

/-- the unscaled balance of strain rates, with tensors -/
theorem residE_iff {m s : Fin n → Vec 3} (hgeom : P.geom = slipPQ m s) (hcn : qn P.cN = 1)
    {D E E0 : T3} (hD : IsDev D) (hE : IsDev E) (hE0 : IsDev E0) (x : Vec 8)
    (dD : symmToVecd D = P.dSm) (dE : symmToVecd E = P.eF x) (dE0 : symmToVecd E0 = P.eN) :
    P.residE x = 0 ↔ (1 / P.aV) • ((1 / P.dt) • (E - E0)) + dev (sym (slipGrad (P.gdot x) s m))
      = (P.cMatx x).transpose * D * P.cMatx x := by
  have hr := isRot_of_unit (P.qn_cQuat hcn x)
  have e4 := P.residE_eq hgeom hcn hD x dD dE dE0
  have hL : IsDev ((1 / P.aV) • ((1 / P.dt) • (E - E0)) + dev (sym (slipGrad (P.gdot x) s m))) :=
    isDev_add (isDev_smul _ (isDev_smul _ (isDev_sub hE hE0))) (isDev_dev_sym _)
  have hRt : IsDev ((P.cMatx x).transpose * D * P.cMatx x) := isDev_conjT hr.1 hD
  constructor
  · intro h
    rw [e4] at h
    have h0 : symmToVecd (0 : T3) = 0 := by ext i; fin_cases i <;> simp [symmToVecd]
    have := symmToVecd_inj (isDev_add hL (isDev_smul (-1) hRt))
      ⟨Matrix.isSymm_zero, Matrix.trace_zero _ _⟩ (h.trans h0.symm)
    rw [neg_one_smul] at this
    exact eq_of_sub_eq_zero (by rw [sub_eq_add_neg]; exact this)
  · intro h
    rw [e4, h, neg_one_smul, add_neg_cancel]
    ext i; fin_cases i <;> simp [symmToVecd]

/-- the unscaled balance of spins as a vector -/
theorem residR_eq {m s : Fin n → Vec 3} (hgeom : P.geom = slipPQ m s)
    {E E0 : T3} (hE : IsDev E) (hE0 : IsDev E0) (x : Vec 8)
    (dE : symmToVecd E = P.eF x) (dE0 : symmToVecd E0 = P.eN) :
    P.residR x = xiF x - P.dt • ((P.cMatx x).transpose.mulVec P.wSm
      - axial (slipGrad (P.gdot x) s m)
      + (1 / (2 * P.aV ^ 2)) • axial (((1 / P.dt) • (E - E0)) * E - E * ((1 / P.dt) • (E - E0)))) := by
  have e2 : vecsVMa P.geom.Q (P.gdot x) = axial (slipGrad (P.gdot x) s m) := by
    rw [hgeom, C18_plastic_spin]; rfl
  have e3 : P.edot x = symmToVecd ((1 / P.dt) • (E - E0)) := by
    rw [symmToVecd_smul, P.edot_eq, ← dE, ← dE0]
    congr 1
    ext i
    fin_cases i <;> simp [symmToVecd] <;> ring
  have e4 : vecsVMa (m35 (P.eF x)) (P.edot x)
      = axial (((1 / P.dt) • (E - E0)) * E - E * ((1 / P.dt) • (E - E0))) := by
    rw [e3, ← dE]
    exact (C08_commutator _ _ (isDev_smul _ (isDev_sub hE hE0)).1 hE.1).1
  ext i
  have ee : P.eeFac = 1 / (2 * P.aV ^ 2) := by
    unfold eeFac aVri
    rw [one_div_mul_one_div, one_div_mul_one_div]
    congr 1; ring
  simp only [residR, e2, e4, ee, vecsVMTa_eq]
  rfl

/-- the unscaled balance of spins, with tensors -/
theorem residR_iff {m s : Fin n → Vec 3} (hgeom : P.geom = slipPQ m s)
    {E E0 : T3} (hE : IsDev E) (hE0 : IsDev E0) (x : Vec 8)
    (dE : symmToVecd E = P.eF x) (dE0 : symmToVecd E0 = P.eN) :
    P.residR x = 0 ↔ xiF x = P.dt • ((P.cMatx x).transpose.mulVec P.wSm
      - axial (slipGrad (P.gdot x) s m)
      + (1 / (2 * P.aV ^ 2)) • axial (((1 / P.dt) • (E - E0)) * E - E * ((1 / P.dt) • (E - E0)))) := by
  rw [P.residR_eq hgeom hE hE0 x dE dE0, sub_eq_zero]

end Updst
end Ecm

namespace Ecm
open Spec Props

theorem crossMat_axial {W : T3} (h : IsSkew W) : crossMat (axial W) = W := by
  have e : ∀ i j, W j i = -W i j := fun i j => congrFun (congrFun h i) j
  have d : ∀ i, W i i = 0 := fun i => by have := e i i; linarith
  have e1 := e 0 1; have e2 := e 0 2; have e3 := e 1 2
  ext i j
  fin_cases i <;> fin_cases j <;> simp [crossMat, axial, d, e1, e2, e3] <;> ring

theorem axial_crossMat (n : Vec 3) : axial (crossMat n) = n := by
  ext i
  fin_cases i <;> simp [axial, crossMat]

theorem crossMat_skew (n : Vec 3) : IsSkew (crossMat n) := by
  ext i j
  fin_cases i <;> fin_cases j <;> simp [crossMat]

theorem crossMat_conj {R : T3} (h : IsRot R) (n : Vec 3) :
    R * crossMat n * R.transpose = crossMat (R.mulVec n) := by
  have hs : IsSkew (R * crossMat n * R.transpose) := by
    have := crossMat_skew n
    unfold IsSkew at *
    rw [Matrix.transpose_mul, Matrix.transpose_mul, Matrix.transpose_transpose, this]
    simp [Matrix.mul_assoc]
  rw [← crossMat_axial hs, axial_conj h, axial_crossMat]

theorem dyad_conj (R : T3) (a b : Vec 3) :
    R * dyad a b * R.transpose = dyad (R.mulVec a) (R.mulVec b) := by
  ext i j
  simp [dyad, Matrix.mul_apply, Matrix.mulVec, dotProduct, Fin.sum_univ_three]; ring

theorem rodrigues_conj {R : T3} (h : IsRot R) (t : ℝ) (n : Vec 3) :
    R * rodrigues t n * R.transpose = rodrigues t (R.mulVec n) := by
  unfold rodrigues
  rw [Matrix.mul_add, Matrix.mul_add, Matrix.add_mul, Matrix.add_mul, Matrix.mul_smul,
    Matrix.mul_smul, Matrix.mul_smul, Matrix.smul_mul, Matrix.smul_mul, Matrix.smul_mul,
    Matrix.mul_one, h.1, crossMat_conj h, dyad_conj]

theorem dot_mulVec_rot {R : T3} (h : R.transpose * R = 1) (v : Vec 3) :
    dot (R.mulVec v) (R.mulVec v) = dot v v := by
  have e : ∀ i j, (R.transpose * R) i j = (1 : T3) i j := fun i j => by rw [h]
  have e00 := e 0 0; have e01 := e 0 1; have e02 := e 0 2
  have e11 := e 1 1; have e12 := e 1 2; have e22 := e 2 2
  simp [Matrix.mul_apply, Fin.sum_univ_three] at e00 e01 e02 e11 e12 e22
  simp only [dot, Matrix.mulVec, dotProduct, Fin.sum_univ_three]
  linear_combination v 0 ^ 2 * e00 + v 1 ^ 2 * e11 + v 2 ^ 2 * e22 + 2 * v 0 * v 1 * e01
    + 2 * v 0 * v 2 * e02 + 2 * v 1 * v 2 * e12

theorem len_mulVec_rot {R : T3} (h : R.transpose * R = 1) (v : Vec 3) :
    len (R.mulVec v) = len v := by unfold len; rw [dot_mulVec_rot h]

theorem len_smul {n : ℕ} (k : ℝ) (hk : 0 ≤ k) (v : Vec n) : len (k • v) = k * len v := by
  have : dot (k • v) (k • v) = k ^ 2 * dot v v := by
    simp only [dot, Finset.mul_sum]
    exact Finset.sum_congr rfl fun i _ => by simp; ring
  unfold len
  rw [this, Real.sqrt_mul (sq_nonneg k), Real.sqrt_sq hk]

theorem emapToQuat_zero : emapToQuat 0 = ![1, 0, 0, 0] := by
  rw [emapToQuat_eq_expQuat (Or.inr rfl)]
  simp [expQuat]

theorem getCQuat_one (cn : Vec 4) : getCQuat ![1, 0, 0, 0] cn = cn := by
  ext i
  fin_cases i <;> simp [getCQuat, quatProd]

theorem emap_mulVec_self {e : Vec 3} (h : 1 / 10 ^ 90 < len e ∨ e = 0) :
    (quatToTensor (emapToQuat e)).mulVec e = e := by
  rcases h with h | rfl
  · exact (C05_rodrigues e h).2
  · simp

namespace Updst
variable {n : ℕ} (P : Updst n)

theorem cMatx_eq (x : Vec 8) : P.cMatx x = quatToTensor P.cN * quatToTensor (emapToQuat (xiF x)) := by
  unfold cMatx cQuat getCQuat
  rw [quatToTensor_prod]

theorem xiF_zero : xiF (0 : Vec 8) = 0 := by
  funext i; simp [xiF, vecsVxa]

theorem eF_zero : P.eF 0 = P.eN := by
  funext i; simp [eF, vecsVxa, vecsVapb]

theorem edot_zero : P.edot 0 = 0 := by
  funext i; simp [edot, vecsVxa, vecsVsa]

theorem cQuat_zero : P.cQuat 0 = P.cN := by
  unfold cQuat
  rw [xiF_zero, emapToQuat_zero, getCQuat_one]

end Updst
end Ecm
