/- Helper lemmas for C79: how much rotated rates change when the rotation increment changes. -/
import Verif.Lemmas.Solvable
import Verif.Lemmas.Stability
import Verif.Props.Unique
import Mathlib.Analysis.Matrix.Normed

namespace Ecm
open Spec Ecm.Props

theorem cos_mix {α β c : ℝ} (h1 : -1 ≤ c) (h2 : c ≤ 1) :
    2 - 2 * (Real.cos α * Real.cos β + Real.sin α * Real.sin β * c) ≤ α ^ 2 + β ^ 2 - 2 * (α * β * c) := by
  have e1 := Real.one_sub_sq_div_two_le_cos (x := α - β)
  have e2 := Real.one_sub_sq_div_two_le_cos (x := α + β)
  rw [Real.cos_sub] at e1
  rw [Real.cos_add] at e2
  have a1 := mul_le_mul_of_nonneg_left e1 (show 0 ≤ 1 + c by linarith)
  have a2 := mul_le_mul_of_nonneg_left e2 (show 0 ≤ 1 - c by linarith)
  nlinarith

/-- the exponential map halves distances -/
theorem expQuat_lip (ξ η : Vec 3) : qn (expQuat ξ - expQuat η) ≤ 1 / 4 * ∑ i, (ξ i - η i) ^ 2 := by
  have hform : ∀ e : Vec 3, expQuat e = ![Real.cos (len e / 2), Real.sin (len e / 2) * (e 0 / len e),
      Real.sin (len e / 2) * (e 1 / len e), Real.sin (len e / 2) * (e 2 / len e)] := by
    intro e
    by_cases h : e = 0
    · subst h
      have : len (0 : Vec 3) = 0 := by simp [len, dot]
      simp [expQuat, this]
    · rw [expQuat, if_neg h]
  have hl : ∀ e : Vec 3, len e ^ 2 = e 0 ^ 2 + e 1 ^ 2 + e 2 ^ 2 := by
    intro e
    rw [len, Real.sq_sqrt (by unfold dot; exact Finset.sum_nonneg fun i _ => mul_self_nonneg _)]
    simp only [dot, Fin.sum_univ_three]; ring
  have hl0 : ∀ e : Vec 3, 0 ≤ len e := fun e => Real.sqrt_nonneg _
  have hq1 := qn_expQuat ξ
  have hq2 := qn_expQuat η
  set a := len ξ with ha
  set b := len η with hb
  set t := ξ 0 * η 0 + ξ 1 * η 1 + ξ 2 * η 2 with ht
  have hcs : t ^ 2 ≤ (a * b) ^ 2 := by
    rw [mul_pow, hl, hl, ht]
    nlinarith [sq_nonneg (ξ 0 * η 1 - ξ 1 * η 0), sq_nonneg (ξ 0 * η 2 - ξ 2 * η 0),
      sq_nonneg (ξ 1 * η 2 - ξ 2 * η 1)]
  have hab : 0 ≤ a * b := mul_nonneg (hl0 ξ) (hl0 η)
  have htab := abs_le.1 (abs_le_of_sq_le_sq hcs hab)
  set c := t / (a * b) with hc
  have hct : a * b * c = t := by
    rcases hab.eq_or_lt with h | h
    · have : t = 0 := by
        rw [← h] at hcs
        exact pow_eq_zero_iff two_ne_zero |>.1 (le_antisymm (by simpa using hcs) (sq_nonneg _))
      rw [← h, this, zero_mul]
    · rw [hc, mul_div_cancel₀ _ h.ne']
  have hc1 : -1 ≤ c ∧ c ≤ 1 := by
    rcases hab.eq_or_lt with h | h
    · rw [hc, ← h, div_zero]; norm_num
    · rw [hc]
      exact ⟨by rw [le_div_iff₀ h]; linarith, by rw [div_le_one h]; linarith⟩
  have hdot : expQuat ξ 0 * expQuat η 0 + expQuat ξ 1 * expQuat η 1 + expQuat ξ 2 * expQuat η 2
      + expQuat ξ 3 * expQuat η 3
      = Real.cos (a / 2) * Real.cos (b / 2) + Real.sin (a / 2) * Real.sin (b / 2) * c := by
    rw [hform ξ, hform η]
    simp only [Matrix.cons_val]
    rw [hc, ht, ← ha, ← hb]
    generalize Real.sin (a / 2) = sa
    generalize Real.sin (b / 2) = sb
    simp only [div_eq_mul_inv, mul_inv]
    ring
  have hm := cos_mix (α := a / 2) (β := b / 2) hc1.1 hc1.2
  rw [← hdot] at hm
  have e1 : qn (expQuat ξ - expQuat η) = 2 - 2 * (expQuat ξ 0 * expQuat η 0 + expQuat ξ 1 * expQuat η 1
      + expQuat ξ 2 * expQuat η 2 + expQuat ξ 3 * expQuat η 3) := by
    unfold qn at *
    simp only [Pi.sub_apply]
    linarith
  rw [e1]
  refine hm.trans (le_of_eq ?_)
  have e2 : a / 2 * (b / 2) * c = t / 4 := by rw [← hct]; ring
  rw [e2, Fin.sum_univ_three, ht]
  have := hl ξ; have := hl η
  rw [← ha, ← hb] at *
  nlinarith

theorem qn_eq_vecNorm (q : Vec 4) : qn q = vecNorm q ^ 2 := by
  rw [vecNorm_sq]; simp [qn, Fin.sum_univ_four]

theorem vecNorm_sub_le {n : ℕ} (a b c : Vec n) : vecNorm (a - c) ≤ vecNorm (a - b) + vecNorm (b - c) := by
  have : a - c = (a - b) + (b - c) := by abel
  rw [this]; exact vecNorm_add_le _ _

theorem expQuat_lip' (ξ η : Vec 3) : vecNorm (expQuat ξ - expQuat η) ≤ 1 / 2 * vecNorm (ξ - η) := by
  have h := expQuat_lip ξ η
  rw [qn_eq_vecNorm] at h
  have e : ∑ i, (ξ i - η i) ^ 2 = vecNorm (ξ - η) ^ 2 := by rw [vecNorm_sq]; rfl
  rw [e] at h
  refine abs_le_of_sq_le_sq' ?_ (by have := vecNorm_nonneg (ξ - η); linarith) |>.2
  nlinarith

theorem emap_dist (ξ : Vec 3) : vecNorm (emapToQuat ξ - expQuat ξ) ≤ 2 / 10 ^ 90 := by
  refine abs_le_of_sq_le_sq' ?_ (by positivity) |>.2
  rw [vecNorm_sq]
  have h : ∀ i, (emapToQuat ξ - expQuat ξ) i ^ 2 ≤ (1 / 10 ^ 90) ^ 2 := fun i =>
    sq_le_sq' (by have := (abs_le.1 (emap_close ξ i)).1; simpa using this)
      (by have := (abs_le.1 (emap_close ξ i)).2; simpa using this)
  rw [Fin.sum_univ_four]
  have := h 0; have := h 1; have := h 2; have := h 3
  nlinarith

/-- the code's map from rotation increments to quaternions -/
theorem emap_lip (ξ η : Vec 3) :
    vecNorm (emapToQuat ξ - emapToQuat η) ≤ 1 / 2 * vecNorm (ξ - η) + 4 / 10 ^ 90 := by
  have h1 := emap_dist ξ
  have h2 := emap_dist η
  have h3 := expQuat_lip' ξ η
  have h4 : vecNorm (expQuat η - emapToQuat η) ≤ 2 / 10 ^ 90 := by
    have e : expQuat η - emapToQuat η = (-1 : ℝ) • (emapToQuat η - expQuat η) := by module
    rw [e, vecNorm_smul]; simpa using h2
  have h5 := vecNorm_sub_le (emapToQuat ξ) (expQuat ξ) (emapToQuat η)
  have h6 := vecNorm_sub_le (expQuat ξ) (expQuat η) (emapToQuat η)
  have e : (4 : ℝ) / 10 ^ 90 = 2 / 10 ^ 90 + 2 / 10 ^ 90 := by ring
  rw [e]
  linarith

theorem quatProd_sub (c p q : Vec 4) : quatProd c p - quatProd c q = quatProd c (p - q) := by
  funext i
  fin_cases i <;> simp [quatProd] <;> ring

theorem vecNorm_prod_unit {c : Vec 4} (hc : qn c = 1) (p : Vec 4) : vecNorm (quatProd c p) = vecNorm p := by
  have h := qn_prod c p
  rw [hc, one_mul, qn_eq_vecNorm, qn_eq_vecNorm] at h
  exact (sq_eq_sq₀ (vecNorm_nonneg _) (vecNorm_nonneg _)).1 h

theorem quatToTensor_lip {p q : Vec 4} (hp : qn p = 1) (hq : qn q = 1) :
    frob (quatToTensor p - quatToTensor q) ≤ 3 * vecNorm (p - q) := by
  have h1 : ddot (quatToTensor p - quatToTensor q) (quatToTensor p - quatToTensor q)
      ≤ 9 * vecNorm (p - q) ^ 2 := by
    rw [← qn_eq_vecNorm]
    set t := p 0 * q 0 + p 1 * q 1 + p 2 * q 2 + p 3 * q 3 with ht
    have e1 : ddot (quatToTensor p - quatToTensor q) (quatToTensor p - quatToTensor q)
        = 3 * qn p ^ 2 + 3 * qn q ^ 2 - 2 * (4 * t ^ 2 - qn p * qn q) := by
      simp only [ddot, Fin.sum_univ_three, Matrix.sub_apply, quatToTensor, qn, ht]
      simp
      ring
    have e2 : qn (p - q) = qn p + qn q - 2 * t := by
      simp only [qn, Pi.sub_apply, ht]; ring
    rw [e1, e2, hp, hq]
    have e3 : 0 ≤ qn (p - q) := by unfold qn; positivity
    rw [e2, hp, hq] at e3
    nlinarith
  unfold frob
  refine Real.sqrt_le_iff.2 ⟨by have := vecNorm_nonneg (p - q); linarith, ?_⟩
  rw [mul_pow]; linarith

attribute [local instance] Matrix.frobeniusNormedAddCommGroup

theorem frob_eq_norm (A : T3) : frob A = ‖A‖ := by
  rw [Matrix.frobenius_norm_def, frob, Real.sqrt_eq_rpow]
  congr 1
  simp only [ddot, Real.norm_eq_abs, Real.rpow_two, sq_abs]
  exact Finset.sum_congr rfl fun i _ => Finset.sum_congr rfl fun j _ => by ring

theorem frob_add_le (A B : T3) : frob (A + B) ≤ frob A + frob B := by
  simp only [frob_eq_norm]; exact norm_add_le _ _

theorem frob_mul_le (A B : T3) : frob (A * B) ≤ frob A * frob B := by
  simp only [frob_eq_norm]; exact Matrix.frobenius_norm_mul _ _

theorem frob_transpose (A : T3) : frob A.transpose = frob A := by
  simp only [frob_eq_norm]; exact Matrix.frobenius_norm_transpose _

theorem frob_nonneg (A : T3) : 0 ≤ frob A := Real.sqrt_nonneg _

/-- Frobenius norm does not change under a rotation from the right -/
theorem frob_mul_rot {R : T3} (hR : R * R.transpose = 1) (A : T3) : frob (A * R) = frob A := by
  have e : ∀ B : T3, ddot B B = (B * B.transpose).trace := by
    intro B
    simp only [ddot, Matrix.trace, Matrix.diag_apply, Matrix.mul_apply, Matrix.transpose_apply]
  unfold frob
  rw [e, e, Matrix.transpose_mul, Matrix.mul_assoc, ← Matrix.mul_assoc R, hR, Matrix.one_mul]

/-- a spin seen from two orientations -/
theorem rot_vec_lip (R S : T3) (w : Vec 3) :
    vecNorm (vecsVMTa R w - vecsVMTa S w) ≤ frob (R - S) * vecNorm w := by
  refine abs_le_of_sq_le_sq' ?_ (mul_nonneg (frob_nonneg _) (vecNorm_nonneg _)) |>.2
  rw [mul_pow, vecNorm_sq, vecNorm_sq, frob, Real.sq_sqrt (by
    unfold ddot; exact Finset.sum_nonneg fun i _ => Finset.sum_nonneg fun j _ => mul_self_nonneg _)]
  have h : ∀ i, (vecsVMTa R w - vecsVMTa S w) i ^ 2 ≤ (∑ j, (R - S) j i ^ 2) * ∑ j, w j ^ 2 := by
    intro i
    have e : (vecsVMTa R w - vecsVMTa S w) i = ∑ j, (R - S) j i * w j := by
      simp only [vecsVMTa, Pi.sub_apply, ← Finset.sum_sub_distrib, Matrix.sub_apply, sub_mul]
    rw [e]
    exact Finset.sum_mul_sq_le_sq_mul_sq _ _ _
  refine (Finset.sum_le_sum fun i _ => h i).trans (le_of_eq ?_)
  rw [← Finset.sum_mul]
  congr 1
  rw [ddot, Finset.sum_comm]
  exact Finset.sum_congr rfl fun i _ => Finset.sum_congr rfl fun j _ => by ring

/-- a deviatoric rate seen from two orientations -/
theorem rot_dev_lip {p q : Vec 4} (hp : qn p = 1) (hq : qn q = 1) (d : Vec 5) :
    vecNorm (vecsVMTa (getRotMatVecd (quatToTensor p)) d - vecsVMTa (getRotMatVecd (quatToTensor q)) d)
      ≤ 2 * frob (quatToTensor p - quatToTensor q) * vecNorm d := by
  obtain ⟨D, hD, rfl⟩ : ∃ D : T3, IsDev D ∧ symmToVecd D = d :=
    ⟨vecdToSymm d, vecdToSymm_isDev d, symmToVecd_vecdToSymm d⟩
  have h1 := (isRot_of_unit hp).1
  have h2 := (isRot_of_unit hq).1
  rw [vecsVMTa_rot hp hD, vecsVMTa_rot hq hD, Ecm.Props.symmToVecd_sub,
    ← frob_vecd (isDev_sub (isDev_conjT h1 hD) (isDev_conjT h2 hD)), ← frob_vecd hD]
  set R := quatToTensor p
  set S := quatToTensor q
  have e : R.transpose * D * R - S.transpose * D * S
      = (R - S).transpose * D * R + (D * (R - S)).transpose.transpose * 1 - D * (R - S)
        + S.transpose * (D * (R - S)) := by
    simp only [Matrix.transpose_transpose, Matrix.mul_one, Matrix.transpose_sub, Matrix.sub_mul, Matrix.mul_sub,
      Matrix.mul_assoc]
    abel
  have e' : R.transpose * D * R - S.transpose * D * S
      = (R - S).transpose * D * R + S.transpose * (D * (R - S)) := by
    rw [e]; simp
  rw [e']
  refine (frob_add_le _ _).trans ?_
  have b1 : frob ((R - S).transpose * D * R) ≤ frob (R - S) * frob D := by
    rw [frob_mul_rot h1]
    refine (frob_mul_le _ _).trans ?_
    rw [frob_transpose]
  have b2 : frob (S.transpose * (D * (R - S))) ≤ frob D * frob (R - S) := by
    rw [← frob_transpose, Matrix.transpose_mul, Matrix.transpose_transpose, frob_mul_rot h2, frob_transpose]
    exact frob_mul_le _ _
  linarith

namespace Updst
variable {n : ℕ} (P : Updst n)

theorem cQuat_lip (hcn : qn P.cN = 1) (x y : Vec 8) :
    vecNorm (P.cQuat x - P.cQuat y) ≤ 1 / 2 * vecNorm (xiF x - xiF y) + 4 / 10 ^ 90 := by
  unfold cQuat getCQuat
  rw [quatProd_sub, vecNorm_prod_unit hcn]
  exact emap_lip _ _

theorem cMatx_lip (hcn : qn P.cN = 1) (x y : Vec 8) :
    frob (P.cMatx x - P.cMatx y) ≤ 3 / 2 * vecNorm (xiF x - xiF y) + 12 / 10 ^ 90 := by
  have h := P.cQuat_lip hcn x y
  refine (quatToTensor_lip (P.qn_cQuat hcn x) (P.qn_cQuat hcn y)).trans ?_
  refine (mul_le_mul_of_nonneg_left h (by norm_num)).trans (le_of_eq ?_)
  ring

theorem rate_lip (hcn : qn P.cN = 1) (x y : Vec 8) (d : Vec 5) :
    vecNorm (vecsVMTa (P.qr5x5 x) d - vecsVMTa (P.qr5x5 y) d)
      ≤ 3 * vecNorm d * (vecNorm (xiF x - xiF y) + 8 / 10 ^ 90) := by
  refine (rot_dev_lip (P.qn_cQuat hcn x) (P.qn_cQuat hcn y) d).trans ?_
  have h := P.cMatx_lip hcn x y
  have := mul_le_mul_of_nonneg_right h (vecNorm_nonneg d)
  have e : (8 : ℝ) / 10 ^ 90 = 2 / 3 * (12 / 10 ^ 90) := by ring
  rw [e]
  unfold cMatx at *
  nlinarith

theorem spin_lip (hcn : qn P.cN = 1) (x y : Vec 8) (w : Vec 3) :
    vecNorm (vecsVMTa (P.cMatx x) w - vecsVMTa (P.cMatx y) w)
      ≤ 3 / 2 * vecNorm w * (vecNorm (xiF x - xiF y) + 8 / 10 ^ 90) := by
  refine (rot_vec_lip _ _ w).trans ?_
  have h := P.cMatx_lip hcn x y
  have := mul_le_mul_of_nonneg_right h (vecNorm_nonneg w)
  have e : (8 : ℝ) / 10 ^ 90 = 2 / 3 * (12 / 10 ^ 90) := by ring
  rw [e]
  nlinarith

end Updst
end Ecm
