/-
  Existence of a solution of the implicit step of updateH, for every step length: the strain equations are
  solved by minimising a potential (Lemmas/Exist), the rotation equations by a fixed point (Lemmas/Brouwer).
  The code's exponential map and its power law differ from the continuous ones by less than 1e-90 and
  1e-60 reference rates; the last part bounds the residual this leaves.
-/
import Verif.Lemmas.Start
import Verif.Lemmas.Exist
import Verif.Lemmas.Brouwer
import Verif.Lemmas.Voce
namespace Ecm
open Spec
theorem continuous_quatProd (cn : Vec 4) : Continuous (quatProd cn) := by
  refine continuous_pi fun i => ?_
  fin_cases i <;> simp [quatProd] <;> fun_prop
theorem continuous_quatToTensor : Continuous quatToTensor := by
  refine continuous_matrix fun i j => ?_
  fin_cases i <;> fin_cases j <;> simp [quatToTensor] <;> fun_prop
theorem continuous_getRotMatVecd : Continuous getRotMatVecd := by
  refine continuous_matrix fun i j => ?_
  fin_cases i <;> fin_cases j <;> simp [getRotMatVecd] <;> fun_prop
theorem continuous_expQuat : Continuous (expQuat : Vec 3 → Vec 4) := by
  rw [continuous_iff_continuousAt]
  intro e
  rw [continuousAt_pi]
  intro i
  by_cases he : e = 0
  · subst he
    obtain ⟨L, hL, -⟩ := VFD.expQuat_zero i
    exact hL.continuousAt
  · obtain ⟨L, hL, -⟩ := VFD.expQuat (fun k => FD.coord k e) (vecNorm_pos_of_ne he) i
    exact hL.continuousAt

theorem continuous_m35 : Continuous m35 := by
  refine continuous_matrix fun i j => ?_
  fin_cases i <;> fin_cases j <;> simp [m35] <;> fun_prop

theorem isCompact_unitQuat : IsCompact {q : Vec 4 | qn q = 1} := by
  refine Metric.isCompact_of_isClosed_isBounded
    (isClosed_eq (by unfold qn; fun_prop) continuous_const) ?_
  refine (Metric.isBounded_iff_subset_closedBall 0).2 ⟨1, fun q hq => ?_⟩
  rw [mem_closedBall_zero_iff, pi_norm_le_iff_of_nonneg zero_le_one]
  exact fun i => abs_le_one_of_qn hq i


/-- the code's exponential map is within 1e-90 of the exact one, in every component -/
theorem emap_close (e : Vec 3) (i : Fin 4) : |emapToQuat e i - expQuat e i| ≤ 1 / 10 ^ 90 := by
  by_cases h : idpTinySqrt < vecNorm e ∨ e = 0
  · rw [emapToQuat_eq_expQuat h, sub_self, abs_zero]; positivity
  · push Not at h
    have hp := vecNorm_pos_of_ne h.2
    have ht : vecNorm e ≤ 1 / 10 ^ 90 := h.1
    rw [expQuat_of_pos hp]
    simp only [emapToQuat, if_neg (not_lt.2 h.1), invToQuat]
    have h5 : vecNorm e * 0.5 = vecNorm e / 2 := by ring
    have hs : |Real.sin (vecNorm e / 2)| ≤ vecNorm e / 2 := by
      have := Real.abs_sin_le_abs (x := vecNorm e / 2)
      rwa [abs_of_pos (half_pos hp)] at this
    have hu : ∀ k, |e k / vecNorm e| ≤ 1 := fun k => by
      rw [abs_div, abs_of_pos hp, div_le_one hp]; exact abs_le_vecNorm e k
    have hq : ∀ a b : ℝ, |a| ≤ 1 → |b| ≤ 1 →
        |Real.sin (vecNorm e / 2) * a - Real.sin (vecNorm e / 2) * b| ≤ 1 / 10 ^ 90 := by
      intro a b ha hb
      rw [← mul_sub, abs_mul]
      have h1 : |a - b| ≤ 2 := (abs_sub _ _).trans (by linarith)
      calc _ ≤ vecNorm e / 2 * 2 := mul_le_mul hs h1 (abs_nonneg _) (half_pos hp).le
        _ ≤ _ := by linarith
    fin_cases i
    · simp [h5]
    · simpa [h5] using hq 1 (e 0 / vecNorm e) (by simp) (hu 0)
    · simpa [h5] using hq 0 (e 1 / vecNorm e) (by simp) (hu 1)
    · simpa [h5] using hq 0 (e 2 / vecNorm e) (by simp) (hu 2)

theorem prod_close {a b a' b' ε : ℝ} (ha : |a| ≤ 1) (hb : |b'| ≤ 1) (h1 : |a - a'| ≤ ε)
    (h2 : |b - b'| ≤ ε) : |a * b - a' * b'| ≤ 2 * ε := by
  have e : a * b - a' * b' = a * (b - b') + (a - a') * b' := by ring
  have h3 := abs_mul_le ha h2
  have h4 := abs_mul_le h1 hb
  rw [e]
  exact (abs_add_le _ _).trans (by linarith)

theorem quatProd_close {c q q' : Vec 4} {ε : ℝ} (hc : qn c = 1) (h : ∀ i, |q i - q' i| ≤ ε) (i : Fin 4) :
    |quatProd c q i - quatProd c q' i| ≤ 4 * ε := by
  have hm : ∀ i j, -ε ≤ c i * (q j - q' j) ∧ c i * (q j - q' j) ≤ ε := fun i j => by
    have := abs_mul_le (abs_le_one_of_qn hc i) (h j)
    rw [one_mul, abs_le] at this; exact this
  have key : ∀ a b d e : ℝ, (-ε ≤ a ∧ a ≤ ε) → (-ε ≤ b ∧ b ≤ ε) → (-ε ≤ d ∧ d ≤ ε) → (-ε ≤ e ∧ e ≤ ε) →
      |a + b + d + e| ≤ 4 * ε := by
    intro a b d e h1 h2 h3 h4
    rw [abs_le]; constructor <;> linarith [h1.1, h1.2, h2.1, h2.2, h3.1, h3.2, h4.1, h4.2]
  have neg : ∀ a : ℝ, (-ε ≤ a ∧ a ≤ ε) → (-ε ≤ -a ∧ -a ≤ ε) := fun a h => ⟨by linarith [h.2], by linarith [h.1]⟩
  fin_cases i
  · have := key _ _ _ _ (hm 0 0) (neg _ (hm 1 1)) (neg _ (hm 2 2)) (neg _ (hm 3 3))
    refine le_of_eq_of_le (congrArg abs ?_) this
    simp [quatProd]; ring
  · have := key _ _ _ _ (hm 0 1) (hm 1 0) (hm 2 3) (neg _ (hm 3 2))
    refine le_of_eq_of_le (congrArg abs ?_) this
    simp [quatProd]; ring
  · have := key _ _ _ _ (hm 0 2) (neg _ (hm 1 3)) (hm 2 0) (hm 3 1)
    refine le_of_eq_of_le (congrArg abs ?_) this
    simp [quatProd]; ring
  · have := key _ _ _ _ (hm 0 3) (hm 1 2) (neg _ (hm 2 1)) (hm 3 0)
    refine le_of_eq_of_le (congrArg abs ?_) this
    simp [quatProd]; ring

theorem quatToTensor_close {q q' : Vec 4} {ε : ℝ} (hq : qn q = 1) (hq' : qn q' = 1)
    (h : ∀ i, |q i - q' i| ≤ ε) (i j : Fin 3) : |quatToTensor q i j - quatToTensor q' i j| ≤ 8 * ε := by
  have hm : ∀ i j, -(2 * ε) ≤ q i * q j - q' i * q' j ∧ q i * q j - q' i * q' j ≤ 2 * ε := fun i j =>
    abs_le.1 (prod_close (abs_le_one_of_qn hq i) (abs_le_one_of_qn hq' j) (h i) (h j))
  have m00 := hm 0 0; have m11 := hm 1 1; have m22 := hm 2 2; have m33 := hm 3 3
  have m01 := hm 0 1; have m02 := hm 0 2; have m03 := hm 0 3
  have m12 := hm 1 2; have m13 := hm 1 3; have m23 := hm 2 3
  rw [abs_le]
  fin_cases i <;> fin_cases j <;> simp only [quatToTensor, Matrix.of_apply, Matrix.cons_val,
    Fin.zero_eta, Fin.mk_one, Fin.reduceFinMk] <;> constructor <;>
    linarith [m00.1, m00.2, m11.1, m11.2, m22.1, m22.2, m33.1, m33.2, m01.1, m01.2, m02.1, m02.2,
      m03.1, m03.2, m12.1, m12.2, m13.1, m13.2, m23.1, m23.2]

theorem rot_abs_le {R : Mat 3 3} (hR : R * R.transpose = 1) (i j : Fin 3) : |R i j| ≤ 1 := by
  rw [← sq_le_one_iff_abs_le_one]
  have h := congrFun (congrFun hR i) i
  simp only [Matrix.mul_apply, Matrix.transpose_apply, Matrix.one_apply_eq] at h
  rw [← h, sq]
  exact Finset.single_le_sum (f := fun k => R i k * R i k) (fun k _ => mul_self_nonneg _)
    (Finset.mem_univ j)

theorem getRotMatVecd_close {R R' : Mat 3 3} (hR : R * R.transpose = 1) (hR' : R' * R'.transpose = 1)
    {ε : ℝ} (h : ∀ i j, |R i j - R' i j| ≤ ε) (i j : Fin 5) :
    |getRotMatVecd R i j - getRotMatVecd R' i j| ≤ 4 * ε := by
  have hm : ∀ i j k l, |R i j * R k l - R' i j * R' k l| ≤ 2 * ε := fun i j k l =>
    prod_close (rot_abs_le hR i j) (rot_abs_le hR' k l) (h i j) (h k l)
  have hε : 0 ≤ ε := (abs_nonneg _).trans (h 0 0)
  have h3 : sqr3 ≤ 1.8 := by
    unfold sqr3
    rw [Real.sqrt_le_left (by norm_num)]; norm_num
  have h30 : 0 ≤ sqr3 := Real.sqrt_nonneg _
  have k4 : ∀ a b c d : ℝ, |a| ≤ 2 * ε → |b| ≤ 2 * ε → |c| ≤ 2 * ε → |d| ≤ 2 * ε →
      |1 / 2 * (a - b - c + d)| ≤ 4 * ε := by
    intro a b c d h1 h2 h3 h4
    rw [abs_le] at *; constructor <;> linarith [h1.1, h1.2, h2.1, h2.2, h3.1, h3.2, h4.1, h4.2]
  have k2 : ∀ a b : ℝ, |a| ≤ 2 * ε → |b| ≤ 2 * ε → |a - b| ≤ 4 * ε := by
    intro a b h1 h2
    rw [abs_le] at *; constructor <;> linarith [h1.1, h1.2, h2.1, h2.2]
  have k2p : ∀ a b : ℝ, |a| ≤ 2 * ε → |b| ≤ 2 * ε → |a + b| ≤ 4 * ε := by
    intro a b h1 h2
    rw [abs_le] at *; constructor <;> linarith [h1.1, h1.2, h2.1, h2.2]
  have ks : ∀ a b : ℝ, |a| ≤ 2 * ε → |b| ≤ 2 * ε → |sqr3 * (1 / 2) * (a - b)| ≤ 4 * ε := by
    intro a b h1 h2
    rw [abs_mul, abs_of_nonneg (by positivity)]
    have := k2 a b h1 h2
    nlinarith [abs_nonneg (a - b)]
  have k1 : ∀ a : ℝ, |a| ≤ 2 * ε → |sqr3 * a| ≤ 4 * ε := by
    intro a h1
    rw [abs_mul, abs_of_nonneg h30]
    nlinarith [abs_nonneg a]
  have k0 : ∀ a : ℝ, |a| ≤ 2 * ε → |3 / 2 * a| ≤ 4 * ε := by
    intro a h1
    rw [abs_le] at *; constructor <;> linarith [h1.1, h1.2]
  fin_cases i <;> fin_cases j
  · refine le_of_eq_of_le (congrArg abs ?_) (k4 _ _ _ _ (hm 0 0 0 0) (hm 0 1 0 1) (hm 1 0 1 0) (hm 1 1 1 1))
    simp [getRotMatVecd]; ring
  · refine le_of_eq_of_le (congrArg abs ?_) (ks _ _ (hm 0 2 0 2) (hm 1 2 1 2))
    simp [getRotMatVecd]; ring
  · refine le_of_eq_of_le (congrArg abs ?_) (k2 _ _ (hm 0 0 0 1) (hm 1 0 1 1))
    simp [getRotMatVecd]; ring
  · refine le_of_eq_of_le (congrArg abs ?_) (k2 _ _ (hm 0 0 0 2) (hm 1 0 1 2))
    simp [getRotMatVecd]; ring
  · refine le_of_eq_of_le (congrArg abs ?_) (k2 _ _ (hm 0 1 0 2) (hm 1 1 1 2))
    simp [getRotMatVecd]; ring
  · refine le_of_eq_of_le (congrArg abs ?_) (ks _ _ (hm 2 0 2 0) (hm 2 1 2 1))
    simp [getRotMatVecd]; ring
  · refine le_of_eq_of_le (congrArg abs ?_) (k0 _ (hm 2 2 2 2))
    simp [getRotMatVecd]; ring
  · refine le_of_eq_of_le (congrArg abs ?_) (k1 _ (hm 2 0 2 1))
    simp [getRotMatVecd]; ring
  · refine le_of_eq_of_le (congrArg abs ?_) (k1 _ (hm 2 0 2 2))
    simp [getRotMatVecd]; ring
  · refine le_of_eq_of_le (congrArg abs ?_) (k1 _ (hm 2 1 2 2))
    simp [getRotMatVecd]; ring
  · refine le_of_eq_of_le (congrArg abs ?_) (k2 _ _ (hm 0 0 1 0) (hm 0 1 1 1))
    simp [getRotMatVecd]; ring
  · refine le_of_eq_of_le (congrArg abs ?_) (k1 _ (hm 0 2 1 2))
    simp [getRotMatVecd]; ring
  · refine le_of_eq_of_le (congrArg abs ?_) (k2p _ _ (hm 0 0 1 1) (hm 0 1 1 0))
    simp [getRotMatVecd]; ring
  · refine le_of_eq_of_le (congrArg abs ?_) (k2p _ _ (hm 0 0 1 2) (hm 0 2 1 0))
    simp [getRotMatVecd]; ring
  · refine le_of_eq_of_le (congrArg abs ?_) (k2p _ _ (hm 0 1 1 2) (hm 0 2 1 1))
    simp [getRotMatVecd]; ring
  · refine le_of_eq_of_le (congrArg abs ?_) (k2 _ _ (hm 0 0 2 0) (hm 0 1 2 1))
    simp [getRotMatVecd]; ring
  · refine le_of_eq_of_le (congrArg abs ?_) (k1 _ (hm 0 2 2 2))
    simp [getRotMatVecd]; ring
  · refine le_of_eq_of_le (congrArg abs ?_) (k2p _ _ (hm 0 0 2 1) (hm 0 1 2 0))
    simp [getRotMatVecd]; ring
  · refine le_of_eq_of_le (congrArg abs ?_) (k2p _ _ (hm 0 0 2 2) (hm 0 2 2 0))
    simp [getRotMatVecd]; ring
  · refine le_of_eq_of_le (congrArg abs ?_) (k2p _ _ (hm 0 1 2 2) (hm 0 2 2 1))
    simp [getRotMatVecd]; ring
  · refine le_of_eq_of_le (congrArg abs ?_) (k2 _ _ (hm 1 0 2 0) (hm 1 1 2 1))
    simp [getRotMatVecd]; ring
  · refine le_of_eq_of_le (congrArg abs ?_) (k1 _ (hm 1 2 2 2))
    simp [getRotMatVecd]; ring
  · refine le_of_eq_of_le (congrArg abs ?_) (k2p _ _ (hm 1 0 2 1) (hm 1 1 2 0))
    simp [getRotMatVecd]; ring
  · refine le_of_eq_of_le (congrArg abs ?_) (k2p _ _ (hm 1 0 2 2) (hm 1 2 2 0))
    simp [getRotMatVecd]; ring
  · refine le_of_eq_of_le (congrArg abs ?_) (k2p _ _ (hm 1 1 2 2) (hm 1 2 2 1))
    simp [getRotMatVecd]; ring

theorem vecsVMTa_close {m : ℕ} {A A' : Mat m m} {ε : ℝ} (h : ∀ i j, |A i j - A' i j| ≤ ε) (v : Vec m)
    (j : Fin m) : |vecsVMTa A v j - vecsVMTa A' v j| ≤ m * (ε * vecNorm v) := by
  unfold vecsVMTa
  rw [← Finset.sum_sub_distrib]
  refine abs_sum_le fun i => ?_
  rw [← sub_mul]
  refine abs_mul_le (h i j) ?_
  unfold vecNorm
  rw [← Real.sqrt_mul_self_eq_abs]
  exact Real.sqrt_le_sqrt (Finset.single_le_sum (f := fun i => v i * v i) (fun i _ => mul_self_nonneg _)
    (Finset.mem_univ i))

/-- the rotation used by the code and the one from the exact exponential map -/
theorem cMatx_close {n : ℕ} (P : Updst n) (hcn : qn P.cN = 1) (x : Vec 8) :
    (∀ i, |vecsVMTa (P.qr5x5 x) P.dSm i
      - vecsVMTa (getRotMatVecd (quatToTensor (quatProd P.cN (expQuat (Updst.xiF x))))) P.dSm i|
        ≤ 1 / 10 ^ 87 * vecNorm P.dSm) ∧
    ∀ i, |vecsVMTa (P.cMatx x) P.wSm i
      - vecsVMTa (quatToTensor (quatProd P.cN (expQuat (Updst.xiF x)))) P.wSm i|
        ≤ 1 / 10 ^ 88 * vecNorm P.wSm := by
  have q1 : qn (P.cQuat x) = 1 := P.qn_cQuat hcn x
  have q2 : qn (quatProd P.cN (expQuat (Updst.xiF x))) = 1 := by rw [qn_prod, hcn, qn_expQuat, one_mul]
  have h1 : ∀ i, |P.cQuat x i - quatProd P.cN (expQuat (Updst.xiF x)) i| ≤ 4 * (1 / 10 ^ 90) :=
    fun i => quatProd_close hcn (emap_close _) i
  have h2 := quatToTensor_close q1 q2 h1
  have h3 := getRotMatVecd_close (isRot_of_unit q1).1 (isRot_of_unit q2).1 h2
  refine ⟨fun i => (vecsVMTa_close h3 P.dSm i).trans ?_, fun i => (vecsVMTa_close h2 P.wSm i).trans ?_⟩
  · have := vecNorm_nonneg P.dSm
    push_cast
    nlinarith
  · have := vecNorm_nonneg P.wSm
    push_cast
    nlinarith

/-- the power law without thresholds -/
noncomputable def Voce.powLaw (k : Voce) (g τ : ℝ) : ℝ :=
  if 0 ≤ τ then k.gamW * (τ / g) ^ k.xnn else -(k.gamW * (-τ / g) ^ k.xnn)

namespace Voce
variable (k : Voce)

theorem xnn_pos (hm : 0 < k.xm) : 0 < k.xnn := one_div_pos.2 hm

theorem powLaw_continuous (hm : 0 < k.xm) (g : ℝ) : Continuous (k.powLaw g) := by
  have hx := k.xnn_pos hm
  unfold powLaw
  refine Continuous.if_le ?_ ?_ continuous_const continuous_id fun τ hτ => ?_
  · exact continuous_const.mul ((continuous_id.div_const g).rpow_const fun _ => Or.inr hx.le)
  · exact (continuous_const.mul ((continuous_neg.div_const g).rpow_const fun _ => Or.inr hx.le)).neg
  · have : τ = 0 := hτ.symm
    subst this
    simp [hx.ne']

theorem powLaw_zero (hm : 0 < k.xm) (g : ℝ) : k.powLaw g 0 = 0 := by
  simp [powLaw, (k.xnn_pos hm).ne']

theorem powLaw_monotone (hm : 0 < k.xm) (hw : 0 < k.gamW) {g : ℝ} (hg : 0 < g) :
    Monotone (k.powLaw g) := by
  have hx := k.xnn_pos hm
  intro a b hab
  unfold powLaw
  split_ifs with h1 h2 h2
  · exact mul_le_mul_of_nonneg_left (Real.rpow_le_rpow (by positivity)
      (div_le_div_of_nonneg_right hab hg.le) hx.le) hw.le
  · linarith
  · push Not at h1
    have := Real.rpow_nonneg (div_nonneg (neg_nonneg.2 h1.le) hg.le) k.xnn
    have := Real.rpow_nonneg (div_nonneg h2 hg.le) k.xnn
    nlinarith
  · push Not at h1 h2
    refine neg_le_neg (mul_le_mul_of_nonneg_left (Real.rpow_le_rpow (div_nonneg (by linarith) hg.le)
      (div_le_div_of_nonneg_right (by linarith) hg.le) hx.le) hw.le)

/-- the power law in terms of magnitude and sign -/
theorem powLaw_mul (g τ : ℝ) :
    τ * k.powLaw g τ = |τ| * (k.gamW * (|τ| / g) ^ k.xnn) := by
  unfold powLaw
  split_ifs with h
  · rw [abs_of_nonneg h]
  · rw [abs_of_neg (not_le.1 h)]; ring

theorem tMin_rpow (hm : 0 < k.xm) : k.tMin ^ k.xnn = 1 / 10 ^ 60 := by
  unfold tMin xnn
  rw [← Real.rpow_mul gamRatioMin_pos.le, mul_one_div_cancel hm.ne', Real.rpow_one]
  unfold gamRatioMin; norm_num

theorem tMax_rpow (hm : 0 < k.xm) : k.tMax ^ k.xnn = 10 ^ 60 := by
  unfold tMax xnn
  rw [← Real.rpow_mul gamRatioOvf_pos.le, mul_one_div_cancel hm.ne', Real.rpow_one]
  unfold gamRatioOvf; norm_num

/-- below the overflow threshold the code's law is within 1e-60 reference rates of the power law -/
theorem powLaw_close (hm : 0 < k.xm) (hw : 0 < k.gamW) {g : ℝ} (hg : 0 < g) {τ : ℝ}
    (h : |τ| / g ≤ k.tMax) : |(k.evalGdot g τ).gdot - k.powLaw g τ| ≤ 1 / 10 ^ 60 * k.gamW := by
  have hx := k.xnn_pos hm
  rcases lt_or_ge k.tMin (|τ| / g) with h1 | h1
  · rw [k.gdot_mid hg h1 h]
    have ht : τ ≠ 0 := by
      rintro rfl
      have := k.tMin_pos
      simp at h1; linarith
    have e : (if 0 < τ then 1 else -1) * (k.gamW * (|τ| / g) ^ k.xnn) = k.powLaw g τ := by
      unfold powLaw
      rcases lt_or_gt_of_ne ht with h2 | h2
      · rw [if_neg (not_lt.2 h2.le), if_neg (not_le.2 h2), abs_of_neg h2]; ring
      · rw [if_pos h2, if_pos h2.le, abs_of_pos h2]; ring
    rw [e, sub_self, abs_zero]
    positivity
  · rw [k.evalGdot_low hg h1]
    show |0 - k.powLaw g τ| ≤ _
    rw [zero_sub, abs_neg]
    have h2 : (|τ| / g) ^ k.xnn ≤ 1 / 10 ^ 60 := by
      rw [← k.tMin_rpow hm]
      exact Real.rpow_le_rpow (by positivity) h1 hx.le
    have h0 : 0 ≤ (|τ| / g) ^ k.xnn := Real.rpow_nonneg (by positivity) _
    have e : |k.powLaw g τ| = k.gamW * (|τ| / g) ^ k.xnn := by
      unfold powLaw
      split_ifs with h3
      · rw [abs_of_nonneg h3] at h0 ⊢
        rw [abs_of_nonneg (mul_nonneg hw.le h0)]
      · rw [abs_of_neg (not_le.1 h3)] at h0 ⊢
        rw [abs_neg, abs_of_nonneg (mul_nonneg hw.le h0)]
    rw [e]
    nlinarith

end Voce

namespace Updst
variable {n : ℕ} (P : Updst n)

/-- for continuous monotone slip laws the equations of a step have a solution, whatever the step length -/
theorem exists_exact (hK : ∀ k, 0 < P.el.kDiag k) (hdt : 0 < P.dt) (hv : 0 < P.detV)
    {h : Fin n → ℝ → ℝ} (hc : ∀ s, Continuous (h s)) (hm : ∀ s, Monotone (h s))
    (h0 : ∀ s, h s 0 = 0) :
    ∃ x : Vec 8, (∀ i, P.aVri * P.edot x i + vecsVMa P.geom.P (fun s => h s (P.taua x s)) i
        = vecsVMTa (getRotMatVecd (quatToTensor (quatProd P.cN (expQuat (xiF x))))) P.dSm i) ∧
      ∀ i, xiF x i = P.dt * (vecsVMTa (quatToTensor (quatProd P.cN (expQuat (xiF x)))) P.wSm i
        - vecsVMa P.geom.Q (fun s => h s (P.taua x s)) i
        + P.eeFac * vecsVMa (m35 (P.eF x)) (P.edot x) i) := by
  have ha : 0 < P.aVri := one_div_pos.2 (P.aV_pos hv)
  have hdi : 0 < P.dtRi := one_div_pos.2 hdt
  obtain ⟨e, hec, he⟩ := exists_strain_map (K := P.el.kDiag) (nn := P.eN) ha (mul_pos ha hdi) hK P.geom.P
    (fun s => ∑ i : Fin 5, P.tConst i.castSucc * P.geom.P i s) hc hm h0
  let R : Vec 4 → Mat 3 3 := fun q => quatToTensor (quatProd P.cN q)
  let D : Vec 4 → Vec 5 := fun q => vecsVMTa (getRotMatVecd (R q)) P.dSm
  let τ : Vec 5 → Vec n := fun e s => P.aVri * (∑ j, P.el.kDiag j * e j * P.geom.P j s)
      + ∑ i : Fin 5, P.tConst i.castSucc * P.geom.P i s
  let Θ : Vec 4 → Vec 3 := fun q i => P.dt * (vecsVMTa (R q) P.wSm i
        - vecsVMa P.geom.Q (fun s => h s (τ (e (D q)) s)) i
        + P.eeFac * vecsVMa (m35 (e (D q))) (fun j => P.dtRi * (e (D q) j - P.eN j)) i)
  have hRc : Continuous R := continuous_quatToTensor.comp (continuous_quatProd P.cN)
  have hDc : Continuous D := by
    have h1 : Continuous fun q => getRotMatVecd (R q) := continuous_getRotMatVecd.comp hRc
    refine continuous_pi fun i => ?_
    simp only [D, vecsVMTa]
    exact continuous_finsetSum _ fun j _ => (h1.matrix_elem j i).mul continuous_const
  have hEc : Continuous fun q => e (D q) := hec.comp hDc
  have hEi : ∀ j, Continuous fun q => e (D q) j := fun j => (continuous_apply j).comp hEc
  have hτc : ∀ s, Continuous fun q => h s (τ (e (D q)) s) := fun s => by
    refine (hc s).comp ?_
    simp only [τ]
    fun_prop
  have hMc : Continuous fun q => m35 (e (D q)) := continuous_m35.comp hEc
  have hΘ : Continuous Θ := by
    refine continuous_pi fun i => ?_
    simp only [Θ, vecsVMTa, vecsVMa]
    refine continuous_const.mul (((continuous_finsetSum _ fun j _ => ?_).sub
      (continuous_finsetSum _ fun s _ => continuous_const.mul (hτc s))).add
      (continuous_const.mul (continuous_finsetSum _ fun j _ => ?_)))
    · exact (hRc.matrix_elem j i).mul continuous_const
    · exact (hMc.matrix_elem i j).mul (continuous_const.mul ((hEi j).sub continuous_const))
  let g : Brouwer.E 3 → Brouwer.E 3 := fun y => WithLp.toLp 2 (Θ (expQuat (WithLp.ofLp y)))
  have hgc : Continuous g := (PiLp.continuous_toLp 2 _).comp
    (hΘ.comp (continuous_expQuat.comp (PiLp.continuous_ofLp 2 _)))
  obtain ⟨B, hB⟩ : ∃ B : ℝ, ∀ q : Vec 4, qn q = 1 → ‖(WithLp.toLp 2 (Θ q) : Brouwer.E 3)‖ ≤ B :=
    isCompact_unitQuat.exists_bound_of_continuousOn
      ((PiLp.continuous_toLp 2 _).comp hΘ).continuousOn
  obtain ⟨y, -, hy⟩ := Brouwer.fixed hgc (R := max B 1) (lt_max_of_lt_right one_pos)
    (fun y => (hB _ (qn_expQuat _)).trans (le_max_left _ _))
  set ξ : Vec 3 := WithLp.ofLp y with hξ
  have hfix : Θ (expQuat ξ) = ξ := congrArg WithLp.ofLp hy
  set E := e (D (expQuat ξ)) with hE
  have hes : eScale ≠ 0 := by unfold eScale; norm_num
  have hrs : rScale ≠ 0 := by unfold rScale; norm_num
  set x : Vec 8 := block8 (fun i => (E i - P.eN i) / eScale) (fun i => ξ i / rScale) with hx
  have hxr : xiF x = ξ := by
    funext i
    simp only [xiF, vecsVxa, hx, block8_iR]
    field_simp
  have hxe : P.eF x = E := by
    funext i
    simp only [eF, vecsVapb, vecsVxa, hx, block8_iE]
    field_simp
    ring
  have hxd : P.edot x = fun j => P.dtRi * (E j - P.eN j) := by
    funext j; rw [P.edot_eq', hxe]
  have hτ : P.taua x = τ E := by
    funext s
    unfold taua vecsVaTM
    rw [hxe]
    simp only [τ]
    rw [Finset.mul_sum, ← Finset.sum_add_distrib]
    refine Finset.sum_congr rfl fun i _ => ?_
    simp only [elastNEtoT_castSucc]
    ring
  refine ⟨x, fun i => ?_, fun i => ?_⟩
  · rw [hxr, hxd, hτ]
    have := he (D (expQuat ξ)) i
    rw [← hE] at this
    show P.aVri * (P.dtRi * (E i - P.eN i)) + ∑ s, P.geom.P i s * h s (τ E s) = D (expQuat ξ) i
    rw [← this]
    ring
  · rw [hxr, hxd, hτ, hxe]
    exact (congrFun hfix i).symm




/-- bounds of the scale factor of the strain equations -/
theorem scale_le (ha : 0 < P.adotsRef) :
    P.epsdotScaleInv ≤ 10 ^ 8 / P.adotsRef ∧ P.epsdotScaleInv * vecNorm P.dSm ≤ 1 := by
  have hn := vecNorm_nonneg P.dSm
  unfold epsdotScaleInv
  simp only
  have hz : epsdotSclNzeff = 1 / 10 ^ 8 := rfl
  rw [hz]
  split_ifs with h1 h2
  · constructor
    · gcongr; norm_num
    · rw [one_div, inv_mul_le_iff₀ ha]; linarith
  · exfalso; rw [h2] at h1
    exact h1 (by positivity)
  · have hp : 0 < vecNorm P.dSm := lt_of_le_of_ne hn (Ne.symm h2)
    constructor
    · refine (min_le_left _ _).trans ?_
      rw [div_le_div_iff₀ hp ha]
      push Not at h1
      linarith
    · calc _ ≤ 1 / vecNorm P.dSm * vecNorm P.dSm := mul_le_mul_of_nonneg_right (min_le_left _ _) hn
        _ = 1 := by field_simp

theorem vecNorm_le_sum {m : ℕ} (v : Vec m) : vecNorm v ≤ ∑ i, |v i| := by
  have h0 : 0 ≤ ∑ i, |v i| := Finset.sum_nonneg fun i _ => abs_nonneg _
  unfold vecNorm
  rw [Real.sqrt_le_left h0, sq, Finset.sum_mul]
  refine Finset.sum_le_sum fun i _ => ?_
  calc v i * v i = |v i| * |v i| := (abs_mul_abs_self _).symm
    _ ≤ |v i| * ∑ j, |v j| := mul_le_mul_of_nonneg_left
        (Finset.single_le_sum (f := fun j => |v j|) (fun j _ => abs_nonneg _) (Finset.mem_univ i))
        (abs_nonneg _)

/-- slip laws within a relative distance `ε` of monotone ones, except at stresses so large that their power exceeds
    what was stored and supplied: a solution for the monotone laws has a residual of no more than about `n ε 1e9` -/
theorem near_at {ε : ℝ} (hε : 0 ≤ ε) (ha : 0 < P.adotsRef) {h : Fin n → ℝ → ℝ}
    (hm : ∀ s, Monotone (h s)) (h0 : ∀ s, h s 0 = 0)
    (hPQ : (∀ i s, |P.geom.P i s| ≤ 1) ∧ ∀ i s, |P.geom.Q i s| ≤ 1)
    (hK : ∀ k, 0 < P.el.kDiag k) {κ : ℝ} (hκ : ∀ k, P.el.kDiag k ≤ κ) (hdt : 0 < P.dt) (hv : 0 < P.detV)
    (hcn : qn P.cN = 1)
    (hs : ∀ s τ, |(P.gd s τ).gdot - h s τ| ≤ ε * P.adotsRef ∨
      (wNorm P.el.kDiag (P.eN - P.eFree) + P.dt * P.aV * (Real.sqrt κ * vecNorm P.dSm)) ^ 2
        < 4 * (P.dt * P.aV ^ 2) * (τ * h s τ))
    (x : Vec 8) (hxE : ∀ i, P.aVri * P.edot x i + vecsVMa P.geom.P (fun s => h s (P.taua x s)) i
        = vecsVMTa (getRotMatVecd (quatToTensor (quatProd P.cN (expQuat (xiF x))))) P.dSm i)
    (hxR : ∀ i, xiF x i = P.dt * (vecsVMTa (quatToTensor (quatProd P.cN (expQuat (xiF x)))) P.wSm i
        - vecsVMa P.geom.Q (fun s => h s (P.taua x s)) i
        + P.eeFac * vecsVMa (m35 (P.eF x)) (P.edot x) i)) :
    vecNorm (P.resid x) ≤ n * ε * 10 ^ 9 + 1 / 10 ^ 79 * (1 + vecNorm P.wSm / P.adotsRef) := by
  have haV := P.aV_pos hv
  have q2 : qn (quatProd P.cN (expQuat (Updst.xiF x))) = 1 := by rw [qn_prod, hcn, qn_expQuat, one_mul]
  have hpw := P.power_le hK hκ hdt hv x (vecNorm_vecsVMTa_rot (isRot_of_unit q2).1 P.dSm) hxE
  have hclose : ∀ s, |P.gdot x s - h s (P.taua x s)| ≤ ε * P.adotsRef := by
    intro s
    refine (hs s (P.taua x s)).resolve_right fun hc => ?_
    have h5 : P.taua x s * h s (P.taua x s) ≤ ∑ s, P.taua x s * h s (P.taua x s) :=
      Finset.single_le_sum (f := fun s => P.taua x s * h s (P.taua x s))
        (fun s _ => by
          rcases le_total 0 (P.taua x s) with ht | ht
          · exact mul_nonneg ht (by rw [← h0 s]; exact hm s ht)
          · exact mul_nonneg_of_nonpos_of_nonpos ht (by rw [← h0 s]; exact hm s ht)) (Finset.mem_univ s)
    have h6 : 0 ≤ 4 * (P.dt * P.aV ^ 2) := by positivity
    linarith [mul_le_mul_of_nonneg_left h5 h6]
  have hsum : ∀ {m : ℕ} (A : Mat m n) (_ : ∀ i s, |A i s| ≤ 1) (i : Fin m),
      |vecsVMa A (P.gdot x) i - vecsVMa A (fun s => h s (P.taua x s)) i|
        ≤ n * (ε * P.adotsRef) := by
    intro m A hA i
    unfold vecsVMa
    rw [← Finset.sum_sub_distrib]
    refine abs_sum_le fun s => ?_
    rw [← mul_sub]
    have := abs_mul_le (hA i s) (hclose s)
    rwa [one_mul] at this
  obtain ⟨c1, c2⟩ := cMatx_close P hcn x
  obtain ⟨s1, s2⟩ := P.scale_le ha
  have s0 : 0 < P.epsdotScaleInv := P.epsdotScaleInv_pos hdt ha
  have hE : ∀ i, |P.residE x i| ≤ n * (ε * P.adotsRef) + 1 / 10 ^ 87 * vecNorm P.dSm := by
    intro i
    have e : P.residE x i = (vecsVMa P.geom.P (P.gdot x) i
        - vecsVMa P.geom.P (fun s => h s (P.taua x s)) i)
        - (vecsVMTa (P.qr5x5 x) P.dSm i
      - vecsVMTa (getRotMatVecd (quatToTensor (quatProd P.cN (expQuat (Updst.xiF x))))) P.dSm i) := by
      rw [← hxE i]; unfold residE; ring
    rw [e]
    exact (abs_sub _ _).trans (add_le_add (hsum _ hPQ.1 i) (c1 i))
  have hR : ∀ i, |P.residR x i|
      ≤ P.dt * (n * (ε * P.adotsRef) + 1 / 10 ^ 88 * vecNorm P.wSm) := by
    intro i
    have e : P.residR x i = P.dt * ((vecsVMa P.geom.Q (P.gdot x) i
        - vecsVMa P.geom.Q (fun s => h s (P.taua x s)) i)
        - (vecsVMTa (P.cMatx x) P.wSm i
      - vecsVMTa (quatToTensor (quatProd P.cN (expQuat (Updst.xiF x)))) P.wSm i)) := by
      unfold residR; rw [hxR i]; ring
    rw [e, abs_mul, abs_of_pos hdt]
    exact mul_le_mul_of_nonneg_left ((abs_sub _ _).trans (add_le_add (hsum _ hPQ.2 i) (c2 i))) hdt.le
  have hn0 : (0 : ℝ) ≤ n := Nat.cast_nonneg n
  have hsw : P.epsdotScaleInv * P.adotsRef ≤ 10 ^ 8 := by
    rwa [le_div_iff₀ ha] at s1
  have hng := mul_le_mul_of_nonneg_left hsw hn0
  have bE : ∀ i, |P.epsdotScaleInv * P.residE x i| ≤ n * ε * 10 ^ 8 + 1 / 10 ^ 87 := by
    intro i
    rw [abs_mul, abs_of_pos s0]
    have h1 := mul_le_mul_of_nonneg_left (hE i) s0.le
    have h2 : P.epsdotScaleInv * (n * (ε * P.adotsRef) + 1 / 10 ^ 87 * vecNorm P.dSm)
        = ε * (n * (P.epsdotScaleInv * P.adotsRef))
          + 1 / 10 ^ 87 * (P.epsdotScaleInv * vecNorm P.dSm) := by ring
    rw [h2] at h1
    have h3 : (n : ℝ) * ε * 10 ^ 8 = ε * (n * 10 ^ 8) := by ring
    rw [h3]
    linarith [mul_le_mul_of_nonneg_left hng hε,
      mul_le_mul_of_nonneg_left s2 (show (0 : ℝ) ≤ 1 / 10 ^ 87 by positivity)]
  have bR : ∀ i, |P.rotincrScaleInv * P.residR x i|
      ≤ n * ε * 10 ^ 8 + 1 / 10 ^ 80 * (vecNorm P.wSm / P.adotsRef) := by
    intro i
    have hr : 0 < P.rotincrScaleInv := mul_pos (one_div_pos.2 hdt) s0
    rw [abs_mul, abs_of_pos hr]
    have h1 := mul_le_mul_of_nonneg_left (hR i) hr.le
    have h2 : P.rotincrScaleInv * (P.dt * (n * (ε * P.adotsRef) + 1 / 10 ^ 88 * vecNorm P.wSm))
        = ε * (n * (P.epsdotScaleInv * P.adotsRef))
          + 1 / 10 ^ 88 * (P.epsdotScaleInv * vecNorm P.wSm) := by
      unfold rotincrScaleInv dtRi; field_simp
    rw [h2] at h1
    have h3 : (n : ℝ) * ε * 10 ^ 8 = ε * (n * 10 ^ 8) := by ring
    have h4 : P.epsdotScaleInv * vecNorm P.wSm ≤ 10 ^ 8 / P.adotsRef * vecNorm P.wSm :=
      mul_le_mul_of_nonneg_right s1 (vecNorm_nonneg _)
    have h5 : 1 / 10 ^ 80 * (vecNorm P.wSm / P.adotsRef)
        = 1 / 10 ^ 88 * (10 ^ 8 / P.adotsRef * vecNorm P.wSm) := by ring
    rw [h3, h5]
    linarith [mul_le_mul_of_nonneg_left hng hε,
      mul_le_mul_of_nonneg_left h4 (show (0 : ℝ) ≤ 1 / 10 ^ 88 by positivity)]
  refine (vecNorm_le_sum _).trans ?_
  have h8 : ∑ i : Fin 8, |P.resid x i| = (∑ i : Fin 5, |P.epsdotScaleInv * P.residE x i|)
      + ∑ i : Fin 3, |P.rotincrScaleInv * P.residR x i| := by
    rw [sum_fin8]
    simp only [resid, block8_iE, block8_iR]
  rw [h8]
  have t1 := Finset.sum_le_sum (s := Finset.univ) fun i _ => bE i
  have t2 := Finset.sum_le_sum (s := Finset.univ) fun i _ => bR i
  simp only [Finset.sum_const, Finset.card_univ, Fintype.card_fin, nsmul_eq_mul] at t1 t2
  push_cast at t1 t2
  have hwn : 0 ≤ vecNorm P.wSm / P.adotsRef := div_nonneg (vecNorm_nonneg _) ha.le
  have e52 : (n : ℝ) * ε * 10 ^ 9 = 10 * (n * ε * 10 ^ 8) := by ring
  have hn52 : 0 ≤ (n : ℝ) * ε * 10 ^ 8 := mul_nonneg (mul_nonneg hn0 hε) (pow_nonneg (by norm_num) _)
  rw [e52]
  generalize vecNorm P.wSm / P.adotsRef = ω at *
  generalize (n : ℝ) * ε * 10 ^ 8 = N at *
  nlinarith

/-- slip laws within a relative distance `ε` of continuous monotone ones, except at stresses so large that
    their power exceeds what was stored and supplied: a point with a residual of no more than about
    `n ε 1e9` exists for every step length -/
theorem exists_near {ε : ℝ} (hε : 0 ≤ ε) (ha : 0 < P.adotsRef) {h : Fin n → ℝ → ℝ}
    (hc : ∀ s, Continuous (h s)) (hm : ∀ s, Monotone (h s)) (h0 : ∀ s, h s 0 = 0)
    (hPQ : (∀ i s, |P.geom.P i s| ≤ 1) ∧ ∀ i s, |P.geom.Q i s| ≤ 1)
    (hK : ∀ k, 0 < P.el.kDiag k) {κ : ℝ} (hκ : ∀ k, P.el.kDiag k ≤ κ) (hdt : 0 < P.dt) (hv : 0 < P.detV)
    (hcn : qn P.cN = 1)
    (hs : ∀ s τ, |(P.gd s τ).gdot - h s τ| ≤ ε * P.adotsRef ∨
      (wNorm P.el.kDiag (P.eN - P.eFree) + P.dt * P.aV * (Real.sqrt κ * vecNorm P.dSm)) ^ 2
        < 4 * (P.dt * P.aV ^ 2) * (τ * h s τ)) :
    ∃ x, vecNorm (P.resid x) ≤ n * ε * 10 ^ 9 + 1 / 10 ^ 79 * (1 + vecNorm P.wSm / P.adotsRef) := by
  obtain ⟨x, hxE, hxR⟩ := P.exists_exact hK hdt hv hc hm h0
  exact ⟨x, P.near_at hε ha hm h0 hPQ hK hκ hdt hv hcn hs x hxE hxR⟩

/-- the law of the code is within 1e-60 of the power law, unless its power exceeds what was stored and supplied -/
theorem voce_close (k : Voce) (hm : 0 < k.xm) (hw : 0 < k.gamW) {g : ℝ} (hg : 0 < g)
    (hgd : ∀ s τ, (P.gd s τ).gdot = (k.evalGdot g τ).gdot) (ha : P.adotsRef = k.gamW) {κ : ℝ}
    (hdt : 0 < P.dt) (hv : 0 < P.detV)
    (hs : (wNorm P.el.kDiag (P.eN - P.eFree) + P.dt * P.aV * (Real.sqrt κ * vecNorm P.dSm)) ^ 2
      ≤ 4 * (P.dt * P.aV ^ 2) * (k.tMax * g * (10 ^ 60 * k.gamW))) (s : Fin n) (τ : ℝ) :
    |(P.gd s τ).gdot - k.powLaw g τ| ≤ 1 / 10 ^ 60 * P.adotsRef ∨
      (wNorm P.el.kDiag (P.eN - P.eFree) + P.dt * P.aV * (Real.sqrt κ * vecNorm P.dSm)) ^ 2
        < 4 * (P.dt * P.aV ^ 2) * (τ * k.powLaw g τ) := by
  rcases le_or_gt (|τ| / g) k.tMax with hτ | hτ
  · left; rw [hgd, ha]; exact k.powLaw_close hm hw hg hτ
  · right
    have h1 : k.tMax * g < |τ| := by rwa [lt_div_iff₀ hg] at hτ
    have h2 : (10 : ℝ) ^ 60 ≤ (|τ| / g) ^ k.xnn := by
      rw [← k.tMax_rpow hm]
      exact Real.rpow_le_rpow k.tMax_pos.le hτ.le (k.xnn_pos hm).le
    have h3 : k.tMax * g * (10 ^ 60 * k.gamW) < τ * k.powLaw g τ := by
      rw [k.powLaw_mul]
      have h4 : 10 ^ 60 * k.gamW ≤ k.gamW * (|τ| / g) ^ k.xnn := by nlinarith
      exact mul_lt_mul h1 h4 (by positivity) (abs_nonneg _)
    have haV := P.aV_pos hv
    have h6 : 0 < 4 * (P.dt * P.aV ^ 2) := by positivity
    have := mul_lt_mul_of_pos_left h3 h6
    linarith

/-- for the power law kinetics a point with a residual of no more than about `n 1e-51` exists for every
    step length, unless the power supplied exceeds what the overflow limit of the slip law stands for -/
theorem exists_voce (k : Voce) (hm : 0 < k.xm) (hw : 0 < k.gamW) {g : ℝ} (hg : 0 < g)
    (hgd : ∀ s τ, (P.gd s τ).gdot = (k.evalGdot g τ).gdot) (ha : P.adotsRef = k.gamW)
    (hPQ : (∀ i s, |P.geom.P i s| ≤ 1) ∧ ∀ i s, |P.geom.Q i s| ≤ 1)
    (hK : ∀ k, 0 < P.el.kDiag k) {κ : ℝ} (hκ : ∀ k, P.el.kDiag k ≤ κ) (hdt : 0 < P.dt) (hv : 0 < P.detV)
    (hcn : qn P.cN = 1)
    (hs : (wNorm P.el.kDiag (P.eN - P.eFree) + P.dt * P.aV * (Real.sqrt κ * vecNorm P.dSm)) ^ 2
      ≤ 4 * (P.dt * P.aV ^ 2) * (k.tMax * g * (10 ^ 60 * k.gamW))) :
    ∃ x, vecNorm (P.resid x) ≤ n * (1 / 10 ^ 60) * 10 ^ 9
      + 1 / 10 ^ 79 * (1 + vecNorm P.wSm / k.gamW) := by
  rw [← ha]
  exact P.exists_near (h := fun _ => k.powLaw g) (by norm_num) (ha ▸ hw)
    (fun _ => k.powLaw_continuous hm g) (fun _ => k.powLaw_monotone hm hw hg) (fun _ => k.powLaw_zero hm g)
    hPQ hK hκ hdt hv hcn (P.voce_close k hm hw hg hgd ha hdt hv hs)

end Updst
end Ecm
