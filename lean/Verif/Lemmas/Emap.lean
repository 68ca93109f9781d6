/- The exponential map from rotation vectors to quaternions and its derivative. -/
import Verif.Lemmas.FD
import Mathlib.Analysis.SpecialFunctions.Trigonometric.Bounds
import Mathlib.Analysis.Calculus.FDeriv.Basic

namespace Ecm
open Spec Matrix

theorem vecNorm_pos_of_ne {e : Vec 3} (he : e ≠ 0) : 0 < vecNorm e := by
  rcases (vecNorm_nonneg e).lt_or_eq with h | h
  · exact h
  · exfalso; apply he
    have hs := vecNorm3_sq e
    rw [← h] at hs
    have a0 : e 0 = 0 := by nlinarith [sq_nonneg (e 0), sq_nonneg (e 1), sq_nonneg (e 2)]
    have a1 : e 1 = 0 := by nlinarith [sq_nonneg (e 0), sq_nonneg (e 1), sq_nonneg (e 2)]
    have a2 : e 2 = 0 := by nlinarith [sq_nonneg (e 0), sq_nonneg (e 1), sq_nonneg (e 2)]
    ext i; fin_cases i <;> assumption

theorem vecNorm_zero3 : vecNorm (0 : Vec 3) = 0 := by simp [vecNorm]

theorem ne_zero_of_vecNorm_pos {e : Vec 3} (h : 0 < vecNorm e) : e ≠ 0 := by
  rintro rfl; rw [vecNorm_zero3] at h; exact lt_irrefl _ h

theorem continuous_vecNorm {n : ℕ} : Continuous (vecNorm : Vec n → ℝ) := by
  unfold vecNorm; fun_prop

theorem abs_le_vecNorm (e : Vec 3) (i : Fin 3) : |e i| ≤ vecNorm e := by
  apply abs_le_of_sq_le_sq _ (vecNorm_nonneg e)
  rw [vecNorm3_sq]
  fin_cases i <;> simp <;> nlinarith [sq_nonneg (e 0), sq_nonneg (e 1), sq_nonneg (e 2)]

/-- derivative of the euclidean length away from zero -/
theorem FD.vecNorm {E : Type*} [NormedAddCommGroup E] [NormedSpace ℝ E] {v : E → Vec 3} {x : E}
    {v' : E → Vec 3} (hv : VFD v x v') (h0 : 0 < vecNorm (v x)) :
    FD (fun y => vecNorm (v y)) x (fun h => (∑ i, v x i * v' h i) / vecNorm (v x)) := by
  have h1 := FD.sum (s := Finset.univ) (fun i _ => (hv i).mul (hv i))
  have hs : 0 < ∑ i, v x i * v x i := Real.sqrt_pos.1 h0
  have h2 := h1.comp (Real.hasDerivAt_sqrt hs.ne')
  refine h2.congr fun h => ?_
  have e1 : ∑ i, (v' h i * v x i + v x i * v' h i) = 2 * ∑ i, v x i * v' h i := by
    rw [Finset.mul_sum]; exact Finset.sum_congr rfl fun i _ => by ring
  rw [e1]
  change 1 / (2 * Ecm.vecNorm (v x)) * _ = _
  field_simp

theorem expQuat_of_pos {e : Vec 3} (h : 0 < vecNorm e) : expQuat e =
    ![Real.cos (vecNorm e / 2), Real.sin (vecNorm e / 2) * (e 0 / vecNorm e),
      Real.sin (vecNorm e / 2) * (e 1 / vecNorm e), Real.sin (vecNorm e / 2) * (e 2 / vecNorm e)] := by
  unfold expQuat
  rw [if_neg (ne_zero_of_vecNorm_pos h)]
  rfl

theorem emapToQuat_eq_expQuat {e : Vec 3} (h : idpTinySqrt < vecNorm e ∨ e = 0) :
    emapToQuat e = expQuat e := by
  rcases h with h | h
  · have hp := lt_trans idpTinySqrt_pos h
    rw [expQuat_of_pos hp]
    simp only [emapToQuat, if_pos h]
    have h5 : ∀ t : ℝ, t * 0.5 = t / 2 := fun t => by ring
    ext i; fin_cases i <;> simp [invToQuat, h5] <;> left <;> ring
  · subst h
    have h1 : ¬ idpTinySqrt < vecNorm (0 : Vec 3) := by
      rw [vecNorm_zero3]; exact not_lt.2 idpTinySqrt_pos.le
    simp only [emapToQuat, vecNorm_zero3, expQuat, if_pos]
    ext i; fin_cases i <;> simp [invToQuat]

/-- the exact derivative for a non-zero rotation vector -/
noncomputable def dExp (e : Vec 3) : Mat 3 4 :=
  let s := Real.sin (vecNorm e / 2)
  let c := Real.cos (vecNorm e / 2)
  let t := vecNorm e
  !![-(s / 2) * (e 0 / t), (c / 2 - s / t) * (e 0 / t) * (e 0 / t) + s / t,
      (c / 2 - s / t) * (e 0 / t) * (e 1 / t), (c / 2 - s / t) * (e 0 / t) * (e 2 / t);
     -(s / 2) * (e 1 / t), (c / 2 - s / t) * (e 0 / t) * (e 1 / t),
      (c / 2 - s / t) * (e 1 / t) * (e 1 / t) + s / t, (c / 2 - s / t) * (e 1 / t) * (e 2 / t);
     -(s / 2) * (e 2 / t), (c / 2 - s / t) * (e 0 / t) * (e 2 / t),
      (c / 2 - s / t) * (e 1 / t) * (e 2 / t), (c / 2 - s / t) * (e 2 / t) * (e 2 / t) + s / t]

theorem VFD.expQuat {E : Type*} [NormedAddCommGroup E] [NormedSpace ℝ E] {v : E → Vec 3} {x : E}
    {v' : E → Vec 3} (hv : VFD v x v') (h0 : 0 < vecNorm (v x)) :
    VFD (fun y => expQuat (v y)) x (fun h => (dExp (v x)).transpose.mulVec (v' h)) := by
  have hN := FD.vecNorm hv h0
  have hhalf : FD (fun y => Ecm.vecNorm (v y) / 2) x
      (fun h => (∑ i, v x i * v' h i) / Ecm.vecNorm (v x) / 2) :=
    ((hN.mul_const (1 / 2)).congr_fun fun y => by ring).congr fun h => by ring
  have hcos := hhalf.comp (Real.hasDerivAt_cos (Ecm.vecNorm (v x) / 2))
  have hsin := hhalf.comp (Real.hasDerivAt_sin (Ecm.vecNorm (v x) / 2))
  have hinv := hN.comp (hasDerivAt_inv h0.ne')
  have hcont : ContinuousAt (fun y => Ecm.vecNorm (v y)) x := hN.continuousAt
  have hev : ∀ᶠ y in nhds x, 0 < Ecm.vecNorm (v y) := hcont.eventually_const_lt h0
  intro i
  refine Fin.cases ?_ (fun k => ?_) i
  · refine FD.congr (FD.congr_ev hcos ?_) fun h => ?_
    · filter_upwards [hev] with y hy
      rw [expQuat_of_pos hy]; rfl
    · simp [dExp, Matrix.mulVec, dotProduct, Fin.sum_univ_three]; ring
  · have h3 := (hsin.mul hinv).mul (hv k)
    refine FD.congr (FD.congr_ev h3 ?_) fun h => ?_
    · filter_upwards [hev] with y hy
      rw [expQuat_of_pos hy]
      fin_cases k <;> simp <;> ring
    · have hx := h0.ne'
      fin_cases k <;> simp [dExp, Matrix.mulVec, dotProduct, Fin.sum_univ_three] <;>
        field_simp <;> ring

theorem dquatDemapT_eq_dExp {e : Vec 3} (h : thetaSmA ≤ vecNorm e) : dquatDemapT e = dExp e := by
  have h1 : ¬ |vecNorm e| < thetaSmA := by
    rw [abs_of_nonneg (vecNorm_nonneg e)]; exact not_lt.2 h
  have hp : 0 < vecNorm e := lt_of_lt_of_le (by unfold thetaSmA; positivity) h
  have hs := vecNorm3_sq e
  have h5 : ∀ t : ℝ, t * (1 / 2) = t / 2 := fun t => by ring
  simp only [dquatDemapT, dqAux, if_neg h1, h5]
  ext w i
  fin_cases w <;> fin_cases i <;> simp [dExp, -mul_eq_mul_left_iff, -mul_eq_mul_right_iff] <;> ring_nf

theorem thetaSmA_gt : idpTinySqrt < thetaSmA := by unfold idpTinySqrt thetaSmA; norm_num

theorem VFD.emapToQuat {E : Type*} [NormedAddCommGroup E] [NormedSpace ℝ E] {v : E → Vec 3} {x : E}
    {v' : E → Vec 3} (hv : VFD v x v') (h0 : thetaSmA ≤ vecNorm (v x)) :
    VFD (fun y => emapToQuat (v y)) x (fun h => (dquatDemapT (v x)).transpose.mulVec (v' h)) := by
  have hp : idpTinySqrt < Ecm.vecNorm (v x) := lt_of_lt_of_le thetaSmA_gt h0
  have hp0 := lt_trans idpTinySqrt_pos hp
  have h1 := VFD.expQuat hv hp0
  have hcont : ContinuousAt (fun y => Ecm.vecNorm (v y)) x := (FD.vecNorm hv hp0).continuousAt
  have hev : ∀ᶠ y in nhds x, idpTinySqrt < Ecm.vecNorm (v y) := hcont.eventually_const_lt hp
  rw [dquatDemapT_eq_dExp h0]
  intro i
  refine FD.congr_ev (h1 i) ?_
  filter_upwards [hev] with y hy
  rw [emapToQuat_eq_expQuat (Or.inl hy)]

/-! ### Derivative at zero -/

theorem vecNorm_le_norm (e : Vec 3) : vecNorm e ^ 2 ≤ 3 * ‖e‖ ^ 2 := by
  rw [vecNorm3_sq]
  have h : ∀ i, e i ^ 2 ≤ ‖e‖ ^ 2 := fun i => by
    have := norm_le_pi_norm e i
    rw [Real.norm_eq_abs] at this
    rw [← sq_abs]; exact pow_le_pow_left₀ (abs_nonneg _) this 2
  linarith [h 0, h 1, h 2]

theorem FD.of_quadratic {f : Vec 3 → ℝ} {a : Vec 3} {C : ℝ}
    (h : ∀ᶠ e in nhds (0 : Vec 3), |f e - f 0 - ∑ j, a j * e j| ≤ C * ‖e‖ ^ 2) :
    FD f 0 (fun v => ∑ j, a j * v j) := by
  have hO : (fun e : Vec 3 => f e - f 0 - ∑ j, a j * e j) =O[nhds 0] fun e => ‖e - 0‖ ^ 2 := by
    refine Asymptotics.IsBigO.of_bound C ?_
    filter_upwards [h] with e he
    simpa using he
  have hd := hO.hasFDerivAt (by norm_num : 1 < 2) (𝕜 := ℝ)
  have h1 : FD (fun e : Vec 3 => f e - f 0 - ∑ j, a j * e j) 0 (fun _ => 0) := ⟨0, hd, fun _ => rfl⟩
  have h2 : FD (fun e : Vec 3 => ∑ j, a j * e j) 0 (fun v => ∑ j, a j * v j) :=
    FD.sum fun j _ => (FD.coord j 0).const_mul _
  exact (((h1.add (FD.const (f 0))).add h2).congr_fun fun y => by ring).congr fun v => by ring

theorem sin_div_bound {t : ℝ} (h0 : 0 < t) (h1 : t ≤ 1) :
    |Real.sin (t / 2) - t / 2| ≤ t ^ 3 / 32 := by
  have a := Real.sin_le (by linarith : 0 ≤ t / 2)
  have b := Real.sin_gt_sub_cube (by linarith : 0 < t / 2)
  rw [abs_le]; constructor <;> nlinarith [pow_pos h0 3]

theorem one_sub_cos_bound (t : ℝ) : |Real.cos (t / 2) - 1| ≤ t ^ 2 / 8 := by
  have a := Real.one_sub_sq_div_two_le_cos (x := t / 2)
  have b := Real.cos_le_one (t / 2)
  rw [abs_le]; constructor <;> nlinarith [sq_nonneg t]

theorem dquatDemapT_zero : dquatDemapT 0 = !![0, 1 / 2, 0, 0; 0, 0, 1 / 2, 0; 0, 0, 0, 1 / 2] := by
  have h1 : |(0 : ℝ)| < thetaSmA := by rw [abs_zero]; unfold thetaSmA; positivity
  have h2 : |(0 : ℝ)| < idpTinySqrt := by rw [abs_zero]; exact idpTinySqrt_pos
  simp only [dquatDemapT, dqAux, vecNorm_zero3, if_pos h1, if_pos h2]
  ext w i
  fin_cases w <;> fin_cases i <;> simp

theorem VFD.expQuat_zero :
    VFD Spec.expQuat (0 : Vec 3) (fun h => (dquatDemapT 0).transpose.mulVec h) := by
  have hz : Spec.expQuat (0 : Vec 3) = ![1, 0, 0, 0] := by simp [Spec.expQuat]
  have hnear : ∀ᶠ e in nhds (0 : Vec 3), vecNorm e ≤ 1 := by
    have : ContinuousAt (vecNorm : Vec 3 → ℝ) 0 := continuous_vecNorm.continuousAt
    exact (this.eventually_lt_const (by rw [vecNorm_zero3]; norm_num : vecNorm (0 : Vec 3) < 1)).mono
      fun e he => he.le
  have hk : ∀ k : Fin 3, ∀ᶠ e in nhds (0 : Vec 3),
      |Spec.expQuat e k.succ - Spec.expQuat 0 k.succ - ∑ j, (Pi.single k (1 / 2) : Vec 3) j * e j|
        ≤ 3 * ‖e‖ ^ 2 := by
    intro k
    filter_upwards [hnear] with e he
    rcases (vecNorm_nonneg e).lt_or_eq with hp | hp
    · have e1 : Spec.expQuat e k.succ - Spec.expQuat 0 k.succ
          - ∑ j, (Pi.single k (1 / 2) : Vec 3) j * e j
          = (Real.sin (vecNorm e / 2) - vecNorm e / 2) * (e k / vecNorm e) := by
        rw [expQuat_of_pos hp, hz]
        have := hp.ne'
        fin_cases k <;> simp [Fin.sum_univ_three, Pi.single_apply] <;> field_simp
      rw [e1, abs_mul, abs_div, abs_of_pos hp]
      have b1 := sin_div_bound hp he
      have b2 : |e k| / vecNorm e ≤ 1 := (div_le_one hp).2 (abs_le_vecNorm e k)
      have b3 : 0 ≤ |e k| / vecNorm e := by positivity
      have b4 := vecNorm_le_norm e
      have b5 : vecNorm e ^ 3 ≤ vecNorm e ^ 2 := by nlinarith [sq_nonneg (vecNorm e)]
      calc _ ≤ vecNorm e ^ 3 / 32 * 1 := mul_le_mul b1 b2 b3 (by positivity)
        _ ≤ 3 * ‖e‖ ^ 2 := by linarith [sq_nonneg (vecNorm e), sq_nonneg ‖e‖]
    · have : e = 0 := by
        by_contra hne
        exact absurd hp (vecNorm_pos_of_ne hne).ne
      subst this
      simp
  intro i
  refine Fin.cases ?_ (fun k => ?_) i
  · have : FD (fun e : Vec 3 => Spec.expQuat e 0) 0 (fun v => ∑ j, (0 : Vec 3) j * v j) := by
      apply FD.of_quadratic (C := 3)
      filter_upwards [hnear] with e he
      have b4 := vecNorm_le_norm e
      rcases (vecNorm_nonneg e).lt_or_eq with hp | hp
      · rw [expQuat_of_pos hp, hz]
        have := one_sub_cos_bound (vecNorm e)
        simp
        linarith [sq_nonneg (vecNorm e), sq_nonneg ‖e‖]
      · have : e = 0 := by
          by_contra hne
          exact absurd hp (vecNorm_pos_of_ne hne).ne
        subst this
        simp
    refine this.congr fun v => ?_
    rw [dquatDemapT_zero]
    simp [Matrix.mulVec, dotProduct, Fin.sum_univ_three]
  · refine (FD.of_quadratic (hk k)).congr fun v => ?_
    rw [dquatDemapT_zero]
    fin_cases k <;> simp [Matrix.mulVec, dotProduct, Fin.sum_univ_three, Pi.single_apply]

/-! ### The series branch -/

theorem sin_series {t : ℝ} (h0 : 0 < t) (h1 : t ≤ 1) :
    |Real.sin (t / 2) / 2 - t * (1 / 4)| ≤ t ^ 3 / 64 ∧
    |Real.sin (t / 2) / t - (1 / 2 - t * t * (1 / 48))| ≤ t ^ 3 / 256 := by
  constructor
  · have := sin_div_bound h0 h1
    rw [abs_le] at this ⊢
    constructor <;> linarith [this.1, this.2]
  · have b := Real.sin_bound (x := t / 2) (by rw [abs_of_pos (by linarith)]; linarith)
    rw [abs_of_pos (by linarith : 0 < t / 2)] at b
    have e1 : Real.sin (t / 2) / t - (1 / 2 - t * t * (1 / 48))
        = (Real.sin (t / 2) - (t / 2 - (t / 2) ^ 3 / 6)) / t := by field_simp; ring
    rw [e1, abs_div, abs_of_pos h0, div_le_iff₀ h0]
    have : 0 < t ^ 4 := by positivity
    nlinarith

theorem abs_mul_le_of_le_one {a b A : ℝ} (ha : |a| ≤ A) (hb : |b| ≤ 1) : |a * b| ≤ A := by
  rw [abs_mul]
  calc |a| * |b| ≤ |a| * 1 := mul_le_mul_of_nonneg_left hb (abs_nonneg a)
    _ ≤ A := by rw [mul_one]; exact ha

theorem dquatDemapT_series {e : Vec 3} (h0 : 0 < vecNorm e) (h1 : vecNorm e < thetaSmA)
    (w : Fin 3) (i : Fin 4) : |dquatDemapT e w i - dExp e w i| ≤ 1 / 10 ^ 28 := by
  have hs := vecNorm3_sq e
  have hn : ∀ k, |e k / vecNorm e| ≤ 1 := fun k => by
    rw [abs_div, abs_of_pos h0, div_le_one h0]; exact abs_le_vecNorm e k
  have hsm : vecNorm e < 1 / 10 ^ 9 := h1
  have hle : vecNorm e ≤ 1 := by
    have : (1 : ℝ) / 10 ^ 9 ≤ 1 := by norm_num
    linarith
  obtain ⟨s1, s2⟩ := sin_series h0 hle
  have hcos := one_sub_cos_bound (vecNorm e)
  have p3 : vecNorm e ^ 3 ≤ 1 / 10 ^ 27 := by
    calc vecNorm e ^ 3 ≤ (1 / 10 ^ 9) ^ 3 := pow_le_pow_left₀ h0.le hsm.le 3
      _ = 1 / 10 ^ 27 := by norm_num
  have hif : |vecNorm e| < thetaSmA := by rw [abs_of_pos h0]; exact h1
  have h5 : ∀ t : ℝ, t * (1 / 2) = t / 2 := fun t => by ring
  have n2 : ∀ k l, |(e k / vecNorm e) * (e l / vecNorm e)| ≤ 1 :=
    fun k l => abs_mul_le_of_le_one (hn k) (hn l)
  have n3 : ∀ k, |1 - (e k / vecNorm e) * (e k / vecNorm e)| ≤ 1 := fun k => by
    have a := n2 k k
    have b := mul_self_nonneg (e k / vecNorm e)
    rw [abs_le] at a ⊢
    constructor <;> linarith [a.1, a.2]
  by_cases hif2 : |vecNorm e| < idpTinySqrt
  · have ht : vecNorm e < 1 / 10 ^ 90 := by rw [abs_of_pos h0] at hif2; exact hif2
    have ht2 : vecNorm e ≤ 1 / 10 ^ 30 := ht.le.trans (by norm_num)
    have p2 : vecNorm e ^ 2 ≤ 1 / 10 ^ 30 := by nlinarith
    have p3' : vecNorm e ^ 3 ≤ 1 / 10 ^ 30 := by nlinarith [sq_nonneg (vecNorm e)]
    have d1 : |Real.cos (vecNorm e / 2) / 2 - Real.sin (vecNorm e / 2) / vecNorm e|
        ≤ 1 / 10 ^ 30 := by
      rw [abs_le] at hcos s2 ⊢
      constructor <;> nlinarith [hcos.1, hcos.2, s2.1, s2.2]
    have d2 : |Real.sin (vecNorm e / 2) / vecNorm e - (1 / 2 - vecNorm e * vecNorm e * (1 / 48))|
        ≤ 1 / 10 ^ 30 := s2.trans (by linarith)
    have d3 : |Real.sin (vecNorm e / 2) / 2| ≤ 1 / 10 ^ 30 := by
      rw [abs_le] at s1 ⊢
      constructor <;> linarith [s1.1, s1.2]
    have d4 : |vecNorm e * (1 / 4)| ≤ 1 / 10 ^ 30 := by
      rw [abs_of_pos (by positivity)]; linarith
    simp only [dquatDemapT, dqAux, if_pos hif, if_pos hif2, h5, dExp]
    generalize Real.sin (vecNorm e / 2) / vecNorm e = st at *
    generalize Real.sin (vecNorm e / 2) / 2 = sh at *
    generalize Real.cos (vecNorm e / 2) / 2 = ch at *
    generalize vecNorm e * (1 / 4) = q at *
    generalize 1 / 2 - vecNorm e * vecNorm e * (1 / 48) = r at *
    generalize hN0 : e 0 / vecNorm e = a at *
    generalize hN1 : e 1 / vecNorm e = b at *
    generalize hN2 : e 2 / vecNorm e = c at *
    have na : |a| ≤ 1 := hN0 ▸ hn 0
    have nb : |b| ≤ 1 := hN1 ▸ hn 1
    have nc : |c| ≤ 1 := hN2 ▸ hn 2
    have naa : |a * a| ≤ 1 := hN0 ▸ n2 0 0
    have nbb : |b * b| ≤ 1 := hN1 ▸ n2 1 1
    have ncc : |c * c| ≤ 1 := hN2 ▸ n2 2 2
    have nab : |a * b| ≤ 1 := abs_mul_le_of_le_one na nb
    have nac : |a * c| ≤ 1 := abs_mul_le_of_le_one na nc
    have nbc : |b * c| ≤ 1 := abs_mul_le_of_le_one nb nc
    have n3a : |1 - a * a| ≤ 1 := hN0 ▸ n3 0
    have K : ∀ x y z w u : ℝ, |x| ≤ 1 / 10 ^ 30 → |y| ≤ 1 / 10 ^ 30 → |z| ≤ 1 → |w| ≤ 1 →
        u = x * z + y * w → |u| ≤ 1 / 10 ^ 28 := by
      intro x y z w u hx hy hz hw hu
      rw [hu]
      calc |x * z + y * w| ≤ |x * z| + |y * w| := abs_add_le _ _
        _ ≤ 1 / 10 ^ 30 + 1 / 10 ^ 30 :=
          add_le_add (abs_mul_le_of_le_one hx hz) (abs_mul_le_of_le_one hy hw)
        _ ≤ 1 / 10 ^ 28 := by norm_num
    have neg1 : |(-1 : ℝ)| ≤ 1 := by norm_num
    have zero1 : |(0 : ℝ)| ≤ 1 := by norm_num
    have nn : ∀ {x : ℝ}, |x| ≤ 1 → |-x| ≤ 1 := fun h => by rwa [abs_neg]
    fin_cases w <;> fin_cases i
    · exact K q sh (-1) a _ d4 d3 neg1 na (by simp; try ring)
    · exact K (ch - st) 0 (1 - a * a) 0 _ d1 (by norm_num) n3a zero1 (by simp; try ring)
    · exact K (ch - st) 0 (-(a * b)) 0 _ d1 (by norm_num) (nn nab) zero1 (by simp; try ring)
    · exact K (ch - st) 0 (-(a * c)) 0 _ d1 (by norm_num) (nn nac) zero1 (by simp; try ring)
    · exact K sh 0 b 0 _ d3 (by norm_num) nb zero1 (by simp; try ring)
    · exact K (ch - st) 0 (-(a * b)) 0 _ d1 (by norm_num) (nn nab) zero1 (by simp; try ring)
    · exact K (ch - st) (st - r) (-(b * b)) (-1) _ d1 d2 (nn nbb) neg1 (by simp; try ring)
    · exact K (ch - st) 0 (-(b * c)) 0 _ d1 (by norm_num) (nn nbc) zero1 (by simp; try ring)
    · exact K sh 0 c 0 _ d3 (by norm_num) nc zero1 (by simp; try ring)
    · exact K (ch - st) 0 (-(a * c)) 0 _ d1 (by norm_num) (nn nac) zero1 (by simp; try ring)
    · exact K (ch - st) 0 (-(b * c)) 0 _ d1 (by norm_num) (nn nbc) zero1 (by simp; try ring)
    · exact K (ch - st) (st - r) (-(c * c)) (-1) _ d1 d2 (nn ncc) neg1 (by simp; try ring)
  · have d2 : |Real.sin (vecNorm e / 2) / vecNorm e - (1 / 2 - vecNorm e * vecNorm e * (1 / 48))|
        ≤ 1 / 10 ^ 28 := s2.trans (by linarith)
    have d3 : |Real.sin (vecNorm e / 2) / 2 - vecNorm e * (1 / 4)| ≤ 1 / 10 ^ 28 :=
      s1.trans (by linarith)
    have e1 : ∀ k, e k * (1 / vecNorm e) = e k / vecNorm e := fun k => by ring
    simp only [dquatDemapT, dqAux, if_pos hif, if_neg hif2, h5, dExp, e1]
    generalize Real.sin (vecNorm e / 2) / vecNorm e = st at *
    generalize Real.sin (vecNorm e / 2) / 2 = sh at *
    generalize Real.cos (vecNorm e / 2) / 2 = ch at *
    generalize vecNorm e * (1 / 4) = q at *
    generalize 1 / 2 - vecNorm e * vecNorm e * (1 / 48) = r at *
    have K : ∀ x z y : ℝ, |x| ≤ 1 / 10 ^ 28 → |z| ≤ 1 → y = x * z → |y| ≤ 1 / 10 ^ 28 :=
      fun x z y hx hz hy => by rw [hy]; exact abs_mul_le_of_le_one hx hz
    have nn : ∀ {x : ℝ}, |x| ≤ 1 → |-x| ≤ 1 := fun h => by rwa [abs_neg]
    fin_cases w <;> fin_cases i
    · exact K _ _ _ d3 (hn 0) (by simp; ring)
    · exact K _ _ _ d2 (nn (n3 0)) (by simp; ring)
    · exact K _ _ _ d2 (n2 0 1) (by simp; ring)
    · exact K _ _ _ d2 (n2 0 2) (by simp; ring)
    · exact K _ _ _ d3 (hn 1) (by simp; ring)
    · exact K _ _ _ d2 (n2 0 1) (by simp; ring)
    · exact K _ _ _ d2 (nn (n3 1)) (by simp; ring)
    · exact K _ _ _ d2 (n2 1 2) (by simp; ring)
    · exact K _ _ _ d3 (hn 2) (by simp; ring)
    · exact K _ _ _ d2 (n2 0 2) (by simp; ring)
    · exact K _ _ _ d2 (n2 1 2) (by simp; ring)
    · exact K _ _ _ d2 (nn (n3 2)) (by simp; ring)

/-! ### Composition: rotation increments -/

theorem vecsVMTa_eq {n : ℕ} (M : Mat n n) (v : Vec n) : vecsVMTa M v = M.transpose.mulVec v := rfl

theorem vecsVMTa_getRotMatVecd {q : Vec 4} (hq : qn q = 1) (v : Vec 5) :
    vecsVMTa (getRotMatVecd (quatToTensor q)) v
      = symmToVecd ((quatToTensor q).transpose * vecdToSymm v * quatToTensor q) := by
  obtain ⟨h1, h2, -⟩ := isRot_of_unit hq
  rw [vecsVMTa_eq, ← getRotMatVecd_transpose, getRotMatVecd_mulVec' (by simpa using h2)
    (by simpa using h1), Matrix.transpose_transpose]

theorem qn_getCQuat {cn : Vec 4} (hcn : qn cn = 1) (xi : Vec 3) :
    qn (getCQuat (emapToQuat xi) cn) = 1 := by
  rw [getCQuat, qn_prod, hcn, qn_emapToQuat, one_mul]

variable {E : Type*} [NormedAddCommGroup E] [NormedSpace ℝ E]

/-- derivative of the rotation tensor in the direction `u` of rotation increments -/
noncomputable def dCdir (xi : Vec 3) (cn : Vec 4) (cq : Vec 4) (u : Vec 3) : Mat 3 3 :=
  Matrix.of fun p q => ∑ w, dCmatxDxi xi cn cq p q w * u w

/-- the rotation tensor of the composed orientation -/
theorem mfd_cMatx {cn : Vec 4} {v : E → Vec 3} {x : E} {v' : E → Vec 3} (hv : VFD v x v')
    (h0 : thetaSmA ≤ vecNorm (v x)) :
    MFD (fun y => quatToTensor (getCQuat (Ecm.emapToQuat (v y)) cn)) x
      (fun h => dCdir (v x) cn (getCQuat (Ecm.emapToQuat (v x)) cn) (v' h)) := by
  have h1 := MFD.quatToTensor (VFD.quatProd cn (VFD.emapToQuat hv h0))
  refine MFD.congr h1 fun h => ?_
  ext p q
  simp only [dqt, dCdir, dCmatxDxi, dCquatDxiT, getCQuat, Matrix.of_apply]
  generalize dQuatToTensor (Ecm.quatProd cn (Ecm.emapToQuat (v x))) p q = D
  simp [Ecm.quatProd, Fin.sum_univ_four, Fin.sum_univ_three, Matrix.mulVec, dotProduct]
  ring

theorem rotIncr_FD (d : Vec 5) (w : Vec 3) {cn : Vec 4} (hcn : qn cn = 1) {v : E → Vec 3} {x : E}
    {v' : E → Vec 3} (hv : VFD v x v') (h0 : thetaSmA ≤ vecNorm (v x)) :
    VFD (fun y => vecsVMTa (getRotMatVecd (quatToTensor (getCQuat (emapToQuat (v y)) cn))) d) x
      (fun h => (dDappDxi d (v x) cn (quatToTensor (getCQuat (emapToQuat (v x)) cn))
        (getCQuat (emapToQuat (v x)) cn)).mulVec (v' h)) ∧
    VFD (fun y => vecsVMTa (quatToTensor (getCQuat (emapToQuat (v y)) cn)) w) x
      (fun h => (dWappDxi w (v x) cn (getCQuat (emapToQuat (v x)) cn)).mulVec (v' h)) := by
  have hC := mfd_cMatx (cn := cn) hv h0
  constructor
  · intro i
    have h1 := VFD.symmToVecd (MFD.conjT hC (MFD.const (Ecm.vecdToSymm d))) i
    refine (h1.congr_fun fun y => by
      beta_reduce; rw [vecsVMTa_getRotMatVecd (qn_getCQuat hcn (v y))]).congr
      fun h => ?_
    beta_reduce
    rw [Matrix.mul_zero, Matrix.zero_mul, add_zero, ← latop_eq]
    simp only [dDappDxi, dCdir, Matrix.of_apply, Matrix.mulVec, dotProduct, Fin.sum_univ_three]
    ring
  · intro i
    have h1 := VFD.mulVec hC.transpose (VFD.const w) i
    refine h1.congr fun h => ?_
    beta_reduce
    rw [Matrix.mulVec_zero, add_zero, ← wveccp_eq]
    simp only [dWappDxi, dCdir, Matrix.of_apply, Matrix.mulVec, dotProduct, Fin.sum_univ_three]
    ring

end Ecm
