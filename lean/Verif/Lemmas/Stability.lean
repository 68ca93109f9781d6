/- Helper lemmas for the stability of the implicit step: a norm weighted with the elastic stiffness, and
   the bound for one solve. -/
import Verif.Lemmas.Balance
import Verif.Lemmas.Rotation
import Mathlib.Analysis.InnerProductSpace.PiL2

namespace Ecm
open Spec Matrix

/-- euclidean norm weighted with a diagonal -/
noncomputable def wNorm (K v : Vec 5) : ℝ := Real.sqrt (∑ i, K i * v i ^ 2)

theorem vecNorm_eq_norm {n : ℕ} (v : Vec n) : vecNorm v = ‖(WithLp.toLp 2 v : EuclideanSpace ℝ (Fin n))‖ := by
  rw [EuclideanSpace.norm_eq]
  unfold vecNorm
  congr 1
  refine Finset.sum_congr rfl fun i _ => ?_
  rw [Real.norm_eq_abs, sq_abs]; ring

theorem vecNorm_add_le {n : ℕ} (a b : Vec n) : vecNorm (a + b) ≤ vecNorm a + vecNorm b := by
  rw [vecNorm_eq_norm, vecNorm_eq_norm, vecNorm_eq_norm, WithLp.toLp_add]
  exact norm_add_le _ _

theorem vecNorm_sq {n : ℕ} (v : Vec n) : vecNorm v ^ 2 = ∑ i, v i ^ 2 := by
  unfold vecNorm
  rw [Real.sq_sqrt (Finset.sum_nonneg fun i _ => mul_self_nonneg _)]
  exact Finset.sum_congr rfl fun i _ => by ring

theorem dot_le_vecNorm {n : ℕ} (a b : Vec n) : ∑ i, a i * b i ≤ vecNorm a * vecNorm b := by
  have h := Finset.sum_mul_sq_le_sq_mul_sq Finset.univ a b
  rw [← vecNorm_sq, ← vecNorm_sq, ← mul_pow] at h
  exact (abs_le_of_sq_le_sq' h (mul_nonneg (vecNorm_nonneg _) (vecNorm_nonneg _))).2

theorem vecNorm_smul {n : ℕ} (c : ℝ) (v : Vec n) : vecNorm (c • v) = |c| * vecNorm v := by
  rw [vecNorm_eq_norm, vecNorm_eq_norm, WithLp.toLp_smul, norm_smul, Real.norm_eq_abs]

theorem wNorm_nonneg (K v : Vec 5) : 0 ≤ wNorm K v := Real.sqrt_nonneg _

theorem wNorm_eq {K : Vec 5} (hK : ∀ k, 0 ≤ K k) (v : Vec 5) :
    wNorm K v = vecNorm fun i => Real.sqrt (K i) * v i := by
  unfold wNorm vecNorm
  congr 1
  refine Finset.sum_congr rfl fun i _ => ?_
  have := Real.mul_self_sqrt (hK i)
  calc K i * v i ^ 2 = (Real.sqrt (K i) * Real.sqrt (K i)) * v i ^ 2 := by rw [this]
    _ = _ := by ring

theorem wNorm_le {K : Vec 5} (hK : ∀ k, 0 ≤ K k) {κ : ℝ} (hκ : ∀ k, K k ≤ κ) (v : Vec 5) :
    wNorm K v ≤ Real.sqrt κ * vecNorm v := by
  have h0 : 0 ≤ κ := (hK 0).trans (hκ 0)
  unfold wNorm vecNorm
  rw [← Real.sqrt_mul h0, Finset.mul_sum]
  refine Real.sqrt_le_sqrt (Finset.sum_le_sum fun i _ => ?_)
  rw [← sq]
  exact mul_le_mul_of_nonneg_right (hκ i) (sq_nonneg _)

theorem wNorm_sq {K : Vec 5} (hK : ∀ k, 0 ≤ K k) (v : Vec 5) :
    wNorm K v ^ 2 = ∑ i, K i * v i ^ 2 :=
  Real.sq_sqrt (Finset.sum_nonneg fun i _ => mul_nonneg (hK i) (sq_nonneg _))

theorem wDot_le {K : Vec 5} (hK : ∀ k, 0 ≤ K k) (a b : Vec 5) :
    ∑ i, K i * a i * b i ≤ wNorm K a * wNorm K b := by
  rw [wNorm_eq hK, wNorm_eq hK]
  refine le_trans (le_of_eq ?_) (dot_le_vecNorm _ _)
  refine Finset.sum_congr rfl fun i _ => ?_
  have := Real.mul_self_sqrt (hK i)
  calc K i * a i * b i = (Real.sqrt (K i) * Real.sqrt (K i)) * a i * b i := by rw [this]
    _ = _ := by ring

/-- the length of the rotated vector is the length of the vector -/
theorem vecNorm_vecsVMTa_rot {R : Mat 3 3} (hR : R * R.transpose = 1) (v : Vec 5) :
    vecNorm (vecsVMTa (getRotMatVecd R) v) = vecNorm v := by
  have h := (getRotMatVecd_orth hR (mul_eq_one_comm.1 hR)).1
  set Q := getRotMatVecd R
  have h1 : vecNorm (vecsVMTa Q v) ^ 2 = vecNorm v ^ 2 := by
    rw [vecNorm_sq, vecNorm_sq, vecsVMTa_eq]
    have e : ∀ u : Vec 5, ∑ i, u i ^ 2 = u ⬝ᵥ u := fun u =>
      Finset.sum_congr rfl fun i _ => by ring
    rw [e, e, Matrix.dotProduct_mulVec, Matrix.vecMul_transpose, Matrix.mulVec_mulVec, h,
      Matrix.one_mulVec]
  exact (sq_eq_sq₀ (vecNorm_nonneg _) (vecNorm_nonneg _)).1 h1

namespace Updst
variable {n : ℕ} (P : Updst n)

theorem inv_epsdotScaleInv_le (hdt : 0 < P.dt) (ha : 0 < P.adotsRef) :
    1 / P.epsdotScaleInv ≤ P.adotsRef + vecNorm P.dSm + 1 / 10 ^ 6 / P.dt := by
  have hn := vecNorm_nonneg P.dSm
  have hq : 0 < 1 / 10 ^ 6 / P.dt := by positivity
  unfold epsdotScaleInv
  simp only
  split_ifs with h1 h2
  · rw [one_div_one_div]; linarith
  · rw [← div_div]; linarith
  · have hp : 0 < vecNorm P.dSm := lt_of_le_of_ne hn (Ne.symm h2)
    rcases min_choice (1 / vecNorm P.dSm) (10 ^ 6 * P.dt) with h | h <;> rw [h]
    · rw [one_div_one_div]; linarith
    · rw [← div_div]; linarith

/-- elastic strain after the step in terms of that before, for a residual `ρ` -/
theorem eF_eq (hdt : 0 < P.dt) (hv : 0 < P.detV) (x : Vec 8) (i : Fin 5) :
    P.eF x i = P.eN i + P.dt * P.aV * (vecsVMTa (P.qr5x5 x) P.dSm i + P.residE x i
      - vecsVMa P.geom.P (P.gdot x) i) := by
  have h := P.edot_eq x
  have ha := P.aV_pos hv
  have e : P.edot x i = 1 / P.dt * (P.eF x i - P.eN i) := by rw [h]; simp
  simp only [residE, e, aVri]
  field_simp
  ring

theorem taua_cubic {c11 c12 c44 : ℝ} (hel : P.el = .cubic c11 c12 c44) (x : Vec 8) (s : Fin n) :
    P.taua x s = P.aVri * ∑ i, P.el.kDiag i * P.eF x i * P.geom.P i s := by
  unfold taua vecsVaTM elastNEtoT
  rw [Finset.mul_sum]
  refine Finset.sum_congr rfl fun i _ => ?_
  simp only [hel, Elast.eval, vecsVxa]
  fin_cases i <;> simp <;> ring

/-- one step never adds more elastic energy norm than was supplied, whatever the time step -/
theorem wNorm_step {c11 c12 c44 : ℝ} (hel : P.el = .cubic c11 c12 c44) (hK : ∀ k, 0 < P.el.kDiag k)
    {κ : ℝ} (hκ : ∀ k, P.el.kDiag k ≤ κ) (hdt : 0 < P.dt) (hv : 0 < P.detV) (hcn : qn P.cN = 1)
    (x : Vec 8) (hd : ∀ s, 0 ≤ P.taua x s * P.gdot x s) :
    wNorm P.el.kDiag (P.eF x) ≤ wNorm P.el.kDiag P.eN
      + P.dt * P.aV * (Real.sqrt κ * (vecNorm P.dSm + vecNorm (P.residE x))) := by
  have hK' : ∀ k, 0 ≤ P.el.kDiag k := fun k => (hK k).le
  have ha := P.aV_pos hv
  set K := P.el.kDiag with hKd
  set D := vecsVMTa (P.qr5x5 x) P.dSm with hD
  set e' := P.eF x with he'
  have hR := isRot_of_unit (P.qn_cQuat hcn x)
  have hDn : vecNorm D = vecNorm P.dSm := vecNorm_vecsVMTa_rot hR.1 _
  -- plastic power
  have hpl : 0 ≤ ∑ i, K i * e' i * vecsVMa P.geom.P (P.gdot x) i := by
    have : ∑ i, K i * e' i * vecsVMa P.geom.P (P.gdot x) i
        = P.aV * ∑ s, P.taua x s * P.gdot x s := by
      simp only [P.taua_cubic hel, vecsVMa, Finset.mul_sum, Finset.sum_mul]
      rw [Finset.sum_comm]
      refine Finset.sum_congr rfl fun s _ => Finset.sum_congr rfl fun i _ => ?_
      rw [← hKd, ← he']
      unfold aVri
      field_simp
    rw [this]
    exact mul_nonneg ha.le (Finset.sum_nonneg fun s _ => hd s)
  have hsq : wNorm K e' ^ 2 = ∑ i, K i * e' i * P.eN i
      + P.dt * P.aV * (∑ i, K i * e' i * (D + P.residE x) i)
      - P.dt * P.aV * ∑ i, K i * e' i * vecsVMa P.geom.P (P.gdot x) i := by
    rw [wNorm_sq hK', Finset.mul_sum, Finset.mul_sum, ← Finset.sum_add_distrib,
      ← Finset.sum_sub_distrib]
    refine Finset.sum_congr rfl fun i _ => ?_
    have := P.eF_eq hdt hv x i
    rw [← he', ← hD] at this
    calc K i * e' i ^ 2 = K i * e' i * e' i := by ring
      _ = K i * e' i * (P.eN i + P.dt * P.aV * (D i + P.residE x i
            - vecsVMa P.geom.P (P.gdot x) i)) := by rw [← this]
      _ = _ := by rw [Pi.add_apply]; ring
  have h1 := wDot_le hK' e' P.eN
  have h2 := wDot_le hK' e' (D + P.residE x)
  have h3 : wNorm K (D + P.residE x) ≤ Real.sqrt κ * (vecNorm P.dSm + vecNorm (P.residE x)) := by
    refine (wNorm_le hK' hκ _).trans (mul_le_mul_of_nonneg_left ?_ (Real.sqrt_nonneg _))
    rw [← hDn]; exact vecNorm_add_le _ _
  have hda : 0 < P.dt * P.aV := mul_pos hdt ha
  rcases (wNorm_nonneg K e').eq_or_lt with h0 | h0
  · rw [← h0]
    have := wNorm_nonneg K P.eN
    have := vecNorm_nonneg P.dSm
    have := vecNorm_nonneg (P.residE x)
    positivity
  · refine le_of_mul_le_mul_left ?_ h0
    calc wNorm K e' * wNorm K e' = wNorm K e' ^ 2 := by ring
      _ ≤ wNorm K e' * wNorm K P.eN + P.dt * P.aV * (wNorm K e' * wNorm K (D + P.residE x)) := by
          rw [hsq]
          have := mul_le_mul_of_nonneg_left h2 hda.le
          have := mul_nonneg hda.le hpl
          linarith
      _ = wNorm K e' * (wNorm K P.eN + P.dt * P.aV * wNorm K (D + P.residE x)) := by ring
      _ ≤ _ := by
          have := mul_le_mul_of_nonneg_left h3 hda.le
          exact mul_le_mul_of_nonneg_left (by linarith) h0.le

/-- differences of resolved shear stresses are linear in differences of elastic strains -/
theorem taua_sub (x y : Vec 8) (s : Fin n) :
    P.taua x s - P.taua y s = P.aVri * ∑ i, P.el.kDiag i * (P.eF x i - P.eF y i) * P.geom.P i s := by
  unfold taua vecsVaTM elastNEtoT
  rw [Finset.mul_sum, ← Finset.sum_sub_distrib]
  refine Finset.sum_congr rfl fun i _ => ?_
  cases h : P.el <;> simp only [Elast.eval, vecsVxa] <;> fin_cases i <;> simp <;> ring

/-- two solves of the same problem: the elastic strains differ by no more than the rotated rates and the
    residuals allow -/
theorem wNorm_sub (hK : ∀ k, 0 < P.el.kDiag k)
    {κ : ℝ} (hκ : ∀ k, P.el.kDiag k ≤ κ) (hdt : 0 < P.dt) (hv : 0 < P.detV)
    (x y : Vec 8) (hd : ∀ s, 0 ≤ (P.taua x s - P.taua y s) * (P.gdot x s - P.gdot y s)) :
    wNorm P.el.kDiag (P.eF x - P.eF y) ≤ P.dt * P.aV * (Real.sqrt κ *
      (vecNorm (vecsVMTa (P.qr5x5 x) P.dSm - vecsVMTa (P.qr5x5 y) P.dSm)
        + (vecNorm (P.residE x) + vecNorm (P.residE y)))) := by
  have hK' : ∀ k, 0 ≤ P.el.kDiag k := fun k => (hK k).le
  have ha := P.aV_pos hv
  set K := P.el.kDiag with hKd
  set Dx := vecsVMTa (P.qr5x5 x) P.dSm with hDx
  set Dy := vecsVMTa (P.qr5x5 y) P.dSm with hDy
  set u := P.eF x - P.eF y with hu
  set r := P.residE x - P.residE y with hr
  set g := P.gdot x - P.gdot y with hg
  have hpl : 0 ≤ ∑ i, K i * u i * vecsVMa P.geom.P g i := by
    have : ∑ i, K i * u i * vecsVMa P.geom.P g i
        = P.aV * ∑ s, (P.taua x s - P.taua y s) * g s := by
      simp only [P.taua_sub, vecsVMa, Finset.mul_sum, Finset.sum_mul]
      rw [Finset.sum_comm]
      refine Finset.sum_congr rfl fun s _ => Finset.sum_congr rfl fun i _ => ?_
      rw [← hKd, hu, Pi.sub_apply]
      unfold aVri
      field_simp
    rw [this]
    exact mul_nonneg ha.le (Finset.sum_nonneg fun s _ => hd s)
  have hui : ∀ i, u i = P.dt * P.aV * ((Dx - Dy + r) i - vecsVMa P.geom.P g i) := by
    intro i
    have hx := P.eF_eq hdt hv x i
    have hy := P.eF_eq hdt hv y i
    have hgi : vecsVMa P.geom.P g i = vecsVMa P.geom.P (P.gdot x) i - vecsVMa P.geom.P (P.gdot y) i := by
      simp only [vecsVMa, ← Finset.sum_sub_distrib, hg, Pi.sub_apply, mul_sub]
    rw [hgi, hu, Pi.sub_apply, hx, hy, hr, Pi.add_apply, Pi.sub_apply, Pi.sub_apply]
    ring
  have hsq : wNorm K u ^ 2 = P.dt * P.aV * (∑ i, K i * u i * (Dx - Dy + r) i)
      - P.dt * P.aV * ∑ i, K i * u i * vecsVMa P.geom.P g i := by
    rw [wNorm_sq hK', Finset.mul_sum, Finset.mul_sum, ← Finset.sum_sub_distrib]
    refine Finset.sum_congr rfl fun i _ => ?_
    calc K i * u i ^ 2 = K i * u i * u i := by ring
      _ = K i * u i * (P.dt * P.aV * ((Dx - Dy + r) i - vecsVMa P.geom.P g i)) := by rw [← hui]
      _ = _ := by ring
  have h2 := wDot_le hK' u (Dx - Dy + r)
  have hrn : vecNorm r ≤ vecNorm (P.residE x) + vecNorm (P.residE y) := by
    have e : r = P.residE x + (-1 : ℝ) • P.residE y := by rw [hr]; module
    rw [e]
    refine (vecNorm_add_le _ _).trans (le_of_eq ?_)
    rw [vecNorm_smul]; norm_num
  have h3 : wNorm K (Dx - Dy + r) ≤ Real.sqrt κ * (vecNorm (Dx - Dy)
      + (vecNorm (P.residE x) + vecNorm (P.residE y))) :=
    (wNorm_le hK' hκ _).trans (mul_le_mul_of_nonneg_left
      ((vecNorm_add_le _ _).trans (by linarith)) (Real.sqrt_nonneg _))
  have hda : 0 < P.dt * P.aV := mul_pos hdt ha
  rcases (wNorm_nonneg K u).eq_or_lt with h0 | h0
  · rw [← h0]
    have := vecNorm_nonneg (Dx - Dy)
    have := vecNorm_nonneg (P.residE x)
    have := vecNorm_nonneg (P.residE y)
    positivity
  · refine le_of_mul_le_mul_left ?_ h0
    calc wNorm K u * wNorm K u = wNorm K u ^ 2 := by ring
      _ ≤ P.dt * P.aV * (wNorm K u * wNorm K (Dx - Dy + r)) := by
          rw [hsq]
          have := mul_le_mul_of_nonneg_left h2 hda.le
          have := mul_nonneg hda.le hpl
          linarith
      _ = wNorm K u * (P.dt * P.aV * wNorm K (Dx - Dy + r)) := by ring
      _ ≤ _ := by
          have := mul_le_mul_of_nonneg_left h3 hda.le
          exact mul_le_mul_of_nonneg_left (by linarith) h0.le

/-- the unscaled strain-rate residual at a point the solver accepts -/
theorem residE_le (hdt : 0 < P.dt) (ha : 0 < P.adotsRef) {tol : ℝ} {x : Vec 8}
    (h : vecNorm (P.resid x) ≤ tol) :
    vecNorm (P.residE x) ≤ tol * (P.adotsRef + vecNorm P.dSm + 1 / 10 ^ 6 / P.dt) := by
  have hs := P.epsdotScaleInv_pos hdt ha
  have h0 : 0 ≤ tol := (vecNorm_nonneg _).trans h
  have h1 : P.epsdotScaleInv * vecNorm (P.residE x) ≤ vecNorm (P.resid x) := by
    have e : P.epsdotScaleInv * vecNorm (P.residE x) = vecNorm (P.epsdotScaleInv • P.residE x) := by
      rw [vecNorm_smul, abs_of_pos hs]
    rw [e]
    unfold vecNorm
    refine Real.sqrt_le_sqrt ?_
    have h8 : ∑ i : Fin 8, P.resid x i * P.resid x i
        = (∑ i : Fin 5, P.resid x (iE i) * P.resid x (iE i))
          + ∑ i : Fin 3, P.resid x (iR i) * P.resid x (iR i) := by
      simp [Fin.sum_univ_succ, iE, iR]; ring
    rw [h8]
    have h9 : 0 ≤ ∑ i : Fin 3, P.resid x (iR i) * P.resid x (iR i) :=
      Finset.sum_nonneg fun i _ => mul_self_nonneg _
    have h10 : ∑ i : Fin 5, (P.epsdotScaleInv • P.residE x) i * (P.epsdotScaleInv • P.residE x) i
        = ∑ i : Fin 5, P.resid x (iE i) * P.resid x (iE i) := by
      refine Finset.sum_congr rfl fun i _ => ?_
      simp [resid]
    rw [h10]; linarith
  have h2 : vecNorm (P.residE x) ≤ tol * (1 / P.epsdotScaleInv) := by
    rw [mul_one_div, le_div_iff₀ hs]; linarith
  exact h2.trans (mul_le_mul_of_nonneg_left (P.inv_epsdotScaleInv_le hdt ha) h0)

end Updst
end Ecm
