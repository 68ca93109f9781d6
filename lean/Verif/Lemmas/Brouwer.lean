/- Brouwer's fixed point theorem, by the volume argument of Milnor and Rogers. -/
import Mathlib.MeasureTheory.Function.Jacobian
import Mathlib.MeasureTheory.Measure.Haar.InnerProductSpace
import Mathlib.LinearAlgebra.Matrix.Polynomial
import Mathlib.LinearAlgebra.Lagrange
import Mathlib.Geometry.Manifold.SmoothApprox
import Mathlib.Analysis.Calculus.MeanValue
import Mathlib.Analysis.Calculus.InverseFunctionTheorem.FDeriv
import Mathlib.Analysis.InnerProductSpace.Calculus
import Mathlib.Analysis.SpecialFunctions.Sqrt

namespace Ecm.Brouwer
open Set Metric MeasureTheory Filter Topology Polynomial

/-- Euclidean space -/
abbrev E (n : ℕ) := EuclideanSpace ℝ (Fin n)

variable {n : ℕ}

/-- `det (1 + t A)` is a polynomial of degree at most `n` in `t` -/
theorem det_poly (A : E n →L[ℝ] E n) :
    ∃ p : ℝ[X], p.degree < (n + 1 : ℕ) ∧
      ∀ t : ℝ, p.eval t = (ContinuousLinearMap.id ℝ (E n) + t • A).det := by
  classical
  let b := (EuclideanSpace.basisFun (Fin n) ℝ).toBasis
  let M := LinearMap.toMatrix b b (A : E n →ₗ[ℝ] E n)
  refine ⟨Matrix.det ((X : ℝ[X]) • M.map C + (1 : Matrix (Fin n) (Fin n) ℝ).map C), ?_, fun t => ?_⟩
  · refine lt_of_le_of_lt Polynomial.degree_le_natDegree ?_
    have h := Polynomial.natDegree_det_X_add_C_le M (1 : Matrix (Fin n) (Fin n) ℝ)
    rw [Fintype.card_fin] at h
    exact_mod_cast Nat.lt_succ_of_le h
  · rw [← Polynomial.coe_evalRingHom, RingHom.map_det]
    have e1 : (ContinuousLinearMap.id ℝ (E n) + t • A).det
        = Matrix.det (LinearMap.toMatrix b b
          ((ContinuousLinearMap.id ℝ (E n) + t • A : E n →L[ℝ] E n) : E n →ₗ[ℝ] E n)) := by
      rw [LinearMap.det_toMatrix]
    rw [e1]
    congr 1
    have e2 : ((ContinuousLinearMap.id ℝ (E n) + t • A : E n →L[ℝ] E n) : E n →ₗ[ℝ] E n)
        = LinearMap.id + t • (A : E n →ₗ[ℝ] E n) := by ext; simp
    have e3 : LinearMap.toMatrix b b (LinearMap.id + t • (A : E n →ₗ[ℝ] E n)) = 1 + t • M := by
      rw [map_add, map_smul, LinearMap.toMatrix_id]
    rw [e2, e3]
    ext i j
    by_cases hij : i = j
    · subst hij; simp; ring
    · simp [hij]; ring

/-- evaluation at one from values at any `n + 1` points -/
theorem interp {s : Finset ℝ} (hs : s.card = n + 1) :
    ∃ c : ℝ → ℝ, ∀ p : ℝ[X], p.degree < (n + 1 : ℕ) → p.eval 1 = ∑ t ∈ s, c t * p.eval t := by
  refine ⟨fun t => (Lagrange.basis s id t).eval 1, fun p hp => ?_⟩
  have h := Lagrange.eq_interpolate (s := s) (v := id) (Set.injOn_id _) (f := p) (by rw [hs]; exact hp)
  conv_lhs => rw [h]
  rw [Lagrange.interpolate_apply, Polynomial.eval_finsetSum]
  refine Finset.sum_congr rfl fun t _ => ?_
  simp [mul_comm]

/-- there is no continuously differentiable retraction of the ball onto the sphere -/
theorem no_retraction {U : Set (E n)} (hU : IsOpen U) (hBU : closedBall (0 : E n) 1 ⊆ U) {f : E n → E n}
    (hf : ContDiffOn ℝ 1 f U) (h1 : ∀ x ∈ closedBall (0 : E n) 1, ‖f x‖ = 1)
    (h2 : ∀ x, ‖x‖ = 1 → f x = x) : False := by
  set B := ball (0 : E n) 1 with hB
  set CB := closedBall (0 : E n) 1 with hCB
  have hBC : B ⊆ CB := ball_subset_closedBall
  let g' : E n → E n →L[ℝ] E n := fun x => fderiv ℝ f x - ContinuousLinearMap.id ℝ (E n)
  have hfd : ∀ x ∈ U, HasFDerivAt f (fderiv ℝ f x) x := fun x hx =>
    ((hf.contDiffAt (hU.mem_nhds hx)).differentiableAt (by norm_num)).hasFDerivAt
  have hgc : ContinuousOn g' CB :=
    (((hf.continuousOn_fderiv_of_isOpen hU le_rfl).mono hBU).sub continuousOn_const)
  obtain ⟨C, hC⟩ : ∃ C : ℝ, ∀ x ∈ CB, ‖g' x‖ ≤ C :=
    (isCompact_closedBall (0 : E n) 1).exists_bound_of_continuousOn hgc
  have hC0 : 0 ≤ C := (norm_nonneg _).trans (hC 0 (by simp [hCB]))
  -- lipschitz
  let g : E n → E n := fun x => f x - x
  have hgd : ∀ x ∈ U, HasFDerivAt g (g' x) x := fun x hx => (hfd x hx).sub (hasFDerivAt_id x)
  have hlip : ∀ x ∈ CB, ∀ y ∈ CB, ‖g y - g x‖ ≤ C * ‖y - x‖ := fun x hx y hy =>
    (convex_closedBall (0 : E n) 1).norm_image_sub_le_of_norm_hasFDerivWithin_le
      (fun z hz => (hgd z (hBU hz)).hasFDerivWithinAt) (fun z hz => hC z hz) hx hy
  -- determinant near the identity
  obtain ⟨δ, hδ, hdet⟩ : ∃ δ > 0, ∀ A : E n →L[ℝ] E n, ‖A‖ < δ →
      0 < (ContinuousLinearMap.id ℝ (E n) + A).det := by
    have hc : Continuous fun A : E n →L[ℝ] E n => (ContinuousLinearMap.id ℝ (E n) + A).det :=
      ContinuousLinearMap.continuous_det.comp (continuous_const.add continuous_id)
    have h0 : (0 : ℝ) < (ContinuousLinearMap.id ℝ (E n) + (0 : E n →L[ℝ] E n)).det := by
      rw [add_zero]
      have : (ContinuousLinearMap.id ℝ (E n)).det = 1 := LinearMap.det_id
      rw [this]; exact one_pos
    obtain ⟨δ, hδ, h⟩ := Metric.eventually_nhds_iff.1
      (hc.continuousAt.eventually (lt_mem_nhds h0))
    exact ⟨δ, hδ, fun A hA => h (by simpa using hA)⟩
  have key : ∀ t : ℝ, 0 < t → t < 1 → t * (C + 1) < 1 → t * (C + 1) < δ →
      ∫ x in B, (ContinuousLinearMap.id ℝ (E n) + t • g' x).det = (volume B).toReal := by
    intro t ht0 ht1 htC htδ
    let F : E n → E n := fun x => x + t • g x
    have hFd : ∀ x ∈ U, HasFDerivAt F (ContinuousLinearMap.id ℝ (E n) + t • g' x) x := fun x hx =>
      (hasFDerivAt_id x).add ((hgd x hx).const_smul t)
    have hpos : ∀ x ∈ CB, 0 < (ContinuousLinearMap.id ℝ (E n) + t • g' x).det := fun x hx => by
      refine hdet _ ?_
      rw [norm_smul, Real.norm_of_nonneg ht0.le]
      nlinarith [hC x hx]
    have hinj : InjOn F CB := by
      intro x hx y hy hxy
      have h3 : x - y = t • (g y - g x) := by
        have : x + t • g x = y + t • g y := hxy
        rw [smul_sub]; rw [sub_eq_sub_iff_add_eq_add, this]; abel
      have h4 : ‖x - y‖ ≤ t * (C * ‖x - y‖) := by
        calc ‖x - y‖ = ‖t • (g y - g x)‖ := by rw [h3]
          _ = t * ‖g y - g x‖ := by rw [norm_smul, Real.norm_of_nonneg ht0.le]
          _ ≤ t * (C * ‖y - x‖) := mul_le_mul_of_nonneg_left (hlip x hx y hy) ht0.le
          _ = _ := by rw [norm_sub_rev]
      by_contra hne
      have h5 : 0 < ‖x - y‖ := norm_pos_iff.2 (sub_ne_zero.2 hne)
      nlinarith
    have hFe : ∀ x, F x = (1 - t) • x + t • f x := fun x => by
      simp only [F, g, smul_sub, sub_smul, one_smul]; abel
    have hmap : ∀ x ∈ B, F x ∈ B := by
      intro x hx
      rw [hB, mem_ball_zero_iff] at hx ⊢
      rw [hFe]
      calc ‖(1 - t) • x + t • f x‖ ≤ ‖(1 - t) • x‖ + ‖t • f x‖ := norm_add_le _ _
        _ = (1 - t) * ‖x‖ + t * 1 := by
            rw [norm_smul, norm_smul, Real.norm_of_nonneg ht0.le, Real.norm_of_nonneg (by linarith),
              h1 x (by rw [hCB, mem_closedBall_zero_iff]; exact hx.le)]
        _ < 1 := by nlinarith
    have hstrict : ∀ x ∈ B, F '' B ∈ 𝓝 (F x) := by
      intro x hx
      have hcd : ContDiffAt ℝ 1 F x := by
        have := hf.contDiffAt (hU.mem_nhds (hBU (hBC hx)))
        exact contDiffAt_id.add ((this.sub contDiffAt_id).const_smul t)
      have hs := hcd.hasStrictFDerivAt' (hFd x (hBU (hBC hx))) one_ne_zero
      have hne : (ContinuousLinearMap.id ℝ (E n) + t • g' x).det ≠ 0 := (hpos x (hBC hx)).ne'
      have hs2 : HasStrictFDerivAt F
          ((ContinuousLinearMap.toContinuousLinearEquivOfDetNeZero _ hne : E n ≃L[ℝ] E n) :
            E n →L[ℝ] E n) x := by simpa using hs
      rw [← hs2.map_nhds_eq_of_equiv]
      exact image_mem_map (isOpen_ball.mem_nhds hx)
    have hopen : IsOpen (F '' B) := isOpen_iff_mem_nhds.2 fun y ⟨x, hx, hxy⟩ => hxy ▸ hstrict x hx
    have hFc : ContinuousOn F CB := fun x hx => (hFd x (hBU hx)).continuousAt.continuousWithinAt
    have himg : F '' B = B := by
      refine Subset.antisymm (image_subset_iff.2 hmap) ?_
      refine (convex_ball (0 : E n) 1).isPreconnected.subset_of_closure_inter_subset hopen ?_ ?_
      · exact ⟨F 0, hmap 0 (by simp [hB]), mem_image_of_mem F (by simp [hB])⟩
      · rintro y ⟨hy1, hy2⟩
        have hcl : IsClosed (F '' CB) :=
          ((isCompact_closedBall (0 : E n) 1).image_of_continuousOn hFc).isClosed
        obtain ⟨x, hx, rfl⟩ := closure_minimal (image_mono hBC) hcl hy1
        rcases lt_or_eq_of_le (mem_closedBall_zero_iff.1 hx) with h | h
        · exact mem_image_of_mem F (mem_ball_zero_iff.2 h)
        · have : F x = x := by simp [F, g, h2 x h]
          rw [this] at hy2
          exact absurd h (mem_ball_zero_iff.1 hy2).ne
    have hint := lintegral_abs_det_fderiv_eq_addHaar_image (μ := volume) (f := F) measurableSet_ball
      (fun x hx => (hFd x (hBU (hBC hx))).hasFDerivWithinAt) (hinj.mono hBC)
    rw [himg] at hint
    rw [← hint, integral_eq_lintegral_of_nonneg_ae]
    · congr 1
      refine setLIntegral_congr_fun measurableSet_ball fun x hx => ?_
      rw [abs_of_pos (hpos x (hBC hx))]
    · exact (ae_restrict_iff' measurableSet_ball).2 (Eventually.of_forall fun x hx => (hpos x (hBC hx)).le)
    · have : ContinuousOn (fun x => (ContinuousLinearMap.id ℝ (E n) + t • g' x).det) B :=
        ContinuousLinearMap.continuous_det.comp_continuousOn
          (continuousOn_const.add ((hgc.mono hBC).const_smul t))
      exact this.aestronglyMeasurable measurableSet_ball
  -- at `t = 1` the determinant vanishes
  have hzero : ∀ x ∈ B, (ContinuousLinearMap.id ℝ (E n) + (1 : ℝ) • g' x).det = 0 := by
    intro x hx
    have e : ContinuousLinearMap.id ℝ (E n) + (1 : ℝ) • g' x = fderiv ℝ f x := by simp [g']
    rw [e]
    by_contra hne
    have hsq : HasFDerivAt (fun y => ‖f y‖ ^ 2) (2 • (innerSL ℝ (f x)).comp (fderiv ℝ f x)) x :=
      (hfd x (hBU (hBC hx))).norm_sq
    have hcst : (fun y => ‖f y‖ ^ 2) =ᶠ[𝓝 x] fun _ => 1 := by
      filter_upwards [isOpen_ball.mem_nhds hx] with y hy
      rw [h1 y (hBC hy)]; norm_num
    have h0 := hsq.unique ((hasFDerivAt_const (1 : ℝ) x).congr_of_eventuallyEq hcst)
    let L := ContinuousLinearMap.toContinuousLinearEquivOfDetNeZero _ hne
    have h3 := DFunLike.congr_fun h0 (L.symm (f x))
    have h4 : fderiv ℝ f x (L.symm (f x)) = f x := L.apply_symm_apply (f x)
    simp [h4] at h3
    have := h1 x (hBC hx)
    rw [h3, norm_zero] at this
    exact zero_ne_one this
  -- interpolation
  obtain ⟨τ, hτ0, hτ⟩ : ∃ τ > 0, ∀ t, 0 < t → t < τ → t < 1 ∧ t * (C + 1) < 1 ∧ t * (C + 1) < δ := by
    have hC1 : 0 < C + 1 := by linarith
    refine ⟨min 1 (min (1 / (C + 1)) (δ / (C + 1))), by positivity, fun t _ ht => ?_⟩
    rw [lt_min_iff, lt_min_iff, lt_div_iff₀ hC1, lt_div_iff₀ hC1] at ht
    exact ht
  obtain ⟨s, hs1, hs2⟩ := (Set.Ioo_infinite hτ0).exists_subset_card_eq (n + 1)
  obtain ⟨c, hc⟩ := interp (n := n) hs2
  have hsum : ∑ t ∈ s, c t = 1 := by
    have := hc 1 (by rw [Polynomial.degree_one]; exact_mod_cast Nat.succ_pos n)
    simpa using this.symm
  have hdetx : ∀ x, (ContinuousLinearMap.id ℝ (E n) + (1 : ℝ) • g' x).det
      = ∑ t ∈ s, c t * (ContinuousLinearMap.id ℝ (E n) + t • g' x).det := by
    intro x
    obtain ⟨p, hp, hpe⟩ := det_poly (g' x)
    rw [← hpe, hc p hp]
    exact Finset.sum_congr rfl fun t _ => by rw [hpe]
  have hI0 : ∫ x in B, (ContinuousLinearMap.id ℝ (E n) + (1 : ℝ) • g' x).det = 0 :=
    (setIntegral_congr_fun measurableSet_ball hzero).trans (by simp)
  have hint : ∀ t : ℝ, IntegrableOn (fun x => (ContinuousLinearMap.id ℝ (E n) + t • g' x).det) B := by
    intro t
    have : ContinuousOn (fun x => (ContinuousLinearMap.id ℝ (E n) + t • g' x).det) CB :=
      ContinuousLinearMap.continuous_det.comp_continuousOn
        (continuousOn_const.add (hgc.const_smul t))
    exact (this.integrableOn_compact (isCompact_closedBall (0 : E n) 1)).mono_set hBC
  have hI1 : ∫ x in B, (ContinuousLinearMap.id ℝ (E n) + (1 : ℝ) • g' x).det = (volume B).toReal := by
    simp only [hdetx]
    rw [integral_finsetSum _ fun t _ => (hint t).const_mul (c t)]
    have : ∀ t ∈ s, ∫ x in B, c t * (ContinuousLinearMap.id ℝ (E n) + t • g' x).det
        = c t * (volume B).toReal := by
      intro t ht
      obtain ⟨ht0, htτ⟩ := hs1 ht
      obtain ⟨a1, a2, a3⟩ := hτ t ht0 htτ
      rw [integral_const_mul, key t ht0 a1 a2 a3]
    rw [Finset.sum_congr rfl this, ← Finset.sum_mul, hsum, one_mul]
  rw [hI0] at hI1
  have : 0 < (volume B).toReal :=
    ENNReal.toReal_pos (measure_ball_pos volume 0 one_pos).ne' measure_ball_lt_top.ne
  linarith

/-- a continuously differentiable map of the ball into itself has a fixed point -/
theorem smooth_fixed {g : E n → E n} (hg : ContDiff ℝ 1 g)
    (hm : ∀ x ∈ closedBall (0 : E n) 1, ‖g x‖ ≤ 1) : ∃ x ∈ closedBall (0 : E n) 1, g x = x := by
  by_contra hcon
  push Not at hcon
  let u : E n → E n := fun x => x - g x
  let q : E n → ℝ := fun x => inner ℝ x (u x)
  let dsc : E n → ℝ := fun x => q x ^ 2 + ‖u x‖ ^ 2 * (1 - ‖x‖ ^ 2)
  let f : E n → E n := fun x => x + ((-q x + Real.sqrt (dsc x)) / ‖u x‖ ^ 2) • u x
  have hu : ContDiff ℝ 1 u := contDiff_id.sub hg
  have hq : ContDiff ℝ 1 q := contDiff_id.inner ℝ hu
  have hd : ContDiff ℝ 1 dsc :=
    (hq.pow 2).add ((hu.norm_sq ℝ).mul (contDiff_const.sub (contDiff_id.norm_sq ℝ)))
  let U : Set (E n) := {x | 0 < ‖u x‖ ^ 2} ∩ {x | 0 < dsc x}
  have hU : IsOpen U := (isOpen_lt continuous_const (hu.norm_sq ℝ).continuous).inter
    (isOpen_lt continuous_const hd.continuous)
  have hqs : ∀ x, ‖x‖ = 1 → ‖g x‖ ≤ 1 → g x ≠ x → 0 < q x := by
    intro x hx hgx hne
    have e : q x = 1 - inner ℝ x (g x) := by
      simp only [q, u, inner_sub_right, real_inner_self_eq_norm_sq, hx]; norm_num
    have h1 : inner ℝ x (g x) ≤ 1 := by
      refine (real_inner_le_norm _ _).trans ?_
      rw [hx, one_mul]; exact hgx
    rcases h1.lt_or_eq with h2 | h2
    · rw [e]; linarith
    · exfalso
      apply hne
      have h3 : ‖g x - x‖ ^ 2 ≤ 0 := by
        rw [norm_sub_sq_real, real_inner_comm, h2, hx]
        nlinarith [norm_nonneg (g x)]
      have h4 : ‖g x - x‖ = 0 := by nlinarith [norm_nonneg (g x - x)]
      exact sub_eq_zero.1 (norm_eq_zero.1 h4)
  have hun : ∀ x ∈ closedBall (0 : E n) 1, 0 < ‖u x‖ ^ 2 := fun x hx => by
    have : u x ≠ 0 := sub_ne_zero.2 (hcon x hx).symm
    have := norm_pos_iff.2 this
    positivity
  have hBU : closedBall (0 : E n) 1 ⊆ U := by
    intro x hx
    refine ⟨hun x hx, ?_⟩
    show 0 < q x ^ 2 + ‖u x‖ ^ 2 * (1 - ‖x‖ ^ 2)
    rcases lt_or_eq_of_le (mem_closedBall_zero_iff.1 hx) with h | h
    · have h1 : 0 < 1 - ‖x‖ ^ 2 := by nlinarith [norm_nonneg x]
      have := mul_pos (hun x hx) h1
      positivity
    · have := hqs x h (hm x hx) (hcon x hx)
      rw [h]; norm_num
      exact pow_pos this 2
  refine no_retraction hU hBU (f := f) ?_ ?_ ?_
  · intro x hx
    have hx1 : ‖u x‖ ^ 2 ≠ 0 := (show 0 < ‖u x‖ ^ 2 from hx.1).ne'
    have hx2 : dsc x ≠ 0 := (show 0 < dsc x from hx.2).ne'
    refine ContDiffAt.contDiffWithinAt ?_
    exact contDiffAt_id.add ((((hq.contDiffAt.neg).add (hd.contDiffAt.sqrt hx2)).div
      (hu.norm_sq ℝ).contDiffAt hx1).smul hu.contDiffAt)
  · intro x hx
    have h1 := hun x hx
    have h2 : 0 ≤ dsc x := (hBU hx).2.le
    have h3 : ‖f x‖ ^ 2 = 1 := by
      simp only [f]
      rw [norm_add_sq_real, norm_smul, mul_pow, inner_smul_right, Real.norm_eq_abs, sq_abs]
      show ‖x‖ ^ 2 + 2 * ((-q x + Real.sqrt (dsc x)) / ‖u x‖ ^ 2 * q x)
        + ((-q x + Real.sqrt (dsc x)) / ‖u x‖ ^ 2) ^ 2 * ‖u x‖ ^ 2 = 1
      have h4 := Real.sq_sqrt h2
      have h5 : dsc x = q x ^ 2 + ‖u x‖ ^ 2 * (1 - ‖x‖ ^ 2) := rfl
      generalize Real.sqrt (dsc x) = r at *
      rw [h5] at h4
      generalize ‖u x‖ ^ 2 = v at *
      generalize q x = p at *
      generalize ‖x‖ ^ 2 = w at *
      field_simp
      nlinarith
    have := norm_nonneg (f x)
    nlinarith
  · intro x hx
    have hxB : x ∈ closedBall (0 : E n) 1 := by rw [mem_closedBall_zero_iff, hx]
    have h1 := hqs x hx (hm x hxB) (hcon x hxB)
    have h2 : dsc x = q x ^ 2 := by simp [dsc, hx]
    simp only [f, h2, Real.sqrt_sq h1.le]
    simp

/-- Brouwer's fixed point theorem for a bounded continuous map -/
theorem fixed {g : E n → E n} (hg : Continuous g) {R : ℝ} (hR : 0 < R) (hm : ∀ x, ‖g x‖ ≤ R) :
    ∃ x, ‖x‖ ≤ R ∧ g x = x := by
  by_contra hcon
  push Not at hcon
  have hne : (closedBall (0 : E n) R).Nonempty := ⟨0, by simp [hR.le]⟩
  obtain ⟨x0, hx0, hmin⟩ := (isCompact_closedBall (0 : E n) R).exists_isMinOn hne
    (f := fun x => ‖g x - x‖) (hg.sub continuous_id).norm.continuousOn
  set ε := ‖g x0 - x0‖ with hε
  have hε0 : 0 < ε := norm_pos_iff.2 (sub_ne_zero.2 (hcon x0 (mem_closedBall_zero_iff.1 hx0)))
  obtain ⟨p, hp, hpd, -⟩ := hg.exists_contDiff_approx 1 (continuous_const (y := ε / 4))
    (fun _ => by positivity)
  have hRe : 0 < R + ε / 4 := by positivity
  obtain ⟨y, hy, hfix⟩ := smooth_fixed (g := fun y => (R + ε / 4)⁻¹ • p (R • y))
    ((hp.comp (contDiff_id.const_smul R)).const_smul _) (fun y _ => by
      rw [norm_smul, norm_inv, Real.norm_of_nonneg hRe.le, inv_mul_le_iff₀ hRe, mul_one]
      have h1 := hpd (R • y)
      rw [dist_eq_norm] at h1
      have h2 := norm_add_le (p (R • y) - g (R • y)) (g (R • y))
      rw [sub_add_cancel] at h2
      linarith [hm (R • y)])
  have hyn := mem_closedBall_zero_iff.1 hy
  have hxn : ‖R • y‖ ≤ R := by
    rw [norm_smul, Real.norm_of_nonneg hR.le]; nlinarith
  have h1 : ε ≤ ‖g (R • y) - R • y‖ := hmin (mem_closedBall_zero_iff.2 hxn)
  have h2 : p (R • y) = (R + ε / 4) • y := by
    have : (R + ε / 4) • ((R + ε / 4)⁻¹ • p (R • y)) = (R + ε / 4) • y := by
      have h := congrArg (fun z => (R + ε / 4) • z) hfix
      exact h
    rwa [smul_smul, mul_inv_cancel₀ hRe.ne', one_smul] at this
  have h3 := hpd (R • y)
  rw [dist_eq_norm] at h3
  have h4 : g (R • y) - R • y = -(p (R • y) - g (R • y)) + (ε / 4) • y := by
    rw [h2, add_smul]; abel
  have h5 : ‖(ε / 4) • y‖ ≤ ε / 4 := by
    rw [norm_smul, Real.norm_of_nonneg (by positivity)]; nlinarith
  have h6 := norm_add_le (-(p (R • y) - g (R • y))) ((ε / 4) • y)
  rw [← h4, norm_neg] at h6
  linarith

end Ecm.Brouwer
