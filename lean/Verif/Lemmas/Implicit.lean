/- A continuous path of solutions is differentiable where the Jacobian is invertible. -/
import Verif.Lemmas.Tangent
import Mathlib.Analysis.Asymptotics.AsymptoticEquivalent
import Mathlib.Analysis.Calculus.Deriv.Prod

namespace Ecm
open Asymptotics Filter Topology

theorem hasDerivAt_of_solution {E : Type*} [NormedAddCommGroup E] [NormedSpace ℝ E] {F : E → E}
    {L : E ≃L[ℝ] E} {x b : ℝ → E} {b0 : E} (hF : HasFDerivAt F (L : E →L[ℝ] E) (x 0))
    (hx : ContinuousAt x 0) (hb : Tendsto b (𝓝 0) (𝓝 b0))
    (h : ∀ᶠ s in 𝓝 (0 : ℝ), F (x s) = F (x 0) + s • b s) : HasDerivAt x (L.symm b0) 0 := by
  have h1 : (fun s => F (x s) - F (x 0) - L (x s - x 0)) =o[𝓝 (0:ℝ)] fun s => x s - x 0 :=
    hF.isLittleO.comp_tendsto hx
  have h2 : (fun s => L.symm (s • b s) - (x s - x 0)) =o[𝓝 (0:ℝ)] fun s => x s - x 0 := by
    have h3 : (fun s => L.symm (F (x s) - F (x 0) - L (x s - x 0))) =O[𝓝 (0:ℝ)]
        fun s => F (x s) - F (x 0) - L (x s - x 0) :=
      (L.symm : E →L[ℝ] E).isBigO_comp _ _
    refine (h3.trans_isLittleO h1).congr' (h.mono fun s hs => ?_) EventuallyEq.rfl
    simp only [hs, map_sub, add_sub_cancel_left, ContinuousLinearEquiv.symm_apply_apply]
  have h4 : (fun s => L.symm (s • b s)) ~[𝓝 (0:ℝ)] fun s => x s - x 0 := h2
  have h5 : (fun s => (x s - x 0) - L.symm (s • b s)) =o[𝓝 (0:ℝ)] fun s => L.symm (s • b s) := h4.symm
  have hB : Tendsto (fun s => L.symm (b s)) (𝓝 0) (𝓝 (L.symm b0)) :=
    (L.symm.continuous.tendsto b0).comp hb
  have h6 : (fun s : ℝ => L.symm (s • b s)) =O[𝓝 (0:ℝ)] fun s => s := by
    have : (fun s : ℝ => s • L.symm (b s)) =O[𝓝 (0:ℝ)] fun s => s • (1:ℝ) :=
      (isBigO_refl _ _).smul (hB.isBigO_one ℝ)
    simpa using this
  have h7 : (fun s : ℝ => s • (L.symm (b s) - L.symm b0)) =o[𝓝 (0:ℝ)] fun s => s := by
    have : (fun s => L.symm (b s) - L.symm b0) =o[𝓝 (0:ℝ)] fun _ => (1:ℝ) := by
      rw [isLittleO_one_iff]
      have := hB.sub_const (L.symm b0)
      rwa [sub_self] at this
    have := (isBigO_refl (fun s : ℝ => s) (𝓝 0)).smul_isLittleO this
    simpa using this
  rw [hasDerivAt_iff_isLittleO]
  refine ((h5.trans_isBigO h6).add h7).congr (fun s => ?_) fun s => ?_
  · rw [map_smul, smul_sub, sub_zero]; abel
  · simp

namespace Updst
variable {n : ℕ} (P : Updst n)
open Spec

theorem atRate_residE (D : Vec 5) (s : ℝ) (y : Vec 8) (i : Fin 5) :
    (P.atRate fun i => P.dSm i + s * D i).residE y i
      = P.residE y i - s * vecsVMTa (P.qr5x5 y) D i := by
  simp only [residE, atRate]
  show _ - vecsVMTa (P.qr5x5 y) (fun i => P.dSm i + s * D i) i
    = (_ - vecsVMTa (P.qr5x5 y) P.dSm i) - s * vecsVMTa (P.qr5x5 y) D i
  have e : vecsVMTa (P.qr5x5 y) (fun i => P.dSm i + s * D i) i
      = vecsVMTa (P.qr5x5 y) P.dSm i + s * vecsVMTa (P.qr5x5 y) D i := by
    simp only [vecsVMTa, mul_add, Finset.sum_add_distrib, Finset.mul_sum]
    congr 1
    exact Finset.sum_congr rfl fun j _ => by ring
  rw [e, sub_add_eq_sub_sub]
  rfl

theorem residE_const_FD (hcn : qn P.cN = 1) {y : Vec 8} (hg : P.GdotDiff y)
    (h0 : thetaSmA ≤ vecNorm (xiF y)) (i : Fin 5) :
    FD (fun z => P.residE z i) y (fun h => ∑ k, P.jacU y (iE i) k * (xScale k * h k)) := by
  have hx : VFD (fun z : Vec 8 => z) y (fun h => h) := fun k => FD.coord k y
  have hd : VFD (fun _ : Vec 8 => P.dSm) y (fun _ _ => 0) := fun i => FD.const (P.dSm i)
  refine (P.residE_FD hcn hx hd hg h0 rfl i).congr fun h => ?_
  simp [vecsVMTa]

theorem path_diff (hcn : qn P.cN = 1) {x : ℝ → Vec 8} {D : Vec 5} (hx : ContinuousAt x 0)
    (hE : ∀ᶠ s in nhds (0 : ℝ), (P.atRate fun i => P.dSm i + s * D i).residE (x s) = 0)
    (hR : ∀ᶠ s in nhds (0 : ℝ), P.residR (x s) = 0)
    (hg : P.GdotDiff (x 0)) (h0 : thetaSmA ≤ vecNorm (xiF (x 0)))
    (hdet : (P.jacU (x 0)).det ≠ 0) : ∃ x' : Vec 8, ∀ k, HasDerivAt (fun s => x s k) (x' k) 0 := by
  set M : Mat 8 8 := P.jacU (x 0) * Matrix.diagonal xScale with hM
  have hMdet : M.det ≠ 0 := by
    rw [hM, Matrix.det_mul, Matrix.det_diagonal]
    refine mul_ne_zero hdet (Finset.prod_ne_zero_iff.2 fun k _ => ?_)
    unfold xScale eScale rScale; split_ifs <;> norm_num
  let e : Vec 8 ≃L[ℝ] Vec 8 :=
    (Matrix.toLinearEquiv' M (Matrix.invertibleOfIsUnitDet M (isUnit_iff_ne_zero.2 hMdet))).toContinuousLinearEquiv
  have he : ∀ h, e h = M.mulVec h := fun h => rfl
  have hMe : ∀ i (h : Vec 8), M.mulVec h i = ∑ k, P.jacU (x 0) i k * (xScale k * h k) := fun i h => by
    simp only [hM, Matrix.mulVec, dotProduct, Matrix.mul_diagonal]
    exact Finset.sum_congr rfl fun k _ => by ring
  set F : Vec 8 → Vec 8 := fun y => block8 (P.residE y) (P.residR y) with hF
  have hF' : HasFDerivAt F (e : Vec 8 →L[ℝ] Vec 8) (x 0) := by
    rw [hasFDerivAt_pi']
    refine forall_fin8 (fun i => ?_) fun i => ?_
    · obtain ⟨L, hL, hl⟩ := P.residE_const_FD hcn hg h0 i
      have : (fun y => F y (iE i)) = fun y => P.residE y i := by funext y; simp [hF]
      rw [this]
      refine hL.congr_fderiv ?_
      ext h
      rw [hl]
      show _ = (e h) (iE i)
      rw [he, hMe]
    · have hx : VFD (fun z : Vec 8 => z) (x 0) (fun h => h) := fun k => FD.coord k (x 0)
      obtain ⟨L, hL, hl⟩ := P.residR_FD hcn hx hg h0 i
      have : (fun y => F y (iR i)) = fun y => P.residR y i := by funext y; simp [hF]
      rw [this]
      refine hL.congr_fderiv ?_
      ext h
      rw [hl]
      show _ = (e h) (iR i)
      rw [he, hMe]
  set b : ℝ → Vec 8 := fun s => block8 (vecsVMTa (P.qr5x5 (x s)) D) 0 with hb
  have hbt : Tendsto b (𝓝 0) (𝓝 (b 0)) := by
    rw [tendsto_pi_nhds]
    refine forall_fin8 (fun i => ?_) fun i => ?_
    · obtain ⟨L1, hL1, -⟩ := P.residE_const_FD hcn hg h0 i
      have hg2 : (P.atRate fun i => P.dSm i + 1 * D i).GdotDiff (x 0) := hg
      obtain ⟨L2, hL2, -⟩ := (P.atRate fun i => P.dSm i + 1 * D i).residE_const_FD hcn hg2 h0 i
      have h3 : ContinuousAt (fun y => vecsVMTa (P.qr5x5 y) D i) (x 0) := by
        have := hL1.continuousAt.sub hL2.continuousAt
        refine this.congr (Eventually.of_forall fun y => ?_)
        show P.residE y i - (P.atRate fun i => P.dSm i + 1 * D i).residE y i = _
        rw [P.atRate_residE]; ring
      have h4 : Tendsto (fun s => vecsVMTa (P.qr5x5 (x s)) D i) (𝓝 0)
          (𝓝 (vecsVMTa (P.qr5x5 (x 0)) D i)) := ContinuousAt.comp (f := x) h3 hx
      simpa [hb] using h4
    · simp [hb]
  have h00 : F (x 0) = 0 := by
    have e1 := hE.self_of_nhds
    have e2 := hR.self_of_nhds
    funext k
    revert k
    refine forall_fin8 (fun i => ?_) fun i => ?_
    · have := congrFun e1 i
      rw [P.atRate_residE] at this
      simp [hF]; simpa using this
    · simp [hF, e2]
  have hsol : ∀ᶠ s in 𝓝 (0 : ℝ), F (x s) = F (x 0) + s • b s := by
    filter_upwards [hE, hR] with s h1 h2
    rw [h00, zero_add]
    funext k
    revert k
    refine forall_fin8 (fun i => ?_) fun i => ?_
    · have := congrFun h1 i
      rw [P.atRate_residE] at this
      simp only [hF, hb, block8_iE, Pi.smul_apply, smul_eq_mul]
      simp only [Pi.zero_apply] at this
      linarith
    · simp [hF, hb, h2]
  have := hasDerivAt_of_solution hF' hx hbt hsol
  exact ⟨_, fun k => hasDerivAt_pi.1 this k⟩

end Updst
end Ecm
