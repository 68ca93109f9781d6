/- Property theorem C15 for paths of solutions that are only known to be continuous
   (src/ecmech/ECMech_evptn.h:560-960). -/
import Verif.Lemmas.Implicit
import Verif.Props.Tangent

namespace Ecm.Props
open Spec

/-- **C15 without a differentiability assumption.** A path of solutions that is continuous at the current
    rate is differentiable there, and the returned tangent is the derivative of the updated Cauchy stress
    along it. -/
theorem C15_continuous {n : ℕ} (P : Updst n) (X : Ext) (hX : X.lup.Sound) (K : ℝ)
    (hcn : dot P.cN P.cN = 1) (hdt : 0 < P.dt) (ha : 0 < P.adotsRef) (D : T3) (hD : IsDev D)
    (x : ℝ → Vec 8) (hx : ContinuousAt x 0)
    (hres : ∀ᶠ s in nhds (0 : ℝ),
      ({ P with dSm := fun i => P.dSm i + s * symmToVecd D i } : Updst n).resid (x s) = 0)
    (hg : ∀ s, HasDerivAt (fun τ => (P.gd s τ).gdot) (P.gd s (P.taua (x 0) s)).dtau (P.taua (x 0) s))
    (hξ : 1 / 10 ^ 9 ≤ len (Updst.xiF (x 0))) (hdet : (P.jacU (x 0)).det ≠ 0)
    (A : Mat 6 6) (hA : Step.tangent X K P (x 0) true = some (some A)) :
    (∃ x' : Vec 8, ∀ k, HasDerivAt (fun s => x s k) (x' k) 0) ∧
    ∀ i : Fin 6, HasDerivAt
      (fun s => voigt (ofSvecP (Step.stressOf
        ({ P with dSm := fun i => P.dSm i + s * symmToVecd D i } : Updst n)
        (P.eF (x s)) (P.cQuat (x s)))) i)
      (A.mulVec (P.dt • ![D 0 0, D 1 1, D 2 2, 2 * D 1 2, 2 * D 0 2, 2 * D 0 1]) i) 0 := by
  have hz : ∀ᶠ s in nhds (0 : ℝ),
      (P.atRate fun i => P.dSm i + s * symmToVecd D i).residE (x s) = 0 ∧ P.residR (x s) = 0 :=
    hres.mono fun s hs =>
      (Updst.resid_eq_zero (P.atRate fun i => P.dSm i + s * symmToVecd D i) hdt ha _).1 hs
  have hcn' := hcn
  rw [dot_self_quat] at hcn'
  obtain ⟨x', hx'⟩ := P.path_diff hcn' hx (hz.mono fun s h => h.1) (hz.mono fun s h => h.2) hg hξ hdet
  exact ⟨⟨x', hx'⟩, fun i => C15_deviatoric P X hX K hcn hdt ha D hD x x' hx' hres hg hξ hdet A hA i⟩

/-- hypotheses: the turned crystal of the example of C15, with a path that is continuous -/
example : ContinuousAt turnPath 0 ∧ (∀ᶠ s in nhds (0 : ℝ),
      ({ turnEx with dSm := fun i => turnEx.dSm i + s * symmToVecd turnD i } : Updst 12).resid
        (turnPath s) = 0) ∧ (turnEx.jacU (turnPath 0)).det ≠ 0 ∧
      1 / 10 ^ 9 ≤ len (Updst.xiF (turnPath 0)) := by
  refine ⟨?_, Filter.Eventually.of_forall turn_resid, turn_det, ?_⟩
  · rw [continuousAt_pi]
    refine forall_fin8 (fun k => ?_) fun k => ?_
    · simp only [turnPath, block8_iE]; fun_prop
    · simp only [turnPath, block8_iR]; fun_prop
  · rw [turn_xi]
    show _ ≤ vecNorm _
    rw [turn_norm]
    linarith [Real.pi_gt_three, show (1 / 10 ^ 9 : ℝ) < 1 by norm_num]

end Ecm.Props
