/- A crystal whose state and loading have rotations of the lattice in common has a solution that shares them, for every
   step length: the strain equations at no rotation increment have one solution, so it shares the rotations. -/
import Verif.Lemmas.SharedSym
import Verif.Lemmas.Solvable

namespace Ecm
open Spec Props Matrix

namespace Updst
variable {n : ℕ} (P : Updst n)

/-- at one rotation increment the strain equations with rising slip laws have no two solutions -/
theorem strain_unique (hK : ∀ k, 0 < P.el.kDiag k) (hdt : 0 < P.dt) (hv : 0 < P.detV)
    (hm : ∀ s, Monotone fun τ => (P.gd s τ).gdot) {x y : Vec 8} (hξ : xiF x = xiF y)
    (hx : P.residE x = 0) (hy : P.residE y = 0) : P.eF x = P.eF y := by
  have ha : 0 < P.aVri := one_div_pos.2 (P.aV_pos hv)
  have hdi : 0 < P.dtRi := one_div_pos.2 hdt
  have hq : P.qr5x5 x = P.qr5x5 y := by simp only [qr5x5, cMatx, cQuat, hξ]
  set u : Vec 5 := P.eF x - P.eF y with hu
  set g : Vec n := P.gdot x - P.gdot y with hg
  have e1 : ∀ i, P.aVri * P.dtRi * u i + ∑ s, P.geom.P i s * g s = 0 := by
    intro i
    have h1 : P.residE x i = 0 := congrFun hx i
    have h2 : P.residE y i = 0 := congrFun hy i
    unfold residE at h1 h2
    rw [P.edot_eq'] at h1 h2
    rw [hq] at h1
    have h3 : ∑ s, P.geom.P i s * g s = vecsVMa P.geom.P (P.gdot x) i - vecsVMa P.geom.P (P.gdot y) i := by
      unfold vecsVMa
      rw [← Finset.sum_sub_distrib]
      exact Finset.sum_congr rfl fun s _ => by rw [hg, Pi.sub_apply]; ring
    rw [h3, hu, Pi.sub_apply]
    linarith
  have hτ : ∀ s, P.taua x s - P.taua y s = P.aVri * ∑ j, P.el.kDiag j * u j * P.geom.P j s := by
    intro s
    unfold taua vecsVaTM
    rw [← Finset.sum_sub_distrib, Finset.mul_sum]
    refine Finset.sum_congr rfl fun i _ => ?_
    simp only [elastNEtoT_castSucc, hu, Pi.sub_apply]
    ring
  have hpos : 0 ≤ ∑ i, P.el.kDiag i * u i * ∑ s, P.geom.P i s * g s := by
    have e2 : ∑ i, P.el.kDiag i * u i * ∑ s, P.geom.P i s * g s
        = 1 / P.aVri * ∑ s, (P.taua x s - P.taua y s) * g s := by
      simp only [hτ, Finset.mul_sum, Finset.sum_mul]
      rw [Finset.sum_comm]
      refine Finset.sum_congr rfl fun s _ => Finset.sum_congr rfl fun i _ => ?_
      field_simp
    rw [e2]
    refine mul_nonneg (by positivity) (Finset.sum_nonneg fun s _ => ?_)
    rw [hg, Pi.sub_apply]
    unfold gdot
    rcases le_total (P.taua x s) (P.taua y s) with hle | hle
    · have := hm s hle
      exact mul_nonneg_of_nonpos_of_nonpos (by linarith) (by simp only at this; linarith)
    · have := hm s hle
      exact mul_nonneg (by linarith) (by simp only at this; linarith)
  have hsum : P.aVri * P.dtRi * ∑ i, P.el.kDiag i * u i ^ 2 + ∑ i, P.el.kDiag i * u i * ∑ s, P.geom.P i s * g s = 0 := by
    rw [Finset.mul_sum, ← Finset.sum_add_distrib]
    refine Finset.sum_eq_zero fun i _ => ?_
    calc _ = P.el.kDiag i * u i * (P.aVri * P.dtRi * u i + ∑ s, P.geom.P i s * g s) := by ring
      _ = 0 := by rw [e1, mul_zero]
  have hn : ∀ i, 0 ≤ P.el.kDiag i * u i ^ 2 := fun i => mul_nonneg (hK i).le (sq_nonneg _)
  have hz : ∑ i, P.el.kDiag i * u i ^ 2 = 0 := by
    refine le_antisymm ?_ (Finset.sum_nonneg fun i _ => hn i)
    have hab : 0 < P.aVri * P.dtRi := mul_pos ha hdi
    by_contra hlt
    push Not at hlt
    nlinarith [mul_pos hab hlt]
  have hu0 : u = 0 := by
    funext i
    have := (Finset.sum_eq_zero_iff_of_nonneg fun i _ => hn i).1 hz i (Finset.mem_univ i)
    have h2 := (mul_eq_zero.1 this).resolve_left (hK i).ne'
    exact pow_eq_zero_iff (two_ne_zero) |>.1 h2
  exact sub_eq_zero.1 hu0

/-- a problem with shared rotations and no common axis has a solution without turning that shares the rotations -/
theorem exists_shared (hK : ∀ k, 0 < P.el.kDiag k) (hdt : 0 < P.dt) (hv : 0 < P.detV) (hcn : qn P.cN = 1)
    (hr : 0 < P.adotsRef) {h : Fin n → ℝ → ℝ} (hc : ∀ s, Continuous (h s)) (hm : ∀ s, Monotone (h s))
    (h0 : ∀ s, h s 0 = 0) {m s : Fin n → Vec 3} (Q : Set (Vec 4))
    (hQ : ∀ q ∈ Q, qn q = 1 ∧ P.Shares q ∧ ∃ S : P.Symmetry m s (quatToTensor q),
      ∀ i τ, h (S.π i) (S.ε i * τ) = S.ε i * h i τ)
    (hax : ∀ v : Vec 3, (∀ q ∈ Q, (quatToTensor q).mulVec v = v) → v = 0) :
    ∃ x : Vec 8, xiF x = 0 ∧ (∀ q ∈ Q, turnX q x = x) ∧
      (∀ i, P.aVri * P.edot x i + vecsVMa P.geom.P (fun s => h s (P.taua x s)) i
        = vecsVMTa (getRotMatVecd (quatToTensor (quatProd P.cN (expQuat (xiF x))))) P.dSm i) ∧
      ∀ i, xiF x i = P.dt * (vecsVMTa (quatToTensor (quatProd P.cN (expQuat (xiF x)))) P.wSm i
        - vecsVMa P.geom.Q (fun s => h s (P.taua x s)) i
        + P.eeFac * vecsVMa (m35 (P.eF x)) (P.edot x) i) := by
  obtain ⟨x, hxr, hxE⟩ := P.exists_residE hK hdt hv hc (fun s τ hτ => by rw [← h0 s]; exact hm s hτ)
    (fun s τ hτ => by rw [← h0 s]; exact hm s hτ) 0
  set P' := P.withLaw h with hP'
  have hξ : xiF x = 0 := by
    funext i
    simp only [xiF, vecsVxa, hxr i, Pi.zero_apply, mul_zero]
  have hs0 : 0 < P.epsdotScaleInv := P.epsdotScaleInv_pos hdt hr
  have hri : 0 < P.rotincrScaleInv := mul_pos (one_div_pos.2 hdt) hs0
  -- the turned solution is a solution
  have hturn : ∀ q ∈ Q, P'.resid (turnX q x) = turnX q (P'.resid x) ∧ xiF (turnX q x) = 0 := by
    intro q hq
    obtain ⟨hh, hsh, S, hS⟩ := hQ q hq
    let S' : P'.Symmetry m s (quatToTensor q) :=
      { geom := S.geom, slip := S.slip, π := S.π, ε := S.ε, sgn := S.sgn, map := S.map, rate := hS, elast := S.elast }
    refine ⟨P'.shares_resid S' hh hcn hv ⟨hsh.eN, hsh.dSm, hsh.wSm⟩ x (Or.inl hξ), ?_⟩
    rw [turn_xiF, hξ, Matrix.mulVec_zero]
  have hEx : (fun i => P'.resid x (iE i)) = 0 := by
    funext i
    simp only [resid, block8_iE, hxE, Pi.zero_apply, mul_zero]
  have hfix : ∀ q ∈ Q, turnX q x = x := by
    intro q hq
    obtain ⟨h1, h2⟩ := hturn q hq
    have hh := (hQ q hq).1
    have hE : P'.residE (turnX q x) = 0 := by
      funext i
      have h3 : P'.resid (turnX q x) (iE i) = turnX q (P'.resid x) (iE i) := by rw [h1]
      have h4 : turnX q (P'.resid x) (iE i) = 0 := by
        have := congrFun (turnX_e q (P'.resid x)) i
        rw [this, hEx, turnE_zero hh]; rfl
      rw [h4] at h3
      simp only [resid, block8_iE] at h3
      exact (mul_eq_zero.1 h3).resolve_left hs0.ne'
    have he := P'.strain_unique hK hdt hv hm (h2.trans hξ.symm) hE hxE
    have hes : eScale ≠ 0 := by unfold eScale; norm_num
    refine (block8_eta (turnX q x)).symm.trans (Eq.trans ?_ (block8_eta x))
    congr 1
    · funext i
      have := congrFun he i
      simp only [eF, vecsVapb, vecsVxa] at this
      exact mul_left_cancel₀ hes (add_right_cancel this)
    · funext i
      have h5 := congrFun h2 i
      have h6 := congrFun hξ i
      simp only [xiF, vecsVxa] at h5 h6
      have hrs : rScale ≠ 0 := by unfold rScale; norm_num
      exact mul_left_cancel₀ hrs (h5.trans h6.symm)
  have hR : (fun i => P'.resid x (iR i)) = 0 := by
    refine hax _ fun q hq => ?_
    obtain ⟨h1, -⟩ := hturn q hq
    rw [hfix q hq] at h1
    rw [← turnX_r, ← h1]
  have hq0 : P.cQuat x = quatProd P.cN (expQuat (xiF x)) := by
    show quatProd P.cN (emapToQuat (xiF x)) = _
    rw [hξ, emapToQuat_zero]
    simp [expQuat]
  refine ⟨x, hξ, hfix, fun i => ?_, fun i => ?_⟩
  · have h1 : P'.residE x i = 0 := congrFun hxE i
    have h2 : P'.residE x i = P.aVri * P.edot x i + vecsVMa P.geom.P (fun s => h s (P.taua x s)) i
        - vecsVMTa (getRotMatVecd (quatToTensor (P.cQuat x))) P.dSm i := rfl
    rw [h2, hq0] at h1
    linarith
  · have h1 : P'.rotincrScaleInv * P'.residR x i = 0 := by
      have := congrFun hR i
      simpa only [resid, block8_iR, Pi.zero_apply] using this
    have h3 := (mul_eq_zero.1 h1).resolve_left hri.ne'
    have h2 : P'.residR x i = xiF x i - P.dt * (vecsVMTa (quatToTensor (P.cQuat x)) P.wSm i
        - vecsVMa P.geom.Q (fun s => h s (P.taua x s)) i
        + P.eeFac * vecsVMa (m35 (P.eF x)) (P.edot x) i) := rfl
    rw [h2, hq0] at h3
    linarith

end Updst
end Ecm
