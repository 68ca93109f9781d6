/- One step of a cubic crystal that is stretched along a cube axis, from a state strained along that axis: the eight
   equations come down to one. -/
import Verif.Lemmas.Axisym

namespace Ecm

/-- only the axial entry differs from zero -/
def OnAxis (x : Vec 8) : Prop := ∀ i, i ≠ 1 → x i = 0

theorem OnAxis.eq {x : Vec 8} (h : OnAxis x) : x = axisX (x 1 * eScale) 0 := by
  ext i
  by_cases hi : i = 1
  · subst hi
    simp [axisX, block8, eScale_ne]
  · rw [h i hi]
    fin_cases i <;> simp [axisX, block8] at hi ⊢

theorem onAxis_axisX (y : ℝ) : OnAxis (axisX y 0) := by
  intro i hi
  fin_cases i <;> simp [axisX, block8] at hi ⊢

/-- the slip systems of a cubic lattice with respect to a cube axis: eight of them are stressed alike, up to sign, and
    together they stretch the crystal along the axis without turning it -/
structure AxialGeom (G : SlipGeom 12) : Prop where
  P1 : ∀ s, G.P 1 s = fccA s / 2
  PA : ∀ i, ∑ s, G.P i s * fccA s = if i = 1 then 4 else 0
  QA : ∀ i, ∑ s, G.Q i s * fccA s = 0

theorem axialGeom_fcc : AxialGeom (slipPQ fccM fccS) := ⟨fcc_P1, fcc_PA, fcc_QA⟩
theorem axialGeom_bcc : AxialGeom (slipPQ bccBaseM bccBaseS) := ⟨bcc_P1, bcc_PA, bcc_QA⟩

/-- a problem with the symmetry of the axis; the law is odd in the stress and the same for all systems -/
structure AxialProblem (P : Updst 12) (E d c s κ : ℝ) (f : ℝ → ℝ) (f' : ℝ → ℝ) : Prop where
  geom : AxialGeom P.geom
  el : ∃ c11 c12 c44, P.el = .cubic c11 c12 c44
  κ : κ = P.el.kDiag 1
  eN : P.eN = ![0, E, 0, 0, 0]
  cN : P.cN = ![c, 0, 0, s]
  unit : c ^ 2 + s ^ 2 = 1
  dSm : P.dSm = ![0, d, 0, 0, 0]
  wSm : P.wSm = 0
  law : ∀ i τ, (P.gd i τ).gdot = f τ ∧ (P.gd i τ).dtau = f' τ
  odd : ∀ τ, f (-τ) = -f τ ∧ f' (-τ) = f' τ

theorem emapToQuat_zero : emapToQuat 0 = ![1, 0, 0, 0] := by
  have h0 : vecNorm (0 : Vec 3) = 0 := by simp [vecNorm]
  unfold emapToQuat
  simp only [h0, if_neg (not_lt.2 idpTinySqrt_pos.le)]
  ext i
  fin_cases i <;> simp [invToQuat]

namespace AxialProblem
variable {P : Updst 12} {E d c s κ : ℝ} {f f' : ℝ → ℝ} (h : AxialProblem P E d c s κ f f')
include h

theorem f_zero : f 0 = 0 := by
  have := (h.odd 0).1
  rw [neg_zero] at this
  linarith

theorem eF (y : ℝ) : P.eF (axisX y 0) = ![0, E + y, 0, 0, 0] := by
  ext i
  fin_cases i <;> simp [Updst.eF, vecsVxa, vecsVapb, axisX, eScale_ne, mul_div_cancel₀, h.eN]
  ring

omit h in
theorem xiF_zero (y : ℝ) : Updst.xiF (axisX y 0) = 0 := by
  rw [Updst.xiF_axis]
  ext i
  fin_cases i <;> simp

theorem cQuat (y : ℝ) : P.cQuat (axisX y 0) = ![c, 0, 0, s] := by
  unfold Updst.cQuat
  rw [xiF_zero, emapToQuat_zero, h.cN]
  ext i
  fin_cases i <;> simp [getCQuat, quatProd]

theorem taua (y : ℝ) (i : Fin 12) : P.taua (axisX y 0) i = κ * (P.aVri * (E + y)) * (fccA i / 2) := by
  obtain ⟨c11, c12, c44, he⟩ := h.el
  have hk := h.κ
  rw [he] at hk
  unfold Updst.taua Updst.elastNEtoT
  rw [h.eF, he, ← h.geom.P1, hk]
  simp [vecsVaTM, Fin.sum_univ_five, Elast.eval, vecsVxa]

/-- the stress resolved on the active systems -/
theorem gdot (y : ℝ) (i : Fin 12) :
    P.gdot (axisX y 0) i = fccA i * f (κ * (P.aVri * (E + y)) / 2) := by
  unfold Updst.gdot
  rw [(h.law _ _).1, h.taua]
  rcases fccA_cases i with ha | ha | ha <;> rw [ha]
  · rw [one_mul]; congr 1; ring
  · rw [neg_one_mul, ← (h.odd _).1]; congr 1; ring
  · rw [zero_mul, zero_div, mul_zero, h.f_zero]

theorem gdot_abs (y : ℝ) : ∑ i, |P.gdot (axisX y 0) i| = 8 * |f (κ * (P.aVri * (E + y)) / 2)| := by
  rw [← fccA_abs, Finset.sum_mul]
  refine Finset.sum_congr rfl fun i _ => ?_
  rw [h.gdot, abs_mul]

theorem dtau (y : ℝ) (i : Fin 12) :
    P.dgdotDtau (axisX y 0) i * fccA i = f' (κ * (P.aVri * (E + y)) / 2) * fccA i := by
  unfold Updst.dgdotDtau
  rw [(h.law _ _).2, h.taua]
  rcases fccA_cases i with ha | ha | ha <;> rw [ha]
  · rw [show κ * (P.aVri * (E + y)) * (1 / 2) = κ * (P.aVri * (E + y)) / 2 by ring]
  · rw [show κ * (P.aVri * (E + y)) * (-1 / 2) = -(κ * (P.aVri * (E + y)) / 2) by ring, (h.odd _).2]
  · simp

/-- the left-hand side of the one equation that is left -/
theorem residE (y : ℝ) (i : Fin 5) : P.residE (axisX y 0) i
    = if i = 1 then P.aVri * (y / P.dt) + 4 * f (κ * (P.aVri * (E + y)) / 2) - d else 0 := by
  have h1 : vecsVMa P.geom.P (P.gdot (axisX y 0)) i
      = (if i = 1 then 4 else 0) * f (κ * (P.aVri * (E + y)) / 2) := by
    rw [← h.geom.PA i, Finset.sum_mul]
    unfold vecsVMa
    refine Finset.sum_congr rfl fun j _ => ?_
    rw [h.gdot]; ring
  have h2 : vecsVMTa (getRotMatVecd (quatToTensor ![c, 0, 0, s])) ![0, d, 0, 0, 0] i = if i = 1 then d else 0 := by
    have e := congrFun (Updst.rot_axis h.unit) i
    have e2 : vecsVMTa (getRotMatVecd (quatToTensor ![c, 0, 0, s])) ![0, d, 0, 0, 0] i
        = d * vecsVMTa (getRotMatVecd (quatToTensor ![c, 0, 0, s])) ![0, 1, 0, 0, 0] i := by
      simp [vecsVMTa, Fin.sum_univ_five]; ring
    rw [e2, e]
    fin_cases i <;> simp
  unfold Updst.residE Updst.qr5x5 Updst.cMatx
  rw [h.cQuat, h.dSm, h1, h2, P.edot_axis]
  fin_cases i <;> simp

theorem residR (y : ℝ) (i : Fin 3) : P.residR (axisX y 0) i = 0 := by
  have h1 : vecsVMa P.geom.Q (P.gdot (axisX y 0)) i = 0 := by
    have := h.geom.QA i
    unfold vecsVMa
    calc _ = (∑ j, P.geom.Q i j * fccA j) * f (κ * (P.aVri * (E + y)) / 2) := by
          rw [Finset.sum_mul]
          refine Finset.sum_congr rfl fun j _ => ?_
          rw [h.gdot]; ring
      _ = 0 := by rw [this, zero_mul]
  unfold Updst.residR
  rw [h1, P.edot_axis, h.eF, Updst.m35_axis, xiF_zero, h.wSm]
  simp [vecsVMTa]

theorem resid (y : ℝ) (i : Fin 8) : P.resid (axisX y 0) i
    = if i = 1 then P.epsdotScaleInv * (P.aVri * (y / P.dt) + 4 * f (κ * (P.aVri * (E + y)) / 2) - d) else 0 := by
  refine forall_fin8 (p := fun i => P.resid (axisX y 0) i = if i = 1 then _ else 0) (fun j => ?_) (fun j => ?_) i
  · simp only [Updst.resid, h.residE]
    fin_cases j <;> simp [block8, iE]
  · simp only [Updst.resid, h.residR]
    fin_cases j <;> simp [block8, iR]

theorem resid_norm (y : ℝ) : vecNorm (P.resid (axisX y 0))
    = |P.epsdotScaleInv * (P.aVri * (y / P.dt) + 4 * f (κ * (P.aVri * (E + y)) / 2) - d)| := by
  unfold vecNorm
  rw [← Real.sqrt_sq_eq_abs]
  congr 1
  simp only [h.resid, mul_ite, ite_mul, zero_mul, mul_zero]
  rw [Finset.sum_eq_single 1 (fun b _ hb => by simp [hb]) (by simp)]
  simp [sq]

/-! ### The Jacobian -/

omit h in
theorem dDapp_axis (hu : c ^ 2 + s ^ 2 = 1) (w : Fin 3) :
    dDappDxi ![0, d, 0, 0, 0] 0 ![c, 0, 0, s] (quatToTensor ![c, 0, 0, s]) ![c, 0, 0, s] 1 w = 0 := by
  have h0 : vecNorm (0 : Vec 3) = 0 := by simp [vecNorm]
  have ha : dqAux 0 = ⟨0, 1/2, 1, 0, 0⟩ := by
    unfold dqAux
    have : (0:ℝ) < thetaSmA := by unfold thetaSmA; norm_num
    simp [h0, idpTinySqrt_pos, this]
  have hs : s ^ 2 = 1 - c ^ 2 := by linarith
  fin_cases w <;>
    simp [dDappDxi, dCmatxDxi, dCquatDxiT, dquatDemapT, ha, h0, Fin.sum_univ_three, Fin.sum_univ_four,
      dRotMatVecdLatop, dQuatToTensor, quatToTensor, quatProd]
  ring

theorem dpl (A : Fin 12 → ℝ) (y : ℝ) :
    ∑ i, A i * P.dgdotDeps (axisX y 0) 1 i
      = κ * P.aVri * f' (κ * (P.aVri * (E + y)) / 2) / 2 * ∑ i, A i * fccA i := by
  rw [Finset.mul_sum]
  refine Finset.sum_congr rfl fun i _ => ?_
  unfold Updst.dgdotDeps Elast.multDTDepsT
  rw [h.geom.P1, ← h.κ]
  have := h.dtau y i
  linear_combination (A i * κ * P.aVri / 2) * this

theorem dplRow (y : ℝ) (j : Fin 5) : P.dplSymm (axisX y 0) 1 j
    = if j = 1 then 2 * (κ * P.aVri * f' (κ * (P.aVri * (E + y)) / 2)) else 0 := by
  have e : P.dplSymm (axisX y 0) 1 j
      = P.el.kDiag j * P.aVri * f' (κ * (P.aVri * (E + y)) / 2) / 2 * ∑ i, P.geom.P j i * fccA i := by
    rw [Finset.mul_sum]
    unfold Updst.dplSymm vecsMABT
    refine Finset.sum_congr rfl fun i _ => ?_
    unfold Updst.dgdotDeps Elast.multDTDepsT
    rw [h.geom.P1]
    have := h.dtau y i
    linear_combination (P.el.kDiag j * P.aVri * P.geom.P j i / 2) * this
  rw [e, h.geom.PA]
  by_cases hj : j = 1
  · subst hj
    rw [if_pos rfl, if_pos rfl, ← h.κ]; ring
  · rw [if_neg hj, if_neg hj]; ring

/-- the column of the axial unknown -/
theorem jac_col (y : ℝ) (i : Fin 8) (hi : i ≠ 1) : P.jac (axisX y 0) i 1 = 0 := by
  have hz : P.jacU (axisX y 0) i 1 = 0 := by
    revert hi
    refine forall_fin8 (p := fun i => i ≠ 1 → P.jacU (axisX y 0) i 1 = 0) (fun j hj => ?_) (fun j _ => ?_) i
    · have h1 := h.dpl (fun s => P.geom.P j s) y
      have hj' : j ≠ 1 := by rintro rfl; exact hj rfl
      rw [h.geom.PA, if_neg hj', mul_zero] at h1
      have h2 : P.dplSymm (axisX y 0) j 1 = 0 := h1
      rw [show (1 : Fin 8) = iE 1 from rfl]
      refine (block88_EE _ _ _ _ j 1).trans ?_
      rw [h2, if_neg hj', add_zero]
    · have h1 := h.dpl (fun s => P.geom.Q j s) y
      rw [h.geom.QA, mul_zero] at h1
      have h2 : P.dplSkew (axisX y 0) j 1 = 0 := h1
      have h3 : ∀ F : ℝ, m35 ![0, F, 0, 0, 0] j 1 = 0 := by
        intro F; fin_cases j <;> simp [m35]
      rw [show (1 : Fin 8) = iE 1 from rfl]
      refine (block88_RE _ _ _ _ j 1).trans ?_
      rw [h2, h.eF, P.edot_axis, h3, h3]
      ring
  unfold Updst.jac
  rw [hz, zero_mul]

/-- the row of the axial equation -/
theorem jac_row (y : ℝ) (j : Fin 8) (hj : j ≠ 1) : P.jac (axisX y 0) 1 j = 0 := by
  have hz : P.jacU (axisX y 0) 1 j = 0 := by
    revert hj
    refine forall_fin8 (p := fun j => j ≠ 1 → P.jacU (axisX y 0) 1 j = 0) (fun j hj => ?_) (fun j _ => ?_) j
    · have hj' : j ≠ 1 := by rintro rfl; exact hj rfl
      rw [show (1 : Fin 8) = iE 1 from rfl]
      refine (block88_EE _ _ _ _ 1 j).trans ?_
      rw [h.dplRow, if_neg hj', if_neg hj'.symm]; ring
    · rw [show (1 : Fin 8) = iE 1 from rfl]
      refine (block88_ER _ _ _ _ 1 j).trans ?_
      unfold Updst.cMatx
      rw [h.cQuat, h.dSm, h.cN, xiF_zero, dDapp_axis h.unit, neg_zero]
  unfold Updst.jac
  rw [hz, zero_mul]

end AxialProblem
end Ecm
