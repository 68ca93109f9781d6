/- Helper lemmas for C96: one Newton step with the code's Jacobian reduces what is missing in the equations of a short
   step. -/
import Verif.Lemmas.NewtonMatrix

namespace Ecm
open Spec Ecm.Props

namespace Updst
variable {n : ℕ} (P : Updst n)

/-- what is missing in the equations of the step at a trial point, as a strain and a rotation increment -/
noncomputable def defect (x : Vec 8) : ℝ := P.dt * vecNorm (P.residE x) + vecNorm (P.residR x)

theorem defect_nonneg (hdt : 0 < P.dt) (x : Vec 8) : 0 ≤ P.defect x :=
  add_nonneg (mul_nonneg hdt.le (vecNorm_nonneg _)) (vecNorm_nonneg _)

/-- the change of the slip rates along a change `u` of the elastic strain, with the reported slopes -/
noncomputable def dSlip (x : Vec 8) (u : Vec 5) : Vec n := fun s => ∑ j, P.dgdotDeps x j s * u j

/-- the upper rows of the Jacobian -/
theorem jacU_upper (x z : Vec 8) (i : Fin 5) : (P.jacU x).mulVec z (iE i)
    = vecsVMa P.geom.P (P.dSlip x fun j => z (iE j)) i + P.aVri * P.dtRi * z (iE i)
      - (dDappDxi P.dSm (xiF x) P.cN (P.cMatx x) (P.cQuat x)).mulVec (fun j => z (iR j)) i := by
  simp only [Matrix.mulVec, dotProduct]
  rw [sum_fin8]
  have e1 : ∀ j, P.jacU x (iE i) (iE j) = P.dplSymm x i j + if i = j then P.aVri * P.dtRi else 0 := fun j => by
    unfold jacU; exact block88_EE _ _ _ _ i j
  have e2 : ∀ j, P.jacU x (iE i) (iR j)
      = -dDappDxi P.dSm (xiF x) P.cN (P.cMatx x) (P.cQuat x) i j := fun j => by
    unfold jacU; exact block88_ER _ _ _ _ i j
  simp only [e1, e2, add_mul, Finset.sum_add_distrib, ite_mul, zero_mul, Finset.sum_ite_eq, Finset.mem_univ,
    if_true, neg_mul, Finset.sum_neg_distrib]
  have e3 : ∑ j, P.dplSymm x i j * z (iE j) = vecsVMa P.geom.P (P.dSlip x fun j => z (iE j)) i := by
    simp only [dplSymm, vecsMABT, vecsVMa, Finset.sum_mul, dSlip]
    rw [Finset.sum_comm]
    refine Finset.sum_congr rfl fun s _ => ?_
    rw [Finset.mul_sum]
    exact Finset.sum_congr rfl fun j _ => by ring
  rw [e3]
  ring

/-- the lower rows of the Jacobian -/
theorem jacU_lower (hdt : 0 < P.dt) (x z : Vec 8) (i : Fin 3) : (P.jacU x).mulVec z (iR i)
    = P.dt * vecsVMa P.geom.Q (P.dSlip x fun j => z (iE j)) i - P.eeFac * vecsVMa (m35 P.eN) (fun j => z (iE j)) i
      - P.dt * (dWappDxi P.wSm (xiF x) P.cN (P.cQuat x)).mulVec (fun j => z (iR j)) i + z (iR i) := by
  simp only [Matrix.mulVec, dotProduct]
  rw [sum_fin8]
  have e1 : ∀ j, P.jacU x (iR i) (iE j) = P.dt * P.dplSkew x i j
      - P.dt * P.eeFac * (m35 (P.eF x) i j * P.dtRi - m35 (P.edot x) i j) := fun j => by
    unfold jacU; exact block88_RE _ _ _ _ i j
  have e2 : ∀ j, P.jacU x (iR i) (iR j)
      = -P.dt * dWappDxi P.wSm (xiF x) P.cN (P.cQuat x) i j + if i = j then 1 else 0 := fun j => by
    unfold jacU; exact block88_RR _ _ _ _ i j
  simp only [e1, e2, add_mul, sub_mul, Finset.sum_add_distrib, Finset.sum_sub_distrib, ite_mul, zero_mul, one_mul,
    Finset.sum_ite_eq, Finset.mem_univ, if_true]
  have e3 : ∑ j, P.dt * P.dplSkew x i j * z (iE j)
      = P.dt * vecsVMa P.geom.Q (P.dSlip x fun j => z (iE j)) i := by
    simp only [dplSkew, vecsMABT, vecsVMa, Finset.sum_mul, Finset.mul_sum, dSlip]
    rw [Finset.sum_comm]
    refine Finset.sum_congr rfl fun s _ => ?_
    exact Finset.sum_congr rfl fun j _ => by ring
  have e4 : ∑ j, P.dt * P.eeFac * (m35 (P.eF x) i j * P.dtRi - m35 (P.edot x) i j) * z (iE j)
      = P.eeFac * vecsVMa (m35 P.eN) (fun j => z (iE j)) i := by
    have hm35 : ∀ j, P.dt * (m35 (P.eF x) i j * P.dtRi - m35 (P.edot x) i j) = m35 P.eN i j := by
      intro j
      have hd : P.dt * P.dtRi = 1 := by unfold dtRi; field_simp
      have hed : P.edot x = fun k => P.dtRi * (P.eF x k - P.eN k) := by
        funext k
        simp only [edot, eF, vecsVsa, vecsVapb, vecsVxa]
        ring
      have hlin : ∀ (a c : Vec 5) (t : ℝ), m35 (fun k => t * (a k - c k)) i j = t * (m35 a i j - m35 c i j) := by
        intro a c t
        fin_cases i <;> fin_cases j <;> simp [m35] <;> ring
      rw [hed, hlin]
      linear_combination m35 P.eN i j * hd
    rw [vecsVMa, Finset.mul_sum]
    refine Finset.sum_congr rfl fun j _ => ?_
    rw [← hm35]
    ring
  rw [e3, e4]
  have e5 : ∑ j, -P.dt * dWappDxi P.wSm (xiF x) P.cN (P.cQuat x) i j * z (iR j)
      = -(P.dt * ∑ j, dWappDxi P.wSm (xiF x) P.cN (P.cQuat x) i j * z (iR j)) := by
    rw [Finset.mul_sum, ← Finset.sum_neg_distrib]
    exact Finset.sum_congr rfl fun j _ => by ring
  rw [e5]
  ring

theorem abs_dot_le (a b : Vec 5) : |∑ k, a k * b k| ≤ vecNorm a * vecNorm b := by
  refine abs_le_of_sq_le_sq ?_ (mul_nonneg (vecNorm_nonneg _) (vecNorm_nonneg _))
  rw [mul_pow, vecNorm_sq, vecNorm_sq]
  exact Finset.sum_mul_sq_le_sq_mul_sq _ _ _

/-- the change of a resolved shear stress -/
theorem stress_change_le {κ : ℝ} (hv : 0 < P.detV) (h1 : ∀ k, |P.el.kDiag k| ≤ κ)
    (hP : ∀ i, vecNorm (fun k => P.geom.P k i) ≤ 1) (u : Vec 5) (s : Fin n) :
    |P.aVri * ∑ k, P.el.kDiag k * u k * P.geom.P k s| ≤ κ * (vecNorm u / P.aV) := by
  have ha := P.aV_pos hv
  have hκ : 0 ≤ κ := (abs_nonneg _).trans (h1 0)
  have e : vecNorm (fun k => P.el.kDiag k * u k) ≤ κ * vecNorm u := by
    refine abs_le_of_sq_le_sq' ?_ (mul_nonneg hκ (vecNorm_nonneg u)) |>.2
    rw [mul_pow, vecNorm_sq, vecNorm_sq, Finset.mul_sum]
    refine Finset.sum_le_sum fun k _ => ?_
    rw [mul_pow]
    refine mul_le_mul_of_nonneg_right ?_ (sq_nonneg _)
    rw [← sq_abs]
    exact pow_le_pow_left₀ (abs_nonneg _) (h1 k) 2
  have h2 := abs_dot_le (fun k => P.el.kDiag k * u k) (fun k => P.geom.P k s)
  have h3 : |∑ k, P.el.kDiag k * u k * P.geom.P k s| ≤ κ * vecNorm u :=
    h2.trans ((mul_le_mul e (hP s) (vecNorm_nonneg _) (mul_nonneg hκ (vecNorm_nonneg u))).trans (by rw [mul_one]))
  rw [abs_mul, aVri, abs_of_pos (one_div_pos.2 ha), one_div, inv_mul_le_iff₀ ha]
  refine h3.trans (le_of_eq ?_)
  field_simp

theorem taua_change {κ : ℝ} (hv : 0 < P.detV) (h1 : ∀ k, |P.el.kDiag k| ≤ κ)
    (hP : ∀ i, vecNorm (fun k => P.geom.P k i) ≤ 1) (x y : Vec 8) (s : Fin n) :
    |P.taua x s - P.taua y s| ≤ κ * (vecNorm (P.eF x - P.eF y) / P.aV) := by
  rw [P.taua_sub]
  exact P.stress_change_le hv h1 hP (P.eF x - P.eF y) s

/-- the slip rates are bounded in their variation for stresses up to `T`, up to jumps `ε`, and so are the slopes -/
structure Gentle (T Λ ε : ℝ) : Prop where
  lip : ∀ s τ τ', |τ| ≤ T → |τ'| ≤ T → |(P.gd s τ).gdot - (P.gd s τ').gdot| ≤ Λ * |τ - τ'| + ε
  slope : ∀ s τ, |τ| ≤ T → |(P.gd s τ).dtau| ≤ Λ

theorem dSlip_le {κ T Λ ε : ℝ} (hv : 0 < P.detV) (h1 : ∀ k, |P.el.kDiag k| ≤ κ)
    (hP : ∀ i, vecNorm (fun k => P.geom.P k i) ≤ 1) (hG : P.Gentle T Λ ε) {x : Vec 8} (hx : ∀ s, |P.taua x s| ≤ T)
    (u : Vec 5) : ∑ s, |P.dSlip x u s| ≤ n * (Λ * κ) * (vecNorm u / P.aV) := by
  have h : ∀ s, |P.dSlip x u s| ≤ Λ * κ * (vecNorm u / P.aV) := by
    intro s
    have e : P.dSlip x u s = P.dgdotDtau x s * (P.aVri * ∑ k, P.el.kDiag k * u k * P.geom.P k s) := by
      simp only [dSlip, dgdotDeps, Elast.multDTDepsT, Finset.mul_sum]
      exact Finset.sum_congr rfl fun j _ => by ring
    have hs := hG.slope s _ (hx s)
    rw [e, abs_mul, mul_assoc]
    exact mul_le_mul hs (P.stress_change_le hv h1 hP u s) (abs_nonneg _) ((abs_nonneg _).trans hs)
  refine (Finset.sum_le_sum fun s _ => h s).trans (le_of_eq ?_)
  simp
  ring

theorem slip_change {κ T Λ ε : ℝ} (hv : 0 < P.detV) (h1 : ∀ k, |P.el.kDiag k| ≤ κ) (hΛ : 0 ≤ Λ)
    (hP : ∀ i, vecNorm (fun k => P.geom.P k i) ≤ 1) (hG : P.Gentle T Λ ε) {x y : Vec 8}
    (hx : ∀ s, |P.taua x s| ≤ T) (hy : ∀ s, |P.taua y s| ≤ T) :
    ∑ s, |(P.gdot y - P.gdot x) s| ≤ n * (Λ * κ) * (vecNorm (P.eF y - P.eF x) / P.aV) + n * ε := by
  have h : ∀ s, |(P.gdot y - P.gdot x) s| ≤ Λ * κ * (vecNorm (P.eF y - P.eF x) / P.aV) + ε := by
    intro s
    have a := hG.lip s _ _ (hy s) (hx s)
    have b := mul_le_mul_of_nonneg_left (P.taua_change hv h1 hP y x s) hΛ
    simp only [Pi.sub_apply, gdot]
    linarith
  refine (Finset.sum_le_sum fun s _ => h s).trans (le_of_eq ?_)
  simp
  ring

theorem eeFac_m35 (hv : 0 < P.detV) (u : Vec 5) :
    vecNorm (P.eeFac • vecsVMa (m35 P.eN) u) ≤ vecNorm P.eN / P.aV * (vecNorm u / P.aV) := by
  have ha := P.aV_pos hv
  have hee : P.eeFac = 1 / (2 * P.aV ^ 2) := by
    unfold eeFac aVri
    rw [one_div_mul_one_div, one_div_mul_one_div]
    congr 1; ring
  rw [vecNorm_smul, hee, abs_of_pos (by positivity)]
  have h := mul_le_mul_of_nonneg_left (m35_le P.eN u) (show 0 ≤ 1 / (2 * P.aV ^ 2) by positivity)
  refine h.trans (le_of_eq ?_)
  field_simp

/-- **The size of a solution of the linear system** in terms of its right-hand side. -/
theorem newton_size {κ T Λ ε σ : ℝ} (hdt : 0 < P.dt) (hv : 0 < P.detV) (hcn : qn P.cN = 1)
    (h1 : ∀ k, |P.el.kDiag k| ≤ κ) (hP : ∀ i, vecNorm (fun k => P.geom.P k i) ≤ 1)
    (hQ : ∀ i, vecNorm (fun k => P.geom.Q k i) ≤ 1 / 2) (hG : P.Gentle T Λ ε)
    (hlam : n * (Λ * κ) * P.dt ≤ σ) (hδ : P.dt * vecNorm P.dSm ≤ σ) (hw : P.dt * vecNorm P.wSm ≤ σ) (hσ : σ ≤ 1 / 32)
    (hm : vecNorm P.eN / P.aV ≤ 1 / 4) {x z : Vec 8} (hx : ∀ s, |P.taua x s| ≤ T) {a : Vec 5} {b : Vec 3}
    (hE : ∀ i, (P.jacU x).mulVec z (iE i) = -a i) (hR : ∀ i, (P.jacU x).mulVec z (iR i) = -b i) :
    vecNorm (fun i => z (iE i)) / P.aV + vecNorm (fun i => z (iR i)) ≤ 3 / 2 * (P.dt * vecNorm a + vecNorm b) := by
  have ha := P.aV_pos hv
  set u : Vec 5 := fun i => z (iE i) with hu
  set ω : Vec 3 := fun i => z (iR i) with hω
  set g := P.dSlip x u with hg
  set F := (dDappDxi P.dSm (xiF x) P.cN (P.cMatx x) (P.cQuat x)).mulVec ω with hF
  set W := (dWappDxi P.wSm (xiF x) P.cN (P.cQuat x)).mulVec ω with hW
  have bF : vecNorm F ≤ 4 * vecNorm P.dSm * vecNorm ω := dDapp_le hcn (P.qn_cQuat hcn x) _ _ _
  have bW : vecNorm W ≤ 2 * vecNorm P.wSm * vecNorm ω := dWapp_le hcn (P.qn_cQuat hcn x) _ _ _
  have bg : ∑ s, |g s| ≤ n * (Λ * κ) * (vecNorm u / P.aV) := P.dSlip_le hv h1 hP hG hx u
  have bP : vecNorm (vecsVMa P.geom.P g) ≤ n * (Λ * κ) * (vecNorm u / P.aV) := by
    have := vecNorm_vecsVMa_le _ hP g
    linarith
  have bQ : vecNorm (vecsVMa P.geom.Q g) ≤ 1 / 2 * (n * (Λ * κ) * (vecNorm u / P.aV)) := by
    have := vecNorm_vecsVMa_le _ hQ g
    linarith
  have eu : (1 / P.aV) • u = P.dt • ((-1 : ℝ) • a + (-1 : ℝ) • vecsVMa P.geom.P g + F) := by
    funext i
    have h := hE i
    rw [P.jacU_upper, ← hu, ← hω, ← hg, ← hF] at h
    have hi : P.dt * P.dtRi = 1 := by unfold dtRi; field_simp
    simp only [Pi.smul_apply, Pi.add_apply, smul_eq_mul]
    have hi2 : P.aVri = 1 / P.aV := rfl
    rw [hi2] at h
    have hui : u i = z (iE i) := rfl
    rw [hui]
    linear_combination P.dt * h - 1 / P.aV * z (iE i) * hi
  have eω : ω = (-1 : ℝ) • b + (-P.dt) • vecsVMa P.geom.Q g + P.eeFac • vecsVMa (m35 P.eN) u + P.dt • W := by
    funext i
    have h := hR i
    rw [P.jacU_lower hdt, ← hu, ← hω, ← hg, ← hW] at h
    simp only [Pi.smul_apply, Pi.add_apply, smul_eq_mul]
    have hui : ω i = z (iR i) := rfl
    rw [hui]
    linear_combination h
  have nu : vecNorm u / P.aV ≤ P.dt * (vecNorm a + n * (Λ * κ) * (vecNorm u / P.aV) + 4 * vecNorm P.dSm * vecNorm ω) := by
    have e : vecNorm u / P.aV = vecNorm ((1 / P.aV) • u) := by
      rw [vecNorm_smul, abs_of_pos (one_div_pos.2 ha)]; ring
    have e2 : vecNorm u / P.aV = P.dt * vecNorm ((-1 : ℝ) • a + (-1 : ℝ) • vecsVMa P.geom.P g + F) := by
      rw [e, eu, vecNorm_smul, abs_of_pos hdt]
    refine le_of_eq_of_le e2 (mul_le_mul_of_nonneg_left ?_ hdt.le)
    have s1 := vecNorm_add_le ((-1 : ℝ) • a + (-1 : ℝ) • vecsVMa P.geom.P g) F
    have s2 := vecNorm_add_le ((-1 : ℝ) • a) ((-1 : ℝ) • vecsVMa P.geom.P g)
    rw [vecNorm_smul, vecNorm_smul, abs_neg, abs_one, one_mul, one_mul] at s2
    linarith
  have nω : vecNorm ω ≤ vecNorm b + P.dt * (1 / 2 * (n * (Λ * κ) * (vecNorm u / P.aV)))
      + vecNorm P.eN / P.aV * (vecNorm u / P.aV) + P.dt * (2 * vecNorm P.wSm * vecNorm ω) := by
    have s0 : vecNorm ω = vecNorm ((-1 : ℝ) • b + (-P.dt) • vecsVMa P.geom.Q g + P.eeFac • vecsVMa (m35 P.eN) u
        + P.dt • W) := by rw [← eω]
    have s1 := vecNorm_add_le ((-1 : ℝ) • b + (-P.dt) • vecsVMa P.geom.Q g + P.eeFac • vecsVMa (m35 P.eN) u) (P.dt • W)
    have s2 := vecNorm_add_le ((-1 : ℝ) • b + (-P.dt) • vecsVMa P.geom.Q g) (P.eeFac • vecsVMa (m35 P.eN) u)
    have s3 := vecNorm_add_le ((-1 : ℝ) • b) ((-P.dt) • vecsVMa P.geom.Q g)
    have s4 := P.eeFac_m35 hv u
    rw [vecNorm_smul, vecNorm_smul, abs_neg, abs_neg, abs_one, one_mul, abs_of_pos hdt] at s3
    rw [← s0, vecNorm_smul, abs_of_pos hdt] at s1
    have s5 := mul_le_mul_of_nonneg_left bW hdt.le
    have s6 := mul_le_mul_of_nonneg_left bQ hdt.le
    linarith
  have hU : 0 ≤ vecNorm u / P.aV := div_nonneg (vecNorm_nonneg _) ha.le
  have hO : 0 ≤ vecNorm ω := vecNorm_nonneg _
  set U := vecNorm u / P.aV
  set O := vecNorm ω
  have k1 := mul_le_mul_of_nonneg_right (hlam.trans hσ) hU
  have k2 := mul_le_mul_of_nonneg_right (hδ.trans hσ) hO
  have k3 := mul_le_mul_of_nonneg_right (hw.trans hσ) hO
  have k4 := mul_le_mul_of_nonneg_right hm hU
  have hN1 : 0 ≤ P.dt * vecNorm a := mul_nonneg hdt.le (vecNorm_nonneg _)
  have hN2 : 0 ≤ vecNorm b := vecNorm_nonneg _
  linarith

/-- **One Newton step** multiplies what is missing in the equations by at most 16 times the size `σ` of the step, up to
    the jumps of the slip law and of the rotation map. -/
theorem newton_step {κ T Λ ε σ : ℝ} (hdt : 0 < P.dt) (hv : 0 < P.detV) (hcn : qn P.cN = 1)
    (h1 : ∀ k, |P.el.kDiag k| ≤ κ) (hΛ : 0 ≤ Λ) (hP : ∀ i, vecNorm (fun k => P.geom.P k i) ≤ 1)
    (hQ : ∀ i, vecNorm (fun k => P.geom.Q k i) ≤ 1 / 2) (hG : P.Gentle T Λ ε)
    (hlam : n * (Λ * κ) * P.dt ≤ σ) (hδ : P.dt * vecNorm P.dSm ≤ σ) (hw : P.dt * vecNorm P.wSm ≤ σ) (hσ : σ ≤ 1 / 32)
    (hm : vecNorm P.eN / P.aV ≤ 1 / 4) {x y : Vec 8} (hx : ∀ s, |P.taua x s| ≤ T) (hy : ∀ s, |P.taua y s| ≤ T)
    {z : Vec 8} (hzE : P.eF y = P.eF x + fun i => z (iE i)) (hzR : xiF y = xiF x + fun i => z (iR i))
    (hE : ∀ i, (P.jacU x).mulVec z (iE i) = -P.residE x i) (hR : ∀ i, (P.jacU x).mulVec z (iR i) = -P.residR x i) :
    P.defect y ≤ 16 * σ * P.defect x + (3 / 2 * P.dt * (n * ε) + 5 * σ * (8 / 10 ^ 90)) := by
  have ha := P.aV_pos hv
  have hsize := P.newton_size hdt hv hcn h1 hP hQ hG hlam hδ hw hσ hm hx hE hR
  set u : Vec 5 := fun i => z (iE i) with hu
  set ω : Vec 3 := fun i => z (iR i) with hω
  set g := P.dSlip x u with hg
  set F := (dDappDxi P.dSm (xiF x) P.cN (P.cMatx x) (P.cQuat x)).mulVec ω with hF
  set W := (dWappDxi P.wSm (xiF x) P.cN (P.cQuat x)).mulVec ω with hW
  have bF : vecNorm F ≤ 4 * vecNorm P.dSm * vecNorm ω := dDapp_le hcn (P.qn_cQuat hcn x) _ _ _
  have bW : vecNorm W ≤ 2 * vecNorm P.wSm * vecNorm ω := dWapp_le hcn (P.qn_cQuat hcn x) _ _ _
  have bg : ∑ s, |g s| ≤ n * (Λ * κ) * (vecNorm u / P.aV) := P.dSlip_le hv h1 hP hG hx u
  have ey : P.eF y - P.eF x = u := by rw [hzE]; abel
  have ry : xiF y - xiF x = ω := by rw [hzR]; abel
  have bγ := P.slip_change hv h1 hΛ hP hG hx hy
  rw [ey] at bγ
  have bD := P.rate_lip hcn y x P.dSm
  have bS := P.spin_lip hcn y x P.wSm
  rw [ry] at bD bS
  set Δ := P.gdot y - P.gdot x with hΔ
  set ΔD := vecsVMTa (P.qr5x5 y) P.dSm - vecsVMTa (P.qr5x5 x) P.dSm with hΔD
  set ΔW := vecsVMTa (P.cMatx y) P.wSm - vecsVMTa (P.cMatx x) P.wSm with hΔW
  have neg_le : ∀ {k : ℕ} (v : Vec k), vecNorm ((-1 : ℝ) • v) = vecNorm v := fun v => by
    rw [vecNorm_smul, abs_neg, abs_one, one_mul]
  have eE : P.residE y = vecsVMa P.geom.P Δ + (-1 : ℝ) • vecsVMa P.geom.P g + (-1 : ℝ) • ΔD + F := by
    funext i
    have h := hE i
    rw [P.jacU_upper, ← hu, ← hω, ← hg, ← hF] at h
    have hed : P.edot y i = P.edot x i + P.dtRi * z (iE i) := by
      have h2 := congrFun hzE i
      rw [P.edot_eq' y i, P.edot_eq' x i, h2]
      simp only [Pi.add_apply, hu]
      ring
    rw [hΔ, vecsVMa_sub]
    simp only [residE, Pi.smul_apply, Pi.add_apply, Pi.sub_apply, smul_eq_mul, hed, hΔD] at h ⊢
    linear_combination h
  have hspin : ∀ z, vecsVMa (m35 (P.eF z)) (P.edot z) = (1 / P.dt) • vecsVMa (m35 P.eN) (P.eF z - P.eN) := by
    intro z
    rw [P.edot_eq, slipSum_smul]
    congr 1
    have h := m35_self P.eN (P.eF z - P.eN) 1
    rwa [one_smul, add_sub_cancel] at h
  have eR : P.residR y = P.dt • (vecsVMa P.geom.Q Δ + (-1 : ℝ) • vecsVMa P.geom.Q g + (-1 : ℝ) • ΔW + W) := by
    funext i
    have h := hR i
    rw [P.jacU_lower hdt, ← hu, ← hω, ← hg, ← hW] at h
    have hxi : xiF y i = xiF x i + z (iR i) := congrFun hzR i
    have hsp : vecsVMa (m35 (P.eF y)) (P.edot y) i = vecsVMa (m35 (P.eF x)) (P.edot x) i
        + 1 / P.dt * vecsVMa (m35 P.eN) u i := by
      rw [hspin, hspin, show P.eF y - P.eN = (P.eF x - P.eN) + u by rw [hzE]; abel, vecsVMa_add]
      simp only [Pi.smul_apply, Pi.add_apply, smul_eq_mul]
      ring
    have hi : P.dt * (1 / P.dt) = 1 := by field_simp
    rw [hΔ, vecsVMa_sub]
    simp only [residR, Pi.smul_apply, Pi.add_apply, Pi.sub_apply, smul_eq_mul, hsp, hxi, hΔW] at h ⊢
    linear_combination h - P.eeFac * vecsVMa (m35 P.eN) u i * hi
  have nE : vecNorm (P.residE y) ≤ ∑ s, |Δ s| + ∑ s, |g s| + vecNorm ΔD + vecNorm F := by
    rw [eE]
    have s1 := vecNorm_add_le (vecsVMa P.geom.P Δ + (-1 : ℝ) • vecsVMa P.geom.P g + (-1 : ℝ) • ΔD) F
    have s2 := vecNorm_add_le (vecsVMa P.geom.P Δ + (-1 : ℝ) • vecsVMa P.geom.P g) ((-1 : ℝ) • ΔD)
    have s3 := vecNorm_add_le (vecsVMa P.geom.P Δ) ((-1 : ℝ) • vecsVMa P.geom.P g)
    rw [neg_le] at s2 s3
    have s4 := vecNorm_vecsVMa_le _ hP Δ
    have s5 := vecNorm_vecsVMa_le _ hP g
    linarith
  have nR : vecNorm (P.residR y) ≤ P.dt * (1 / 2 * ∑ s, |Δ s| + 1 / 2 * ∑ s, |g s| + vecNorm ΔW + vecNorm W) := by
    rw [eR, vecNorm_smul, abs_of_pos hdt]
    refine mul_le_mul_of_nonneg_left ?_ hdt.le
    have s1 := vecNorm_add_le (vecsVMa P.geom.Q Δ + (-1 : ℝ) • vecsVMa P.geom.Q g + (-1 : ℝ) • ΔW) W
    have s2 := vecNorm_add_le (vecsVMa P.geom.Q Δ + (-1 : ℝ) • vecsVMa P.geom.Q g) ((-1 : ℝ) • ΔW)
    have s3 := vecNorm_add_le (vecsVMa P.geom.Q Δ) ((-1 : ℝ) • vecsVMa P.geom.Q g)
    rw [neg_le] at s2 s3
    have s4 := vecNorm_vecsVMa_le _ hQ Δ
    have s5 := vecNorm_vecsVMa_le _ hQ g
    linarith
  have hU : 0 ≤ vecNorm u / P.aV := div_nonneg (vecNorm_nonneg _) ha.le
  have hO : 0 ≤ vecNorm ω := vecNorm_nonneg _
  have hσ0 : 0 ≤ σ := (mul_nonneg hdt.le (vecNorm_nonneg _)).trans hδ
  unfold defect
  have hN : 0 ≤ P.dt * vecNorm (P.residE x) + vecNorm (P.residR x) :=
    add_nonneg (mul_nonneg hdt.le (vecNorm_nonneg _)) (vecNorm_nonneg _)
  set U := vecNorm u / P.aV
  set O := vecNorm ω
  set N := P.dt * vecNorm (P.residE x) + vecNorm (P.residR x)
  have n1 := mul_le_mul_of_nonneg_left (nE.trans (add_le_add (add_le_add (add_le_add bγ bg) bD) bF)) hdt.le
  have n2 := nR.trans (mul_le_mul_of_nonneg_left (add_le_add (add_le_add (add_le_add
    (mul_le_mul_of_nonneg_left bγ (by norm_num : (0 : ℝ) ≤ 1 / 2))
    (mul_le_mul_of_nonneg_left bg (by norm_num : (0 : ℝ) ≤ 1 / 2))) bS) bW) hdt.le)
  have k1 := mul_le_mul_of_nonneg_right hlam hU
  have k2 := mul_le_mul_of_nonneg_right hδ hO
  have k3 := mul_le_mul_of_nonneg_right hw hO
  have k4 := mul_le_mul_of_nonneg_left hsize hσ0
  have k5 : 0 ≤ σ * U := mul_nonneg hσ0 hU
  have k6 : 0 ≤ σ * N := mul_nonneg hσ0 hN
  have k7 := mul_le_mul_of_nonneg_right hδ (show (0 : ℝ) ≤ 8 / 10 ^ 90 by positivity)
  have k8 := mul_le_mul_of_nonneg_right hw (show (0 : ℝ) ≤ 8 / 10 ^ 90 by positivity)
  have k9 : 0 ≤ σ * (8 / 10 ^ 90) := mul_nonneg hσ0 (by positivity)
  generalize (8 / 10 ^ 90 : ℝ) = η at *
  nlinarith

end Updst
end Ecm
