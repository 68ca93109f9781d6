/- Helper lemmas for C80: sizes of the derivatives of the rotated rates, and the kernel of the Jacobian. -/
import Verif.Lemmas.UniqueStep
import Verif.Lemmas.Problem
import Verif.Lemmas.Solvable
import Verif.Lemmas.Implicit
import Mathlib.LinearAlgebra.Matrix.ToLinearEquiv

namespace Ecm
open Spec Ecm.Props

/-- derivative of the quaternion of a rotation increment in the direction `u` -/
noncomputable def dEmapDir (ξ u : Vec 3) : Vec 4 := fun r => ∑ w, dquatDemapT ξ w r * u w

theorem dEmapDir_le (ξ u : Vec 3) : vecNorm (dEmapDir ξ u) ≤ 11 / 20 * vecNorm u := by
  refine abs_le_of_sq_le_sq' ?_ (mul_nonneg (by norm_num) (vecNorm_nonneg u)) |>.2
  rw [mul_pow, vecNorm_sq, vecNorm_sq]
  have hθ0 := vecNorm_nonneg ξ
  -- the direction has unit length
  have haux : (dqAux ξ).na ^ 2 + (dqAux ξ).nb ^ 2 + (dqAux ξ).nc ^ 2 = 1 := by
    have key : vecNorm ξ ≠ 0 → (ξ 0 * (1 / vecNorm ξ)) ^ 2 + (ξ 1 * (1 / vecNorm ξ)) ^ 2
        + (ξ 2 * (1 / vecNorm ξ)) ^ 2 = 1 := by
      intro h
      have h2 := vecNorm_sq ξ
      rw [Fin.sum_univ_three] at h2
      field_simp
      linarith
    simp only [dqAux]
    split_ifs with h1 h2
    · norm_num
    · refine key fun h => h2 ?_
      rw [h, abs_zero]; exact idpTinySqrt_pos
    · refine key fun h => h1 ?_
      rw [h, abs_zero]; norm_num [thetaSmA]
  have hs : 0 ≤ (dqAux ξ).sthhbyth ∧ (dqAux ξ).sthhbyth ≤ 1 / 2 ∨ |(dqAux ξ).sthhbyth| ≤ 1 / 2 := by
    simp only [dqAux]
    split_ifs with h1 h2
    · left
      rw [abs_of_nonneg hθ0] at h1
      have : vecNorm ξ < 1 := h1.trans (by norm_num [thetaSmA])
      constructor <;> nlinarith
    · left
      rw [abs_of_nonneg hθ0] at h1
      have : vecNorm ξ < 1 := h1.trans (by norm_num [thetaSmA])
      constructor <;> nlinarith
    · right
      have hp : 0 < vecNorm ξ := by
        rcases hθ0.eq_or_lt with h | h
        · exact absurd (by rw [← h, abs_zero]; norm_num [thetaSmA]) h1
        · exact h
      rw [abs_div, abs_of_pos hp, div_le_iff₀ hp]
      have := Real.abs_sin_le_abs (x := vecNorm ξ * (1 / 2))
      rw [abs_of_nonneg (by positivity : 0 ≤ vecNorm ξ * (1 / 2))] at this
      linarith
  have hs' : (dqAux ξ).sthhbyth ^ 2 ≤ 1 / 4 := by
    have : |(dqAux ξ).sthhbyth| ≤ 1 / 2 := by
      rcases hs with ⟨a, b⟩ | h
      · rwa [abs_of_nonneg a]
      · exact h
    rw [← sq_abs]
    nlinarith [abs_nonneg (dqAux ξ).sthhbyth]
  have hh : (dqAux ξ).halfsthh ^ 2 + (Real.cos (vecNorm ξ * (1 / 2)) * (1 / 2)) ^ 2 ≤ 121 / 400 := by
    simp only [dqAux]
    have hc := Real.cos_sq_le_one (vecNorm ξ * (1 / 2))
    have hsc := Real.sin_sq_add_cos_sq (vecNorm ξ * (1 / 2))
    split_ifs with h1 h2
    · rw [abs_of_nonneg hθ0] at h1
      have : vecNorm ξ < 1 / 10 := h1.trans (by norm_num [thetaSmA])
      simp only
      nlinarith
    · rw [abs_of_nonneg hθ0] at h1
      have : vecNorm ξ < 1 / 10 := h1.trans (by norm_num [thetaSmA])
      simp only
      nlinarith
    · simp only
      nlinarith
  simp only [dEmapDir, dquatDemapT, Fin.sum_univ_three, Fin.sum_univ_four, Matrix.of_apply, Matrix.cons_val]
  generalize (dqAux ξ).na = a at *
  generalize (dqAux ξ).nb = b at *
  generalize (dqAux ξ).nc = c at *
  generalize (dqAux ξ).sthhbyth = s at *
  generalize (dqAux ξ).halfsthh = h at *
  generalize Real.cos (vecNorm ξ * (1 / 2)) * (1 / 2) = k at *
  generalize u 0 = x; generalize u 1 = y; generalize u 2 = z
  have hd : (a * x + b * y + c * z) ^ 2 ≤ x ^ 2 + y ^ 2 + z ^ 2 := by
    nlinarith [sq_nonneg (a * y - b * x), sq_nonneg (a * z - c * x), sq_nonneg (b * z - c * y)]
  have e : (-h * a * x + -h * b * y + -h * c * z) ^ 2
      + ((k * (a * a) + s * (1 - a * a)) * x + (k - s) * a * b * y + (k - s) * a * c * z) ^ 2
      + ((k - s) * a * b * x + (k * (b * b) + s * (1 - b * b)) * y + (k - s) * b * c * z) ^ 2
      + ((k - s) * a * c * x + (k - s) * b * c * y + (k * (c * c) + s * (1 - c * c)) * z) ^ 2
      = (h ^ 2 + k ^ 2) * (a * x + b * y + c * z) ^ 2
        + s ^ 2 * (x ^ 2 + y ^ 2 + z ^ 2 - (a * x + b * y + c * z) ^ 2) := by
    have ha : a ^ 2 = 1 - b ^ 2 - c ^ 2 := by linarith
    have h1 : (k * (a * a) + s * (1 - a * a)) * x + (k - s) * a * b * y + (k - s) * a * c * z
        = s * x + (k - s) * a * (a * x + b * y + c * z) := by ring
    have h2 : (k - s) * a * b * x + (k * (b * b) + s * (1 - b * b)) * y + (k - s) * b * c * z
        = s * y + (k - s) * b * (a * x + b * y + c * z) := by ring
    have h3 : (k - s) * a * c * x + (k - s) * b * c * y + (k * (c * c) + s * (1 - c * c)) * z
        = s * z + (k - s) * c * (a * x + b * y + c * z) := by ring
    have h4 : -h * a * x + -h * b * y + -h * c * z = -h * (a * x + b * y + c * z) := by ring
    rw [h1, h2, h3, h4]
    generalize hq : a * x + b * y + c * z = q
    linear_combination ((k - s) * q) ^ 2 * haux + 2 * s * (k - s) * q * hq
  rw [e]
  have t1 := mul_le_mul_of_nonneg_right hh (sq_nonneg (a * x + b * y + c * z))
  have t2 := mul_le_mul_of_nonneg_right hs' (sub_nonneg.2 hd)
  nlinarith

/-- size of the derivative of the rotation tensor -/
theorem dqt_le (q p : Vec 4) (hq : qn q = 1) : frob (dqt q p) ≤ 7 / 2 * vecNorm p := by
  have e : ddot (dqt q p) (dqt q p) = 8 * (qn q * qn p) + 4 * (q 0 * p 0 + q 1 * p 1 + q 2 * p 2 + q 3 * p 3) ^ 2 := by
    simp [ddot, dqt, dQuatToTensor, Fin.sum_univ_three, Fin.sum_univ_four, qn]
    ring
  have hcs : (q 0 * p 0 + q 1 * p 1 + q 2 * p 2 + q 3 * p 3) ^ 2 ≤ qn q * qn p := by
    simp only [qn]
    nlinarith [sq_nonneg (q 0 * p 1 - q 1 * p 0), sq_nonneg (q 0 * p 2 - q 2 * p 0), sq_nonneg (q 0 * p 3 - q 3 * p 0),
      sq_nonneg (q 1 * p 2 - q 2 * p 1), sq_nonneg (q 1 * p 3 - q 3 * p 1), sq_nonneg (q 2 * p 3 - q 3 * p 2)]
  rw [hq, one_mul] at hcs e
  unfold frob
  rw [Real.sqrt_le_left (mul_nonneg (by norm_num) (vecNorm_nonneg p)), e, mul_pow, ← qn_eq_vecNorm]
  have : 0 ≤ qn p := by rw [qn_eq_vecNorm]; positivity
  nlinarith

theorem dCdir_le {cn : Vec 4} (hcn : qn cn = 1) (ξ u : Vec 3) (cq : Vec 4) (hcq : qn cq = 1) :
    frob (dCdir ξ cn cq u) ≤ 2 * vecNorm u := by
  have e : dCdir ξ cn cq u = dqt cq (quatProd cn (dEmapDir ξ u)) := by
    ext a b
    simp only [dCdir, dqt, Matrix.of_apply, dCmatxDxi, dCquatDxiT, Fin.sum_univ_three, Fin.sum_univ_four]
    simp [quatProd, dEmapDir, Fin.sum_univ_three]
    ring
  rw [e]
  refine (dqt_le _ _ hcq).trans ?_
  rw [vecNorm_prod_unit hcn]
  have := dEmapDir_le ξ u
  have := vecNorm_nonneg u
  linarith

theorem dDapp_le {cn cq : Vec 4} (hcn : qn cn = 1) (hcq : qn cq = 1) (ξ u : Vec 3) (d : Vec 5) :
    vecNorm ((dDappDxi d ξ cn (quatToTensor cq) cq).mulVec u) ≤ 4 * vecNorm d * vecNorm u := by
  obtain ⟨D, hD, rfl⟩ : ∃ D : T3, IsDev D ∧ symmToVecd D = d :=
    ⟨vecdToSymm d, vecdToSymm_isDev d, symmToVecd_vecdToSymm d⟩
  set R := quatToTensor cq with hR
  set Z := dCdir ξ cn cq u with hZ
  have e : (dDappDxi (symmToVecd D) ξ cn R cq).mulVec u = symmToVecd (Z.transpose * D * R + R.transpose * D * Z) := by
    funext i
    rw [← vecdToSymm_symmToVecd D hD, symmToVecd_vecdToSymm, ← latop_eq]
    simp only [dDappDxi, hZ, dCdir, Matrix.of_apply, Matrix.mulVec, dotProduct, Fin.sum_univ_three]
    ring
  have hn : ∀ A : T3, A.IsSymm → vecNorm (symmToVecd A) ≤ frob A := by
    intro A hA
    have h10 : A 1 0 = A 0 1 := hA.apply 0 1
    have h20 : A 2 0 = A 0 2 := hA.apply 0 2
    have h21 : A 2 1 = A 1 2 := hA.apply 1 2
    unfold vecNorm frob
    refine Real.sqrt_le_sqrt ?_
    have : ∑ i, symmToVecd A i * symmToVecd A i
        = ddot A A - 1 / 3 * (A 0 0 + A 1 1 + A 2 2) ^ 2 := by
      simp only [ddot, Fin.sum_univ_three, Fin.sum_univ_five, symmToVecd, Matrix.cons_val, h10, h20, h21]
      sqr_ring
    rw [this]
    linarith [sq_nonneg (A 0 0 + A 1 1 + A 2 2)]
  have hrot := (isRot_of_unit hcq).1
  rw [e]
  have hsym : (Z.transpose * D * R + R.transpose * D * Z).IsSymm := by
    unfold Matrix.IsSymm
    rw [Matrix.transpose_add, Matrix.transpose_mul, Matrix.transpose_mul, Matrix.transpose_mul, Matrix.transpose_mul,
      Matrix.transpose_transpose, Matrix.transpose_transpose, hD.1, Matrix.mul_assoc, Matrix.mul_assoc, add_comm]
  refine (hn _ hsym).trans ((frob_add_le _ _).trans ?_)
  have b1 : frob (Z.transpose * D * R) ≤ frob Z * frob D := by
    rw [frob_mul_rot hrot]
    refine (frob_mul_le _ _).trans ?_
    rw [frob_transpose]
  have b2 : frob (R.transpose * D * Z) ≤ frob D * frob Z := by
    rw [Matrix.mul_assoc, ← frob_transpose, Matrix.transpose_mul, Matrix.transpose_transpose, frob_mul_rot hrot,
      frob_transpose]
    exact frob_mul_le _ _
  have b3 := mul_le_mul_of_nonneg_right (dCdir_le hcn ξ u cq hcq) (frob_nonneg D)
  rw [← frob_vecd hD]
  linarith

theorem dWapp_le {cn cq : Vec 4} (hcn : qn cn = 1) (hcq : qn cq = 1) (ξ u : Vec 3) (w : Vec 3) :
    vecNorm ((dWappDxi w ξ cn cq).mulVec u) ≤ 2 * vecNorm w * vecNorm u := by
  set Z := dCdir ξ cn cq u with hZ
  have e : (dWappDxi w ξ cn cq).mulVec u = vecsVMTa Z w - vecsVMTa 0 w := by
    funext i
    rw [Pi.sub_apply, vecsVMTa_eq, vecsVMTa_eq, ← wveccp_eq]
    simp only [dWappDxi, hZ, dCdir, Matrix.of_apply, Matrix.mulVec, dotProduct, Fin.sum_univ_three]
    simp
    ring
  rw [e]
  refine (rot_vec_lip _ _ _).trans ?_
  rw [sub_zero]
  have b3 := mul_le_mul_of_nonneg_right (dCdir_le hcn ξ u cq hcq) (vecNorm_nonneg w)
  linarith

namespace Updst
variable {n : ℕ} (P : Updst n)

/-- **The Jacobian has no kernel**, if the slip rates do not fall with the stress and the step is short. -/
theorem jacU_ker {κ₀ κ K : ℝ} (hκ₀ : 0 < κ₀) (h0 : ∀ k, κ₀ ≤ P.el.kDiag k) (h1 : ∀ k, P.el.kDiag k ≤ κ)
    (hdt : 0 < P.dt) (hv : 0 < P.detV) (hcn : qn P.cN = 1) (hSB : SlipBound P.geom.P K) (hK : 0 ≤ K)
    (hP : ∀ i, vecNorm (fun k => P.geom.P k i) ≤ 1) (hQ : ∀ i, vecNorm (fun k => P.geom.Q k i) ≤ 1 / 2)
    (x : Vec 8) (hm : ∀ i, 0 ≤ P.dgdotDtau x i) (b : ℝ)
    (hb : b = K * (1 + Real.sqrt (κ / κ₀)) / 2 + Real.sqrt (κ / κ₀) * vecNorm P.eN / P.aV)
    (hsmall : P.dt * (2 * vecNorm P.wSm + 4 * b * vecNorm P.dSm) < 1) {z : Vec 8}
    (hz : (P.jacU x).mulVec z = 0) : z = 0 := by
  have ha := P.aV_pos hv
  have hes : (0 : ℝ) < eScale := by norm_num [eScale]
  have hrs : (0 : ℝ) < rScale := by norm_num [rScale]
  set u : Vec 5 := fun i => z (iE i) with hu
  set ω : Vec 3 := fun i => z (iR i) with hω
  -- the same vector as a point of the problem
  set v : Vec 8 := block8 (fun i => u i / eScale) (fun i => ω i / rScale) with hvd
  have vE : P.eF v = P.eN + u := by
    funext i
    simp only [eF, vecsVapb, vecsVxa, hvd, block8_iE, Pi.add_apply]
    rw [mul_div_cancel₀ _ hes.ne', add_comm]
  have vX : xiF v = ω := by
    funext i
    simp only [xiF, vecsVxa, hvd, block8_iR]
    rw [mul_div_cancel₀ _ hrs.ne']
  have oE : P.eF 0 = P.eN := by
    funext i; simp [eF, vecsVapb, vecsVxa]
  have oX : xiF (0 : Vec 8) = 0 := by
    funext i; simp [xiF, vecsVxa]
  set g : Vec n := fun s => P.dgdotDtau x s * (P.taua v s - P.taua 0 s) with hg
  have hF : Follows g (P.taua v - P.taua 0) := by
    intro i
    simp only [hg, Pi.sub_apply]
    refine ⟨?_, fun h => by rw [h, mul_zero]⟩
    rw [mul_assoc]
    exact mul_nonneg (hm i) (mul_self_nonneg _)
  have hgs : ∀ s, ∑ j, P.dgdotDeps x j s * u j = g s := by
    intro s
    simp only [hg]
    rw [P.taua_sub, vE, oE, Finset.mul_sum, Finset.mul_sum]
    refine Finset.sum_congr rfl fun j _ => ?_
    simp only [dgdotDeps, Elast.multDTDepsT, Pi.add_apply, add_sub_cancel_left]
    ring
  set Fx : Vec 5 := (dDappDxi P.dSm (xiF x) P.cN (P.cMatx x) (P.cQuat x)).mulVec ω with hFx
  set Wx : Vec 3 := (dWappDxi P.wSm (xiF x) P.cN (P.cQuat x)).mulVec ω with hWx
  have hz8 : ∀ i, ∑ k, P.jacU x i k * z k = 0 := fun i => congrFun hz i
  have hE : ∀ i, vecsVMa P.geom.P g i + P.aVri * P.dtRi * u i - Fx i = 0 := by
    intro i
    have h := hz8 (iE i)
    rw [sum_fin8] at h
    have e1 : ∀ j, P.jacU x (iE i) (iE j) = P.dplSymm x i j + if i = j then P.aVri * P.dtRi else 0 := fun j => by
      unfold jacU; exact block88_EE _ _ _ _ i j
    have e2 : ∀ j, P.jacU x (iE i) (iR j)
        = -dDappDxi P.dSm (xiF x) P.cN (P.cMatx x) (P.cQuat x) i j := fun j => by
      unfold jacU; exact block88_ER _ _ _ _ i j
    simp only [e1, e2, add_mul, Finset.sum_add_distrib, ite_mul, zero_mul, Finset.sum_ite_eq, Finset.mem_univ,
      if_true, neg_mul, Finset.sum_neg_distrib] at h
    have e3 : ∑ j, P.dplSymm x i j * z (iE j) = vecsVMa P.geom.P g i := by
      simp only [dplSymm, vecsMABT, vecsVMa, Finset.sum_mul]
      rw [Finset.sum_comm]
      refine Finset.sum_congr rfl fun s _ => ?_
      rw [← hgs, Finset.mul_sum]
      exact Finset.sum_congr rfl fun j _ => by simp only [hu]; ring
    rw [e3] at h
    simp only [hFx, Matrix.mulVec, dotProduct, hω, hu]
    linarith
  have hR : ∀ i, P.dt * vecsVMa P.geom.Q g i - P.eeFac * vecsVMa (m35 P.eN) u i - P.dt * Wx i + ω i = 0 := by
    intro i
    have h := hz8 (iR i)
    rw [sum_fin8] at h
    have e1 : ∀ j, P.jacU x (iR i) (iE j) = P.dt * P.dplSkew x i j
        - P.dt * P.eeFac * (m35 (P.eF x) i j * P.dtRi - m35 (P.edot x) i j) := fun j => by
      unfold jacU; exact block88_RE _ _ _ _ i j
    have e2 : ∀ j, P.jacU x (iR i) (iR j)
        = -P.dt * dWappDxi P.wSm (xiF x) P.cN (P.cQuat x) i j + if i = j then 1 else 0 := fun j => by
      unfold jacU; exact block88_RR _ _ _ _ i j
    simp only [e1, e2, add_mul, sub_mul, Finset.sum_add_distrib, Finset.sum_sub_distrib, ite_mul, zero_mul, one_mul,
      Finset.sum_ite_eq, Finset.mem_univ, if_true] at h
    have e3 : ∑ j, P.dt * P.dplSkew x i j * z (iE j) = P.dt * vecsVMa P.geom.Q g i := by
      simp only [dplSkew, vecsMABT, vecsVMa, Finset.sum_mul, Finset.mul_sum]
      rw [Finset.sum_comm]
      refine Finset.sum_congr rfl fun s _ => ?_
      rw [← hgs, Finset.mul_sum, Finset.mul_sum]
      exact Finset.sum_congr rfl fun j _ => by simp only [hu]; ring
    have e4 : ∑ j, P.dt * P.eeFac * (m35 (P.eF x) i j * P.dtRi - m35 (P.edot x) i j) * z (iE j)
        = P.eeFac * vecsVMa (m35 P.eN) u i := by
      have hm35 : ∀ j, P.dt * (m35 (P.eF x) i j * P.dtRi - m35 (P.edot x) i j) = m35 P.eN i j := by
        intro j
        have hd : P.dt * P.dtRi = 1 := by unfold dtRi; field_simp
        have hed : P.edot x = fun k => P.dtRi * (P.eF x k - P.eN k) := by
          funext k
          simp only [edot, eF, vecsVsa, vecsVapb, vecsVxa]
          ring
        have hlin : ∀ (a c : Vec 5) (t : ℝ), m35 (fun k => t * (a k - c k)) i j = t * (m35 a i j - m35 c i j) := by
          intro a c t
          fin_cases i <;> fin_cases j <;> simp [m35] <;> ring
        rw [hed, hlin]
        linear_combination m35 P.eN i j * hd
      rw [vecsVMa, Finset.mul_sum]
      refine Finset.sum_congr rfl fun j _ => ?_
      rw [← hm35]
      simp only [hu]
      ring
    rw [e3, e4] at h
    have e5 : ∑ j, -P.dt * dWappDxi P.wSm (xiF x) P.cN (P.cQuat x) i j * z (iR j) = -(P.dt * Wx i) := by
      simp only [hWx, Matrix.mulVec, dotProduct, hω, Finset.mul_sum, ← Finset.sum_neg_distrib]
      exact Finset.sum_congr rfl fun j _ => by ring
    rw [e5] at h
    simp only [hω]
    linarith
  have zx : P.eF v = P.eN + (P.dt * P.aV) • (Fx - vecsVMa P.geom.P g) := by
    rw [vE]
    congr 1
    funext i
    have h := hE i
    have hi : P.dt * P.aV * (P.aVri * P.dtRi) = 1 := by unfold aVri dtRi; field_simp
    simp only [Pi.smul_apply, Pi.sub_apply, smul_eq_mul]
    linear_combination P.dt * P.aV * h - u i * hi
  have zy : P.eF 0 = P.eN + (P.dt * P.aV) • ((0 : Vec 5) - vecsVMa P.geom.P 0) := by
    rw [oE]
    funext i
    simp [vecsVMa]
  have edv : P.edot v = (1 / P.dt) • u := by
    rw [P.edot_eq, vE, add_sub_cancel_left]
  have wx : xiF v = P.dt • (Wx - vecsVMa P.geom.Q g + P.eeFac • vecsVMa (m35 (P.eF v)) (P.edot v)) := by
    rw [vX, edv, slipSum_smul, vE]
    have hself := m35_self P.eN u 1
    rw [one_smul] at hself
    rw [hself]
    funext i
    have h := hR i
    simp only [Pi.smul_apply, Pi.add_apply, Pi.sub_apply, smul_eq_mul]
    have hi : P.dt * (1 / P.dt) = 1 := by field_simp
    linear_combination h - P.eeFac * vecsVMa (m35 P.eN) u i * hi
  have wy : xiF (0 : Vec 8) = P.dt • ((0 : Vec 3) - vecsVMa P.geom.Q 0
      + P.eeFac • vecsVMa (m35 (P.eF 0)) (P.edot 0)) := by
    rw [oX]
    funext i
    have : P.edot 0 = 0 := by funext k; simp [edot, vecsVsa, vecsVxa]
    rw [this]
    simp [vecsVMa]
  have hge : ∀ i, |g i - (0 : Vec n) i - g i| ≤ 0 := fun i => by simp
  have hrot := P.pair_rot hκ₀ h0 h1 hdt hv hSB hK hP hQ (ε := 0) zx zy hF hge wx wy
  rw [← hb, sub_zero, sub_zero, mul_zero, add_zero, add_zero, oX, sub_zero, vX] at hrot
  have hb0 : 0 ≤ b := by
    rw [hb]
    have := vecNorm_nonneg P.eN
    positivity
  have l1 : vecNorm Fx ≤ 4 * vecNorm P.dSm * vecNorm ω := dDapp_le hcn (P.qn_cQuat hcn x) _ _ _
  have l2 : vecNorm Wx ≤ 2 * vecNorm P.wSm * vecNorm ω := dWapp_le hcn (P.qn_cQuat hcn x) _ _ _
  have hω0 := vecNorm_nonneg ω
  have l3 := mul_le_mul_of_nonneg_left l1 hb0
  have l4 : vecNorm ω ≤ P.dt * (2 * vecNorm P.wSm + 4 * b * vecNorm P.dSm) * vecNorm ω := by
    refine hrot.trans ?_
    rw [mul_assoc]
    refine mul_le_mul_of_nonneg_left ?_ hdt.le
    linarith
  have hω1 : vecNorm ω = 0 := by nlinarith
  have hωz : ω = 0 := vecNorm_eq_zero hω1
  have hstr := (P.pair_strain hκ₀ h0 h1 hdt hv hSB hK hP (ε := 0) zx zy hF hge).1
  rw [sub_zero, hFx, hωz, Matrix.mulVec_zero, vecNorm_zero, mul_zero, add_zero, mul_zero, mul_zero, vE, oE,
    add_sub_cancel_left] at hstr
  have huz : u = 0 := vecNorm_eq_zero (le_antisymm hstr (vecNorm_nonneg _))
  funext k
  revert k
  exact forall_fin8 (fun i => congrFun huz i) (fun i => congrFun hωz i)

/-- the Jacobian is invertible -/
theorem jacU_det {κ₀ κ K : ℝ} (hκ₀ : 0 < κ₀) (h0 : ∀ k, κ₀ ≤ P.el.kDiag k) (h1 : ∀ k, P.el.kDiag k ≤ κ)
    (hdt : 0 < P.dt) (hv : 0 < P.detV) (hcn : qn P.cN = 1) (hSB : SlipBound P.geom.P K) (hK : 0 ≤ K)
    (hP : ∀ i, vecNorm (fun k => P.geom.P k i) ≤ 1) (hQ : ∀ i, vecNorm (fun k => P.geom.Q k i) ≤ 1 / 2)
    (x : Vec 8) (hm : ∀ i, 0 ≤ P.dgdotDtau x i) (b : ℝ)
    (hb : b = K * (1 + Real.sqrt (κ / κ₀)) / 2 + Real.sqrt (κ / κ₀) * vecNorm P.eN / P.aV)
    (hsmall : P.dt * (3 / 2 * vecNorm P.wSm + 3 * b * vecNorm P.dSm) ≤ 1 / 2) :
    (P.jacU x).det ≠ 0 := by
  intro h
  obtain ⟨z, hz, hJ⟩ := Matrix.exists_mulVec_eq_zero_iff.2 h
  refine hz (P.jacU_ker hκ₀ h0 h1 hdt hv hcn hSB hK hP hQ x hm b hb ?_ hJ)
  linarith

/-- the Jacobian handed to the solver is invertible with the unscaled one -/
theorem jac_det (hdt : 0 < P.dt) (ha : 0 < P.adotsRef) (x : Vec 8) (h : (P.jacU x).det ≠ 0) :
    (P.jac x).det ≠ 0 := by
  set a : Vec 8 := fun i => if i.val < 5 then P.epsdotScaleInv else P.rotincrScaleInv with hadef
  have e : P.jac x = Matrix.diagonal a * P.jacU x * Matrix.diagonal xScale := by
    ext i j
    rw [Matrix.mul_diagonal, Matrix.diagonal_mul]
    simp only [jac, hadef, xScale]
    ring
  rw [e, Matrix.det_mul, Matrix.det_mul, Matrix.det_diagonal, Matrix.det_diagonal]
  refine mul_ne_zero (mul_ne_zero (Finset.prod_ne_zero_iff.2 fun k _ => ?_) h)
    (Finset.prod_ne_zero_iff.2 fun k _ => ?_)
  · simp only [hadef]
    split_ifs
    · exact (P.epsdotScaleInv_pos hdt ha).ne'
    · exact (P.rotincrScaleInv_pos hdt ha).ne'
  · unfold xScale eScale rScale; split_ifs <;> norm_num

/-- the equations of a step at the rate `d`, with the lattice turned as given by `q` -/
def StepEq (d : Vec 5) (q : Vec 4) (x : Vec 8) : Prop :=
  P.eF x = P.eN + (P.dt * P.aV) • (vecsVMTa (getRotMatVecd (quatToTensor q)) d - vecsVMa P.geom.P (P.gdot x)) ∧
  xiF x = P.dt • (vecsVMTa (quatToTensor q) P.wSm - vecsVMa P.geom.Q (P.gdot x)
    + P.eeFac • vecsVMa (m35 (P.eF x)) (P.edot x))

/-- solutions at two rates are as close as the rates -/
theorem rate_pair {κ₀ κ K η : ℝ} (hκ₀ : 0 < κ₀) (h0 : ∀ k, κ₀ ≤ P.el.kDiag k) (h1 : ∀ k, P.el.kDiag k ≤ κ)
    (hdt : 0 < P.dt) (hv : 0 < P.detV) (hSB : SlipBound P.geom.P K) (hK : 0 ≤ K)
    (hP : ∀ i, vecNorm (fun k => P.geom.P k i) ≤ 1) (hQ : ∀ i, vecNorm (fun k => P.geom.Q k i) ≤ 1 / 2)
    (hm : ∀ i, Monotone fun τ => (P.gd i τ).gdot) {x y : Vec 8} {qx qy : Vec 4} {d : Vec 5}
    (hqx : qn qx = 1) (hqy : qn qy = 1) (hx : P.StepEq d qx x) (hy : P.StepEq P.dSm qy y) (hη : 0 ≤ η)
    (hlip : frob (quatToTensor qx - quatToTensor qy) ≤ 3 / 2 * (vecNorm (xiF x - xiF y) + η)) (b : ℝ)
    (hb : b = K * (1 + Real.sqrt (κ / κ₀)) / 2 + Real.sqrt (κ / κ₀) * vecNorm P.eN / P.aV)
    (hsmall : P.dt * (3 / 2 * vecNorm P.wSm + 3 * b * vecNorm P.dSm) ≤ 1 / 2) :
    vecNorm (xiF x - xiF y) ≤ η + 2 * P.dt * (b * vecNorm (d - P.dSm)) ∧
    vecNorm (P.eF x - P.eF y) ≤ P.dt * P.aV * (Real.sqrt (κ / κ₀) *
      (3 * vecNorm P.dSm * (vecNorm (xiF x - xiF y) + η) + vecNorm (d - P.dSm))) := by
  have hgd : ∀ i, P.taua x i = P.taua y i → P.gdot x i = P.gdot y i := fun i h => by
    simp only [gdot, h]
  obtain ⟨g, hg, hge⟩ := exists_follows (d := P.gdot x - P.gdot y) (t := P.taua x - P.taua y) le_rfl (fun i => by
    simp only [Pi.sub_apply]
    refine ⟨fun h => ?_, fun h => ?_, fun h => ?_⟩
    · rw [hgd i (by linarith), sub_self]
    · have := hm i (show P.taua y i ≤ P.taua x i by linarith)
      simp only [gdot]; linarith
    · have := hm i (show P.taua x i ≤ P.taua y i by linarith)
      simp only [gdot]; linarith)
  simp only [Pi.sub_apply] at hge
  have hF : vecNorm (vecsVMTa (getRotMatVecd (quatToTensor qx)) d
      - vecsVMTa (getRotMatVecd (quatToTensor qy)) P.dSm)
      ≤ 3 * vecNorm P.dSm * (vecNorm (xiF x - xiF y) + η) + vecNorm (d - P.dSm) := by
    have e : vecsVMTa (getRotMatVecd (quatToTensor qx)) d - vecsVMTa (getRotMatVecd (quatToTensor qy)) P.dSm
        = (vecsVMTa (getRotMatVecd (quatToTensor qx)) P.dSm - vecsVMTa (getRotMatVecd (quatToTensor qy)) P.dSm)
          + vecsVMTa (getRotMatVecd (quatToTensor qx)) (d - P.dSm) := by
      funext i
      simp only [vecsVMTa, Pi.add_apply, Pi.sub_apply, mul_sub, Finset.sum_sub_distrib]
      ring
    rw [e]
    refine (vecNorm_add_le _ _).trans (add_le_add ?_ (vecNorm_vecsVMTa_rot (isRot_of_unit hqx).1 _).le)
    have h1 := rot_dev_lip hqx hqy P.dSm
    have h2 := mul_le_mul_of_nonneg_right hlip (vecNorm_nonneg P.dSm)
    linarith
  have hW : vecNorm (vecsVMTa (quatToTensor qx) P.wSm - vecsVMTa (quatToTensor qy) P.wSm)
      ≤ 3 / 2 * vecNorm P.wSm * (vecNorm (xiF x - xiF y) + η) + 0 := by
    have h1 := rot_vec_lip (quatToTensor qx) (quatToTensor qy) P.wSm
    have h2 := mul_le_mul_of_nonneg_right hlip (vecNorm_nonneg P.wSm)
    linarith
  have r := P.pair_bound hκ₀ h0 h1 hdt hv hSB hK hP hQ hx.1 hy.1 hg hge hx.2 hy.2 hF hW hη b hb hsmall
  have u := (P.pair_strain hκ₀ h0 h1 hdt hv hSB hK hP hx.1 hy.1 hg hge).1
  rw [mul_zero, add_zero] at u r
  refine ⟨by simpa using r, u.trans ?_⟩
  have := P.aV_pos hv
  gcongr

theorem eq_of_parts {x y : Vec 8} (he : P.eF x = P.eF y) (hξ : xiF x = xiF y) : x = y := by
  have he2 : (0 : ℝ) < eScale := by norm_num [eScale]
  have hr2 : (0 : ℝ) < rScale := by norm_num [rScale]
  funext k
  revert k
  refine forall_fin8 (fun i => ?_) fun i => ?_
  · have h := congrFun he i
    simp only [eF, vecsVapb, vecsVxa] at h
    exact mul_left_cancel₀ he2.ne' (by linarith)
  · have h := congrFun hξ i
    simp only [xiF, vecsVxa] at h
    exact mul_left_cancel₀ hr2.ne' h

theorem StepEq.of_resid (hdt : 0 < P.dt) (hv : 0 < P.detV) {x : Vec 8} (h : P.residE x = 0 ∧ P.residR x = 0) :
    P.StepEq P.dSm (P.cQuat x) x := by
  have h1 := P.strain_form hdt hv x
  have h2 := P.spin_form hdt x
  rw [h.1, add_zero] at h1
  rw [h.2, smul_zero, add_zero] at h2
  exact ⟨h1, h2⟩

theorem StepEq.resid (hdt : 0 < P.dt) (hv : 0 < P.detV) {x : Vec 8} (h : P.StepEq P.dSm (P.cQuat x) x) :
    P.residE x = 0 ∧ P.residR x = 0 := by
  have ha := P.aV_pos hv
  have h1 := P.strain_form hdt hv x
  have h2 := P.spin_form hdt x
  constructor
  · funext i
    have e1 := congrFun (h1.symm.trans h.1) i
    simp only [Pi.add_apply, Pi.sub_apply, Pi.smul_apply, smul_eq_mul, add_right_inj] at e1
    have e2 := mul_left_cancel₀ (mul_pos hdt ha).ne' e1
    have e3 : vecsVMTa (P.qr5x5 x) P.dSm i = vecsVMTa (getRotMatVecd (quatToTensor (P.cQuat x))) P.dSm i := rfl
    simp only [Pi.zero_apply]
    linarith
  · funext i
    have e1 := congrFun (h2.symm.trans h.2) i
    simp only [Pi.add_apply, Pi.sub_apply, Pi.smul_apply, smul_eq_mul] at e1
    have e2 := mul_left_cancel₀ hdt.ne' e1
    have e3 : vecsVMTa (P.cMatx x) P.wSm i = vecsVMTa (quatToTensor (P.cQuat x)) P.wSm i := rfl
    have e4 : 1 / P.dt * P.residR x i = 0 := by linarith
    rcases mul_eq_zero.1 e4 with h | h
    · exact absurd h (one_div_pos.2 hdt).ne'
    · exact h

/-- the lattice orientation with the exact exponential map -/
noncomputable def qExp (x : Vec 8) : Vec 4 := quatProd P.cN (expQuat (xiF x))

theorem cQuat_eq_qExp {x : Vec 8} (h : idpTinySqrt < vecNorm (xiF x)) : P.cQuat x = P.qExp x := by
  unfold cQuat qExp getCQuat
  rw [emapToQuat_eq_expQuat (Or.inl h)]

/-- **Near a solution there is exactly one solution for every nearby rate, and it depends continuously on the
    rate.** -/
theorem exists_path {κ₀ κ K : ℝ} (hκ₀ : 0 < κ₀) (h0 : ∀ k, κ₀ ≤ P.el.kDiag k) (h1 : ∀ k, P.el.kDiag k ≤ κ)
    (hdt : 0 < P.dt) (hv : 0 < P.detV) (hcn : qn P.cN = 1) (hSB : SlipBound P.geom.P K) (hK : 0 ≤ K)
    (hP : ∀ i, vecNorm (fun k => P.geom.P k i) ≤ 1) (hQ : ∀ i, vecNorm (fun k => P.geom.Q k i) ≤ 1 / 2)
    (hc : ∀ i, Continuous fun τ => (P.gd i τ).gdot) (hm : ∀ i, Monotone fun τ => (P.gd i τ).gdot)
    (hz : ∀ i, (P.gd i 0).gdot = 0) (b : ℝ)
    (hb : b = K * (1 + Real.sqrt (κ / κ₀)) / 2 + Real.sqrt (κ / κ₀) * vecNorm P.eN / P.aV)
    (hsmall : P.dt * (3 / 2 * vecNorm P.wSm + 3 * b * vecNorm P.dSm) < 1 / 2)
    {x0 : Vec 8} (hx0 : P.residE x0 = 0 ∧ P.residR x0 = 0) (hξ : 1 / 10 ^ 9 ≤ vecNorm (xiF x0)) (D : Vec 5) :
    ∃ x : ℝ → Vec 8, x 0 = x0 ∧ ContinuousAt x 0 ∧ ∀ᶠ s in nhds (0 : ℝ), ∀ y,
      ((P.atRate fun i => P.dSm i + s * D i).residE y = 0 ∧ P.residR y = 0) ↔ y = x s := by
  have ha := P.aV_pos hv
  have hb0 : 0 ≤ b := by
    rw [hb]
    have := vecNorm_nonneg P.eN
    positivity
  have htiny : idpTinySqrt < 1 / 10 ^ 9 := by norm_num [idpTinySqrt]
  let Q : ℝ → Updst n := fun s => P.atRate fun i => P.dSm i + s * D i
  have hqe : ∀ x : Vec 8, qn (P.qExp x) = 1 := fun x => by
    unfold qExp
    rw [qn_prod, hcn, qn_expQuat, one_mul]
  have hlipE : ∀ z w : Vec 8, frob (quatToTensor (P.qExp z) - quatToTensor (P.qExp w))
      ≤ 3 / 2 * (vecNorm (xiF z - xiF w) + 0) := by
    intro z w
    refine (quatToTensor_lip (hqe z) (hqe w)).trans ?_
    unfold qExp
    rw [quatProd_sub, vecNorm_prod_unit hcn]
    have := expQuat_lip' (xiF z) (xiF w)
    linarith
  -- solutions with the exact exponential map
  have hex : ∀ s, ∃ x, P.StepEq (fun i => P.dSm i + s * D i) (P.qExp x) x := by
    intro s
    obtain ⟨x, hE, hR⟩ := (Q s).exists_exact (fun k => lt_of_lt_of_le hκ₀ (h0 k)) hdt hv hc hm hz
    refine ⟨x, ?_, ?_⟩
    · funext i
      have h := hE i
      have hd := congrFun (P.edot_eq x) i
      have e1 : (Q s).edot x i = P.edot x i := rfl
      have e2 : (Q s).aVri = 1 / P.aV := rfl
      rw [e1, hd, e2] at h
      simp only [Pi.add_apply, Pi.sub_apply, Pi.smul_apply, smul_eq_mul] at h ⊢
      have h' : 1 / P.aV * (1 / P.dt * (P.eF x i - P.eN i)) + vecsVMa P.geom.P (P.gdot x) i
        = vecsVMTa (getRotMatVecd (quatToTensor (P.qExp x))) (fun i => P.dSm i + s * D i) i := h
      rw [← h']
      field_simp
      ring
    · funext i
      exact hR i
  choose xs hxs using hex
  have hE0 : P.StepEq P.dSm (P.qExp x0) x0 := by
    rw [← P.cQuat_eq_qExp (htiny.trans_le hξ)]
    exact StepEq.of_resid P hdt hv hx0
  let x : ℝ → Vec 8 := fun s => if s = 0 then x0 else xs s
  have hx : ∀ s, P.StepEq (fun i => P.dSm i + s * D i) (P.qExp (x s)) (x s) := by
    intro s
    by_cases hs : s = 0
    · simp only [x, if_pos hs, hs, zero_mul, add_zero]
      exact hE0
    · simp only [x, if_neg hs]
      exact hxs s
  have hgap : ∀ s, vecNorm ((fun i => P.dSm i + s * D i) - P.dSm) = |s| * vecNorm D := by
    intro s
    rw [← vecNorm_smul]
    congr 1
    funext i
    simp
  -- distance from the solution at the given rate
  set C := 2 * P.dt * (b * vecNorm D) with hC
  have hC0 : 0 ≤ C := by
    have := vecNorm_nonneg D
    positivity
  set E := P.dt * P.aV * (Real.sqrt (κ / κ₀) * (3 * vecNorm P.dSm * C + vecNorm D)) with hE
  have hclose : ∀ s, vecNorm (xiF (x s) - xiF x0) ≤ C * |s| ∧ vecNorm (P.eF (x s) - P.eF x0) ≤ E * |s| := by
    intro s
    obtain ⟨r1, r2⟩ := P.rate_pair hκ₀ h0 h1 hdt hv hSB hK hP hQ hm (hqe _) (hqe _) (hx s) hE0 le_rfl
      (hlipE _ _) b hb hsmall.le
    rw [hgap] at r1 r2
    have r3 : vecNorm (xiF (x s) - xiF x0) ≤ C * |s| := by
      rw [hC]; linarith
    refine ⟨r3, r2.trans ?_⟩
    have e : E * |s| = P.dt * P.aV * (Real.sqrt (κ / κ₀) * (3 * vecNorm P.dSm * (C * |s|) + |s| * vecNorm D)) := by
      rw [hE]; ring
    rw [e, add_zero]
    have := vecNorm_nonneg P.dSm
    gcongr
  have hcoord : ∀ {k : ℕ} (v : Vec k) (i : Fin k), |v i| ≤ vecNorm v := by
    intro k v i
    refine Real.abs_le_sqrt ?_
    rw [sq]
    exact Finset.single_le_sum (f := fun i => v i * v i) (fun j _ => mul_self_nonneg _) (Finset.mem_univ i)
  refine ⟨x, by simp [x], ?_, ?_⟩
  · rw [continuousAt_pi]
    have hlim : ∀ B c : ℝ, 0 < c → Filter.Tendsto (fun s : ℝ => B * |s| / c) (nhds 0) (nhds 0) := by
      intro B c _
      have : Continuous fun s : ℝ => B * |s| / c := by fun_prop
      simpa using this.tendsto 0
    have hx00 : x 0 = x0 := by simp [x]
    refine forall_fin8 (fun i => ?_) fun i => ?_
    · refine tendsto_iff_dist_tendsto_zero.2 (squeeze_zero (fun _ => dist_nonneg) (fun s => ?_)
        (hlim E eScale (by norm_num [eScale])))
      show dist (x s (iE i)) (x 0 (iE i)) ≤ _
      rw [hx00, Real.dist_eq, le_div_iff₀ (by norm_num [eScale])]
      refine le_trans (le_of_eq ?_) ((hcoord _ i).trans (hclose s).2)
      have he : (0 : ℝ) < eScale := by norm_num [eScale]
      simp only [Pi.sub_apply, eF, vecsVapb, vecsVxa]
      rw [show eScale * x s (iE i) + P.eN i - (eScale * x0 (iE i) + P.eN i) = (x s (iE i) - x0 (iE i)) * eScale by
        ring, abs_mul, abs_of_pos he]
    · refine tendsto_iff_dist_tendsto_zero.2 (squeeze_zero (fun _ => dist_nonneg) (fun s => ?_)
        (hlim C rScale (by norm_num [rScale])))
      show dist (x s (iR i)) (x 0 (iR i)) ≤ _
      rw [hx00, Real.dist_eq, le_div_iff₀ (by norm_num [rScale])]
      refine le_trans (le_of_eq ?_) ((hcoord _ i).trans (hclose s).1)
      have hr : (0 : ℝ) < rScale := by norm_num [rScale]
      simp only [Pi.sub_apply, xiF, vecsVxa]
      rw [← mul_sub, abs_mul, abs_of_pos hr, mul_comm]
  · -- the rate changes little and so do the rotations
    have hev1 : ∀ᶠ s in nhds (0 : ℝ), C * |s| < 1 / 10 ^ 10 := by
      have : Continuous fun s : ℝ => C * |s| := by fun_prop
      refine this.continuousAt.eventually_lt continuousAt_const ?_
      simp
    have hev2 : ∀ᶠ s in nhds (0 : ℝ), P.dt * (3 / 2 * vecNorm P.wSm + 3 * b * vecNorm (Q s).dSm) < 1 / 2 := by
      have h2 : Continuous fun s : ℝ => vecNorm (Q s).dSm := by
        have : (fun s : ℝ => vecNorm (Q s).dSm) = fun s => Real.sqrt (∑ i, (P.dSm i + s * D i) * (P.dSm i + s * D i)) :=
          rfl
        rw [this]
        fun_prop
      have h3 : Continuous fun s : ℝ => P.dt * (3 / 2 * vecNorm P.wSm + 3 * b * vecNorm (Q s).dSm) := by fun_prop
      refine h3.continuousAt.eventually_lt continuousAt_const ?_
      have : (Q 0).dSm = P.dSm := by
        show (fun i => P.dSm i + 0 * D i) = _
        funext i; ring
      rw [this]
      exact hsmall
    filter_upwards [hev1, hev2] with s hs1 hs2 y
    have hbig : ∀ y : Vec 8, vecNorm (xiF y - xiF x0) ≤ 8 / 10 ^ 90 + C * |s| → idpTinySqrt < vecNorm (xiF y) := by
      intro y hy
      have h5 : vecNorm (xiF x0) ≤ vecNorm (xiF y) + vecNorm (xiF y - xiF x0) := by
        have e : xiF x0 = xiF y + (-1 : ℝ) • (xiF y - xiF x0) := by module
        calc vecNorm (xiF x0) = vecNorm (xiF y + (-1 : ℝ) • (xiF y - xiF x0)) := by rw [← e]
          _ ≤ _ := (vecNorm_add_le _ _).trans (by rw [vecNorm_smul]; norm_num)
      have : (1 : ℝ) / 10 ^ 9 - 8 / 10 ^ 90 - 1 / 10 ^ 10 > idpTinySqrt := by norm_num [idpTinySqrt]
      linarith
    have hres : ∀ y : Vec 8, ((Q s).residE y = 0 ∧ P.residR y = 0) ↔
        P.StepEq (fun i => P.dSm i + s * D i) (P.cQuat y) y := fun y =>
      ⟨fun h => StepEq.of_resid (Q s) hdt hv h, fun h => StepEq.resid (Q s) hdt hv h⟩
    have hxbig : idpTinySqrt < vecNorm (xiF (x s)) := hbig _ ((hclose s).1.trans (by
      have : (0 : ℝ) ≤ 8 / 10 ^ 90 := by positivity
      linarith))
    show ((Q s).residE y = 0 ∧ P.residR y = 0) ↔ y = x s
    rw [hres]
    constructor
    · intro hy
      have hybig : idpTinySqrt < vecNorm (xiF y) := by
        have r1 := (P.rate_pair (η := 8 / 10 ^ 90) hκ₀ h0 h1 hdt hv hSB hK hP hQ hm (P.qn_cQuat hcn y)
          (P.qn_cQuat hcn x0) hy (StepEq.of_resid P hdt hv hx0) (by positivity)
          ((P.cMatx_lip hcn y x0).trans (le_of_eq (by ring))) b hb hsmall.le).1
        rw [hgap] at r1
        refine hbig y ?_
        rw [hC]
        linarith
      rw [P.cQuat_eq_qExp hybig] at hy
      obtain ⟨r1, r2⟩ := (Q s).rate_pair hκ₀ h0 h1 hdt hv hSB hK hP hQ hm (hqe y) (hqe (x s)) hy (hx s) le_rfl
        (hlipE _ _) b hb hs2.le
      have hd0 : vecNorm ((fun i => P.dSm i + s * D i) - (Q s).dSm) = 0 := by
        rw [show (Q s).dSm = fun i => P.dSm i + s * D i from rfl, sub_self, vecNorm_zero]
      rw [hd0, mul_zero, mul_zero, add_zero] at r1
      have hξe := vecNorm_eq_zero (le_antisymm r1 (vecNorm_nonneg _))
      rw [hξe, vecNorm_zero, hd0, add_zero, add_zero, mul_zero, mul_zero, mul_zero] at r2
      have hee := vecNorm_eq_zero (le_antisymm r2 (vecNorm_nonneg _))
      exact P.eq_of_parts (sub_eq_zero.1 hee) (sub_eq_zero.1 hξe)
    · rintro rfl
      rw [P.cQuat_eq_qExp hxbig]
      exact hx s

theorem continuous_taua (i : Fin n) : Continuous fun y : Vec 8 => P.taua y i := by
  have h : (fun y : Vec 8 => P.taua y i) = fun y => P.taua 0 i
      + (P.taua y i - P.taua 0 i) := by funext y; ring
  rw [h]
  refine continuous_const.add ?_
  have h2 : (fun y : Vec 8 => P.taua y i - P.taua 0 i)
      = fun y => P.aVri * ∑ j, P.el.kDiag j * (P.eF y j - P.eF 0 j) * P.geom.P j i := by
    funext y; rw [P.taua_sub]
  rw [h2]
  simp only [eF, vecsVapb, vecsVxa]
  fun_prop

/-- the same for slip laws that agree with continuous rising laws near the stresses of the solution -/
theorem exists_path_local {κ₀ κ K : ℝ} (hκ₀ : 0 < κ₀) (h0 : ∀ k, κ₀ ≤ P.el.kDiag k) (h1 : ∀ k, P.el.kDiag k ≤ κ)
    (hdt : 0 < P.dt) (hv : 0 < P.detV) (hcn : qn P.cN = 1) (hSB : SlipBound P.geom.P K) (hK : 0 ≤ K)
    (hP : ∀ i, vecNorm (fun k => P.geom.P k i) ≤ 1) (hQ : ∀ i, vecNorm (fun k => P.geom.Q k i) ≤ 1 / 2)
    {h : Fin n → ℝ → ℝ} (hc : ∀ i, Continuous (h i)) (hm : ∀ i, Monotone (h i)) (hz : ∀ i, h i 0 = 0) (b : ℝ)
    (hb : b = K * (1 + Real.sqrt (κ / κ₀)) / 2 + Real.sqrt (κ / κ₀) * vecNorm P.eN / P.aV)
    (hsmall : P.dt * (3 / 2 * vecNorm P.wSm + 3 * b * vecNorm P.dSm) < 1 / 2)
    {x0 : Vec 8} (hx0 : P.residE x0 = 0 ∧ P.residR x0 = 0) (hξ : 1 / 10 ^ 9 ≤ vecNorm (xiF x0))
    (hloc : ∀ i, ∀ᶠ τ in nhds (P.taua x0 i), (P.gd i τ).gdot = h i τ) (D : Vec 5) :
    ∃ x : ℝ → Vec 8, x 0 = x0 ∧ ContinuousAt x 0 ∧ ∀ᶠ p in nhds ((0 : ℝ), x0),
      ((P.atRate fun i => P.dSm i + p.1 * D i).residE p.2 = 0 ∧ P.residR p.2 = 0) ↔ p.2 = x p.1 := by
  let P' : Updst n := { P with gd := fun i τ => { gdot := h i τ, dtau := 0, dg := 0 } }
  have hE : ∀ (d : Vec 5) (y : Vec 8), (∀ i, (P.gd i (P.taua y i)).gdot = h i (P.taua y i)) →
      (P'.atRate d).residE y = (P.atRate d).residE y ∧ P'.residR y = P.residR y := by
    intro d y hy
    have hg : P'.gdot y = P.gdot y := by
      funext i
      exact (hy i).symm
    constructor
    · funext i
      show P.aVri * P.edot y i + vecsVMa P.geom.P (P'.gdot y) i - vecsVMTa (P.qr5x5 y) d i
        = P.aVri * P.edot y i + vecsVMa P.geom.P (P.gdot y) i - vecsVMTa (P.qr5x5 y) d i
      rw [hg]
    · funext i
      show xiF y i - P.dt * (vecsVMTa (P.cMatx y) P.wSm i - vecsVMa P.geom.Q (P'.gdot y) i
          + P.eeFac * vecsVMa (m35 (P.eF y)) (P.edot y) i)
        = xiF y i - P.dt * (vecsVMTa (P.cMatx y) P.wSm i - vecsVMa P.geom.Q (P.gdot y) i
          + P.eeFac * vecsVMa (m35 (P.eF y)) (P.edot y) i)
      rw [hg]
  have hnear : ∀ᶠ y in nhds x0, ∀ i, (P.gd i (P.taua y i)).gdot = h i (P.taua y i) := by
    rw [Filter.eventually_all]
    intro i
    exact ((P.continuous_taua i).tendsto x0).eventually (hloc i)
  obtain ⟨e1, e2⟩ := hE P.dSm x0 hnear.self_of_nhds
  have hx0' : P'.residE x0 = 0 ∧ P'.residR x0 = 0 := ⟨e1.trans hx0.1, e2.trans hx0.2⟩
  obtain ⟨x, hx, hcx, hsol⟩ := P'.exists_path hκ₀ h0 h1 hdt hv hcn hSB hK hP hQ hc hm hz b hb hsmall hx0' hξ D
  refine ⟨x, hx, hcx, ?_⟩
  rw [nhds_prod_eq]
  filter_upwards [hsol.prod_inl (nhds x0), hnear.prod_inr (nhds (0 : ℝ))] with p hp1 hp2
  obtain ⟨f1, f2⟩ := hE (fun i => P.dSm i + p.1 * D i) p.2 hp2
  rw [← f1, ← f2]
  exact hp1 p.2

end Updst
end Ecm
