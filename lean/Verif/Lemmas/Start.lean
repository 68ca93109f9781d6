/- Derivative of the residual with the exact exponential map, also where the code uses a series: at zero
   rotation increment (where the solver starts) and just beside it. -/
import Verif.Lemmas.Problem
import Verif.Lemmas.Balance

namespace Ecm
open Spec

/-- the residual with the exact exponential map in place of the code's map (they differ for rotation
    increments of magnitude between 0 and 1e-90 only) -/
noncomputable def Updst.residExact {n : ℕ} (P : Updst n) (x : Vec 8) : Vec 8 :=
  let R := quatToTensor (quatProd P.cN (expQuat (Updst.xiF x)))
  block8
    (fun i => P.epsdotScaleInv * (P.aVri * P.edot x i + vecsVMa P.geom.P (P.gdot x) i
      - vecsVMTa (getRotMatVecd R) P.dSm i))
    (fun i => P.rotincrScaleInv * (Updst.xiF x i - P.dt * (vecsVMTa R P.wSm i
      - vecsVMa P.geom.Q (P.gdot x) i + P.eeFac * vecsVMa (m35 (P.eF x)) (P.edot x) i)))

theorem qn_expQuat (e : Vec 3) : qn (expQuat e) = 1 := by
  by_cases he : e = 0
  · subst he; simp [expQuat, qn]
  · have hp := vecNorm_pos_of_ne he
    rw [expQuat_of_pos hp]
    have hs := vecNorm3_sq e
    have h3 : (e 0 / vecNorm e) ^ 2 + (e 1 / vecNorm e) ^ 2 + (e 2 / vecNorm e) ^ 2 = 1 := by
      field_simp; rw [hs]
    have := Real.sin_sq_add_cos_sq (vecNorm e / 2)
    simp only [qn, Matrix.cons_val]
    linear_combination this + Real.sin (vecNorm e / 2) ^ 2 * h3

namespace Updst
variable {n : ℕ} (P : Updst n)

theorem residExact_eq {x : Vec 8} (h : idpTinySqrt < vecNorm (xiF x) ∨ xiF x = 0) :
    P.residExact x = P.resid x := by
  unfold residExact resid residE residR qr5x5 cMatx cQuat getCQuat
  rw [emapToQuat_eq_expQuat h]

/-- entries of the Jacobian with `J` for the derivative of the exponential map -/
noncomputable def jacJ (J : Mat 3 4) (x : Vec 8) : Mat 8 8 := fun i j =>
  let dC : Fin 3 → Fin 3 → Fin 3 → ℝ := fun p q w =>
    ∑ r, dQuatToTensor (P.cQuat x) p q r * quatProd P.cN (J w) r
  block88
    (fun i j => P.dplSymm x i j + if i = j then P.aVri * P.dtRi else 0)
    (fun i w => -∑ p, ∑ q, dRotMatVecdLatop (P.cMatx x) P.dSm i p q * dC p q w)
    (fun i j => P.dt * P.dplSkew x i j
      - P.dt * P.eeFac * (m35 (P.eF x) i j * P.dtRi - m35 (P.edot x) i j))
    (fun i w => -P.dt * (∑ p, ∑ q, dRotMatWveccpLatop P.wSm i p q * dC p q w) + if i = w then 1 else 0)
    i j * ((if i.val < 5 then P.epsdotScaleInv else P.rotincrScaleInv)
    * if j.val < 5 then eScale else rScale)

/-- derivative of the rotation tensor in terms of `J` -/
noncomputable def dCJ (J : Mat 3 4) (x : Vec 8) (p q w : Fin 3) : ℝ :=
  ∑ r, dQuatToTensor (P.cQuat x) p q r * quatProd P.cN (J w) r

theorem jacJ_EE (J : Mat 3 4) (x : Vec 8) (i j : Fin 5) : P.jacJ J x (iE i) (iE j)
    = (P.dplSymm x i j + if i = j then P.aVri * P.dtRi else 0) * (P.epsdotScaleInv * eScale) := by
  have hi : (iE i).val < 5 := i.isLt
  have hj : (iE j).val < 5 := j.isLt
  unfold jacJ
  rw [if_pos hi, if_pos hj]
  exact congrArg (· * _) (block88_EE _ _ _ _ i j)

theorem jacJ_ER (J : Mat 3 4) (x : Vec 8) (i : Fin 5) (j : Fin 3) : P.jacJ J x (iE i) (iR j)
    = (-∑ p, ∑ q, dRotMatVecdLatop (P.cMatx x) P.dSm i p q * P.dCJ J x p q j)
      * (P.epsdotScaleInv * rScale) := by
  have hi : (iE i).val < 5 := i.isLt
  have hj : ¬ (iR j).val < 5 := by simp [iR]
  unfold jacJ
  rw [if_pos hi, if_neg hj]
  exact congrArg (· * _) (block88_ER _ _ _ _ i j)

theorem jacJ_RE (J : Mat 3 4) (x : Vec 8) (i : Fin 3) (j : Fin 5) : P.jacJ J x (iR i) (iE j)
    = (P.dt * P.dplSkew x i j - P.dt * P.eeFac * (m35 (P.eF x) i j * P.dtRi - m35 (P.edot x) i j))
      * (P.rotincrScaleInv * eScale) := by
  have hi : ¬ (iR i).val < 5 := by simp [iR]
  have hj : (iE j).val < 5 := j.isLt
  unfold jacJ
  rw [if_neg hi, if_pos hj]
  exact congrArg (· * _) (block88_RE _ _ _ _ i j)

theorem jacJ_RR (J : Mat 3 4) (x : Vec 8) (i j : Fin 3) : P.jacJ J x (iR i) (iR j)
    = (-P.dt * (∑ p, ∑ q, dRotMatWveccpLatop P.wSm i p q * P.dCJ J x p q j)
        + if i = j then 1 else 0) * (P.rotincrScaleInv * rScale) := by
  have hi : ¬ (iR i).val < 5 := by simp [iR]
  have hj : ¬ (iR j).val < 5 := by simp [iR]
  unfold jacJ
  rw [if_neg hi, if_neg hj]
  exact congrArg (· * _) (block88_RR _ _ _ _ i j)

theorem jacJ_self (x : Vec 8) : P.jacJ (dquatDemapT (xiF x)) x = P.jac x := rfl

theorem dqt_sum (q cn : Vec 4) (J : Mat 3 4) (u : Vec 3) (p r : Fin 3) :
    dqt q (quatProd cn (J.transpose.mulVec u)) p r
      = ∑ w, (∑ k, dQuatToTensor q p r k * quatProd cn (J w) k) * u w := by
  unfold dqt
  generalize dQuatToTensor q p r = D
  simp [Ecm.quatProd, Fin.sum_univ_four, Fin.sum_univ_three, Matrix.mulVec, dotProduct]
  ring

/-- derivative of the exact residual, given that of the exponential map -/
theorem residExact_jac (hcn : qn P.cN = 1) (x : Vec 8) (hg : P.GdotDiff x) (J : Mat 3 4)
    (hq : expQuat (xiF x) = emapToQuat (xiF x))
    (hJ : VFD (fun y : Vec 8 => expQuat (xiF y)) x
      (fun h => J.transpose.mulVec fun i => rScale * h (iR i))) :
    HasJacobian P.residExact (P.jacJ J x) x := by
  have hx : VFD (fun y : Vec 8 => y) x (fun h => h) := fun k => FD.coord k x
  have hC := MFD.quatToTensor (VFD.quatProd P.cN hJ)
  have hcq : quatProd P.cN (expQuat (xiF x)) = P.cQuat x := by rw [hq]; rfl
  have hun : ∀ y : Vec 8, qn (quatProd P.cN (expQuat (xiF y))) = 1 := fun y => by
    rw [qn_prod, hcn, qn_expQuat, one_mul]
  apply hasJacobian_of_FD
  refine forall_fin8 (fun i => ?_) fun i => ?_
  · have h1 := (P.edot_FD hx i).const_mul P.aVri
    have h2 := P.slip_FD P.geom.P hx hg i
    have h3 := VFD.symmToVecd (MFD.conjT hC (MFD.const (Ecm.vecdToSymm P.dSm))) i
    have h3' := h3.congr_fun (g := fun y => vecsVMTa (getRotMatVecd
      (quatToTensor (quatProd P.cN (expQuat (xiF y))))) P.dSm i) fun y => by
        beta_reduce; rw [vecsVMTa_getRotMatVecd (hun y)]
    refine ((((h1.add h2).sub h3').const_mul P.epsdotScaleInv).congr_fun fun y => ?_).congr fun h => ?_
    · simp only [residExact, block8_iE]
    · beta_reduce
      rw [Matrix.mul_zero, Matrix.zero_mul, add_zero, ← latop_eq, sum_fin8]
      simp only [jacJ_EE, jacJ_ER, hcq, dqt_sum, dCJ]
      simp only [cMatx, dplSymm]
      have s1 : ∑ k : Fin 5, ((vecsMABT P.geom.P (P.dgdotDeps x) i k
          + if i = k then P.aVri * P.dtRi else 0) * (P.epsdotScaleInv * eScale)) * h (iE k)
          = P.epsdotScaleInv * (P.aVri * (eScale * h (iE i) * P.dtRi)
            + ∑ j, vecsMABT P.geom.P (P.dgdotDeps x) i j * (eScale * h (iE j))) := by
        simp only [add_mul, Finset.sum_add_distrib]
        rw [show ∑ k : Fin 5, (if i = k then P.aVri * P.dtRi else 0) * (P.epsdotScaleInv * eScale)
            * h (iE k) = P.aVri * P.dtRi * (P.epsdotScaleInv * eScale) * h (iE i) by simp,
          mul_add, Finset.mul_sum]
        rw [add_comm]
        congr 1
        · ring
        · exact Finset.sum_congr rfl fun j _ => by ring
      rw [s1]
      simp only [Fin.sum_univ_three]
      ring
  · have h1 := xiF_FD hx i
    have h2 := P.slip_FD P.geom.Q hx hg i
    have h3 := VFD.mulVec hC.transpose (VFD.const P.wSm) i
    have h4 := (m35_FD (P.eF_FD hx) (P.edot_FD hx) i).const_mul P.eeFac
    refine (((h1.sub (((h3.sub h2).add h4).const_mul P.dt)).const_mul
      P.rotincrScaleInv).congr_fun fun y => ?_).congr fun h => ?_
    · simp only [residExact, block8_iR]; rfl
    · beta_reduce
      rw [Matrix.mulVec_zero, add_zero, ← wveccp_eq, sum_fin8]
      simp only [jacJ_RE, jacJ_RR, hcq, dqt_sum, dCJ]
      simp only [dplSkew, vecsVMa]
      have s2 : ∑ w : Fin 3, (-P.dt * (∑ p, ∑ q, dRotMatWveccpLatop P.wSm i p q
            * ∑ r, dQuatToTensor (P.cQuat x) p q r * quatProd P.cN (J w) r)
            + if i = w then 1 else 0) * (P.rotincrScaleInv * rScale) * h (iR w)
          = P.rotincrScaleInv * (rScale * h (iR i) - P.dt * ∑ p, ∑ q, dRotMatWveccpLatop P.wSm i p q
            * ∑ w, (∑ r, dQuatToTensor (P.cQuat x) p q r * quatProd P.cN (J w) r)
              * (rScale * h (iR w))) := by
        simp only [add_mul, Finset.sum_add_distrib]
        rw [show ∑ k : Fin 3, (if i = k then (1 : ℝ) else 0) * (P.rotincrScaleInv * rScale)
            * h (iR k) = P.rotincrScaleInv * rScale * h (iR i) by simp]
        simp only [Fin.sum_univ_three]
        ring
      rw [s2]
      simp only [Fin.sum_univ_five]
      ring

end Updst
/-! ### Size of the difference between the series and the exact derivative -/

theorem abs_le_one_of_qn {q : Vec 4} (h : qn q = 1) (r : Fin 4) : |q r| ≤ 1 := by
  rw [← sq_le_one_iff_abs_le_one]
  simp only [qn] at h
  have h4 : r = 0 ∨ r = 1 ∨ r = 2 ∨ r = 3 := by fin_cases r <;> simp
  rcases h4 with rfl | rfl | rfl | rfl <;>
    nlinarith [sq_nonneg (q 0), sq_nonneg (q 1), sq_nonneg (q 2), sq_nonneg (q 3)]

theorem abs_sum_le {m : ℕ} {f : Fin m → ℝ} {b : ℝ} (h : ∀ k, |f k| ≤ b) : |∑ k, f k| ≤ m * b := by
  refine (Finset.abs_sum_le_sum_abs _ _).trans ?_
  refine (Finset.sum_le_sum fun k _ => h k).trans ?_
  simp

theorem abs_mul_le {a b x y : ℝ} (ha : |a| ≤ x) (hb : |b| ≤ y) : |a * b| ≤ x * y := by
  rw [abs_mul]; exact mul_le_mul ha hb (abs_nonneg _) ((abs_nonneg _).trans ha)

theorem dCJ_sub (P : Updst n) (hcn : qn P.cN = 1) (x : Vec 8) (J J' : Mat 3 4) {ε : ℝ}
    (h : ∀ w r, |J w r - J' w r| ≤ ε) (p q w : Fin 3) :
    |P.dCJ J x p q w - P.dCJ J' x p q w| ≤ 32 * ε := by
  have h0 : 0 ≤ ε := (abs_nonneg _).trans (h 0 0)
  have hc := fun r => abs_le_one_of_qn hcn r
  have hQ := fun r => abs_le_one_of_qn (P.qn_cQuat hcn x) r
  have h1 : ∀ r, |dQuatToTensor (P.cQuat x) p q r| ≤ 2 := by
    intro r
    have h2 : ∀ r, |2 * P.cQuat x r| ≤ 2 := fun r => by
      have := hQ r
      rw [abs_mul, abs_two]; linarith
    have h3 : ∀ r, |-(2 * P.cQuat x r)| ≤ 2 := fun r => by rw [abs_neg]; exact h2 r
    fin_cases p <;> fin_cases q <;> fin_cases r <;> simp only [dQuatToTensor] <;>
      first | exact h2 _ | exact h3 _
  have h4 : ∀ r, |quatProd P.cN (J w) r - quatProd P.cN (J' w) r| ≤ 4 * ε := by
    intro r
    have m : ∀ i j, |P.cN i * (J w j - J' w j)| ≤ ε := fun i j => by
      have := abs_mul_le (hc i) (h w j); rwa [one_mul] at this
    have m' : ∀ i j, -ε ≤ P.cN i * (J w j - J' w j) ∧ P.cN i * (J w j - J' w j) ≤ ε := fun i j =>
      abs_le.1 (m i j)
    have h4 : r = 0 ∨ r = 1 ∨ r = 2 ∨ r = 3 := by fin_cases r <;> simp
    rw [abs_le]
    rcases h4 with rfl | rfl | rfl | rfl <;> simp only [quatProd, Matrix.cons_val]
    · have a := m' 0 0; have b := m' 1 1; have c := m' 2 2; have d := m' 3 3
      constructor <;> linarith [a.1, a.2, b.1, b.2, c.1, c.2, d.1, d.2]
    · have a := m' 0 1; have b := m' 1 0; have c := m' 2 3; have d := m' 3 2
      constructor <;> linarith [a.1, a.2, b.1, b.2, c.1, c.2, d.1, d.2]
    · have a := m' 0 2; have b := m' 1 3; have c := m' 2 0; have d := m' 3 1
      constructor <;> linarith [a.1, a.2, b.1, b.2, c.1, c.2, d.1, d.2]
    · have a := m' 0 3; have b := m' 1 2; have c := m' 2 1; have d := m' 3 0
      constructor <;> linarith [a.1, a.2, b.1, b.2, c.1, c.2, d.1, d.2]
  unfold Updst.dCJ
  rw [← Finset.sum_sub_distrib]
  have := abs_sum_le (m := 4) (f := fun r => dQuatToTensor (P.cQuat x) p q r * quatProd P.cN (J w) r
    - dQuatToTensor (P.cQuat x) p q r * quatProd P.cN (J' w) r) (b := 8 * ε) fun r => by
      rw [← mul_sub]
      exact (abs_mul_le (h1 r) (h4 r)).trans (le_of_eq (by ring))
  refine this.trans (le_of_eq ?_)
  push_cast; ring

theorem vecdToSymm_abs (v : Vec 5) (i j : Fin 3) : |vecdToSymm v i j| ≤ vecNorm v := by
  have h : ∑ a, ∑ b, vecdToSymm v a b ^ 2 = ∑ k, v k ^ 2 := by
    simp only [Fin.sum_univ_three, Fin.sum_univ_five, vecdToSymm, ofSvecP, vecdsToSvecP,
      Matrix.of_apply, Matrix.cons_val]
    sqr_ring
  refine abs_le_of_sq_le_sq ?_ (vecNorm_nonneg _)
  have h1 : vecNorm v ^ 2 = ∑ k, v k ^ 2 := by
    unfold vecNorm
    rw [Real.sq_sqrt (Finset.sum_nonneg fun i _ => mul_self_nonneg _)]
    exact Finset.sum_congr rfl fun i _ => by ring
  rw [h1, ← h]
  refine le_trans ?_ (Finset.single_le_sum (f := fun a => ∑ b, vecdToSymm v a b ^ 2)
    (fun a _ => Finset.sum_nonneg fun b _ => sq_nonneg _) (Finset.mem_univ i))
  exact Finset.single_le_sum (f := fun b => vecdToSymm v i b ^ 2) (fun b _ => sq_nonneg _)
    (Finset.mem_univ j)

theorem latop_abs (C X : Mat 3 3) (v : Vec 5) {ε : ℝ} (hX : ∀ p q, |X p q| ≤ ε)
    (hC : ∀ p q, |C p q| ≤ 1) (i : Fin 5) :
    |∑ p, ∑ q, dRotMatVecdLatop C v i p q * X p q| ≤ 72 * (ε * vecNorm v) := by
  rw [latop_eq]
  have h0 : 0 ≤ ε := (abs_nonneg _).trans (hX 0 0)
  have hV := vecdToSymm_abs v
  have hb : 0 ≤ ε * vecNorm v := mul_nonneg h0 (vecNorm_nonneg _)
  have e1 : ∀ a b, |(X.transpose * vecdToSymm v * C + C.transpose * vecdToSymm v * X) a b|
      ≤ 18 * (ε * vecNorm v) := by
    intro a b
    have t1 : |(X.transpose * vecdToSymm v * C) a b| ≤ 9 * (ε * vecNorm v) := by
      simp only [Matrix.mul_apply, Finset.sum_mul]
      refine (abs_sum_le (b := 3 * (ε * vecNorm v)) fun q => ?_).trans (le_of_eq (by push_cast; ring))
      refine (abs_sum_le (b := ε * vecNorm v) fun p => ?_).trans (le_of_eq (by push_cast; ring))
      refine (abs_mul_le (abs_mul_le (hX p a) (hV p q)) (hC q b)).trans (le_of_eq (by ring))
    have t2 : |(C.transpose * vecdToSymm v * X) a b| ≤ 9 * (ε * vecNorm v) := by
      simp only [Matrix.mul_apply, Finset.sum_mul]
      refine (abs_sum_le (b := 3 * (ε * vecNorm v)) fun q => ?_).trans (le_of_eq (by push_cast; ring))
      refine (abs_sum_le (b := ε * vecNorm v) fun p => ?_).trans (le_of_eq (by push_cast; ring))
      refine (abs_mul_le (abs_mul_le (hC p a) (hV p q)) (hX q b)).trans (le_of_eq (by ring))
    rw [Matrix.add_apply]
    exact (abs_add_le _ _).trans (by linarith)
  generalize X.transpose * vecdToSymm v * C + C.transpose * vecdToSymm v * X = A at e1
  generalize ε * vecNorm v = b at *
  have q2 : |sqr2i| ≤ 1 := by rw [← sq_le_one_iff_abs_le_one, sq, sqr2i_sq]; norm_num
  have q6 : |sqr6i| ≤ 1 := by
    rw [← sq_le_one_iff_abs_le_one, sq, sqr6i_sq]; norm_num
  have q22 : |sqr2| ≤ 2 := by
    refine abs_le_of_sq_le_sq ?_ (by norm_num)
    have : sqr2 * sqr2 = 2 := by sqr_unfold; sqr_ring
    rw [sq, this]; norm_num
  have d1 : |A 0 0 - A 1 1| ≤ 36 * b := (abs_sub _ _).trans (by linarith [e1 0 0, e1 1 1])
  have d2 : |2 * A 2 2 - A 0 0 - A 1 1| ≤ 72 * b := by
    have h2 := abs_le.1 (e1 2 2); have h3 := abs_le.1 (e1 0 0); have h4 := abs_le.1 (e1 1 1)
    rw [abs_le]; constructor <;> linarith [h2.1, h2.2, h3.1, h3.2, h4.1, h4.2]
  revert i
  apply forall_fin5
  · exact (abs_mul_le q2 d1).trans (by linarith)
  · exact (abs_mul_le q6 d2).trans (by linarith)
  · exact (abs_mul_le q22 (e1 1 0)).trans (by linarith)
  · exact (abs_mul_le q22 (e1 2 0)).trans (by linarith)
  · exact (abs_mul_le q22 (e1 2 1)).trans (by linarith)

end Ecm
