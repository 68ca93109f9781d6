/- Property theorems C11 at and near the solver's starting point, where the code uses a series
   (src/ecmech/ECMech_util.h:683-704, src/ecmech/ECMech_evptn.h:717-794). -/
import Verif.Lemmas.Start
import Verif.Props.Balance

namespace Ecm.Props
open Ecm Spec Matrix

variable {n : ℕ}

/-- C11 the residual and the residual with the exact exponential map agree where the solver starts and
    for every rotation increment above 1e-90. -/
theorem C11_exact_map (P : Updst n) (x : Vec 8)
    (h : 1 / 10 ^ 90 < len (Updst.xiF x) ∨ Updst.xiF x = 0) : P.residExact x = P.resid x :=
  P.residExact_eq h

/-- **C11 at the starting point.** For a zero rotation increment, where the solver starts, the Jacobian is
    the derivative of the residual (with the exact exponential map). -/
theorem C11_start (P : Updst n) (x : Vec 8) (hcn : dot P.cN P.cN = 1)
    (hg : ∀ s, HasDerivAt (fun τ => (P.gd s τ).gdot) (P.gd s (P.taua x s)).dtau (P.taua x s))
    (hξ : Updst.xiF x = 0) : HasJacobian P.residExact (P.jac x) x := by
  rw [dot_self_quat] at hcn
  rw [← P.jacJ_self]
  refine P.residExact_jac hcn x hg _ (emapToQuat_eq_expQuat (Or.inr hξ)).symm ?_
  have hx : VFD (fun y : Vec 8 => Updst.xiF y) x (fun h i => rScale * h (iR i)) :=
    Updst.xiF_FD fun k => FD.coord k x
  intro i
  have h0 := VFD.expQuat_zero i
  have h1 : HasFDerivAt (fun e => expQuat e i) (lin ((dquatDemapT 0).transpose i)) 0 := h0.lin
  have h2 : HasFDerivAt (fun y : Vec 8 => Updst.xiF y)
      (ContinuousLinearMap.pi fun k => rScale • ContinuousLinearMap.proj (R := ℝ) (φ := fun _ => ℝ) (iR k))
      x := by
    rw [hasFDerivAt_pi']
    intro k
    exact (((ContinuousLinearMap.proj (R := ℝ) (φ := fun _ : Fin 8 => ℝ) (iR k)).hasFDerivAt
      (x := x)).const_mul rScale).congr_fderiv (by ext h; simp)
  rw [← hξ] at h1
  have h3 := h1.comp x h2
  refine ⟨_, h3, fun v => ?_⟩
  rw [hξ]
  simp [lin, Matrix.mulVec, dotProduct, Fin.sum_univ_three]

/-- **C11 beside the starting point.** For rotation increments between 1e-90 and 1e-9 (the series branch)
    the residual is differentiable and every entry of the Jacobian is within `1e-26` times the scaled
    imposed rates of the exact derivative. -/
theorem C11_series (P : Updst n) (x : Vec 8) (hcn : dot P.cN P.cN = 1) (hdt : 0 < P.dt)
    (ha : 0 < P.adotsRef)
    (hg : ∀ s, HasDerivAt (fun τ => (P.gd s τ).gdot) (P.gd s (P.taua x s)).dtau (P.taua x s))
    (h0 : 1 / 10 ^ 90 < len (Updst.xiF x)) (h1 : len (Updst.xiF x) < 1 / 10 ^ 9) :
    ∃ J : Mat 8 8, HasJacobian P.residExact J x ∧
      ∀ i k, |P.jac x i k - J i k| ≤ 1 / 10 ^ 26 * (P.epsdotScaleInv * (len P.dSm + len P.wSm)) := by
  rw [dot_self_quat] at hcn
  have hpos : 0 < vecNorm (Updst.xiF x) := lt_trans (by positivity) h0
  have hx : VFD (fun y : Vec 8 => Updst.xiF y) x (fun h i => rScale * h (iR i)) :=
    Updst.xiF_FD fun k => FD.coord k x
  refine ⟨P.jacJ (dExp (Updst.xiF x)) x, ?_, ?_⟩
  · exact P.residExact_jac hcn x hg _ (emapToQuat_eq_expQuat (Or.inl h0)).symm (VFD.expQuat hx hpos)
  · have hJ : ∀ w r, |dquatDemapT (Updst.xiF x) w r - dExp (Updst.xiF x) w r| ≤ 1 / 10 ^ 28 :=
      fun w r => dquatDemapT_series hpos h1 w r
    have hD := dCJ_sub P hcn x _ _ hJ
    have hs := P.epsdotScaleInv_pos hdt ha
    have hdn := vecNorm_nonneg P.dSm
    have hwn := vecNorm_nonneg P.wSm
    have hB : 0 ≤ 1 / 10 ^ 26 * (P.epsdotScaleInv * (len P.dSm + len P.wSm)) := by
      have : 0 ≤ len P.dSm + len P.wSm := add_nonneg hdn hwn
      positivity
    have hC : ∀ p q, |P.cMatx x p q| ≤ 1 := by
      intro p q
      have hr := (isRot_of_unit (P.qn_cQuat hcn x)).1
      have := congrFun (congrFun hr p) p
      simp only [Matrix.mul_apply, Matrix.transpose_apply, Matrix.one_apply_eq] at this
      rw [← sq_le_one_iff_abs_le_one]
      show (quatToTensor (P.cQuat x) p q) ^ 2 ≤ 1
      rw [← this, sq]
      exact Finset.single_le_sum (f := fun j => quatToTensor (P.cQuat x) p j * quatToTensor (P.cQuat x) p j)
        (fun j _ => mul_self_nonneg _) (Finset.mem_univ q)
    rw [← P.jacJ_self]
    refine forall_fin8 (fun i => forall_fin8 (fun k => ?_) fun k => ?_)
      fun i => forall_fin8 (fun k => ?_) fun k => ?_
    · rw [P.jacJ_EE, P.jacJ_EE, sub_self, abs_zero]; exact hB
    · rw [P.jacJ_ER, P.jacJ_ER, ← sub_mul]
      have e : (-∑ p, ∑ q, dRotMatVecdLatop (P.cMatx x) P.dSm i p q
            * P.dCJ (dquatDemapT (Updst.xiF x)) x p q k)
          - -∑ p, ∑ q, dRotMatVecdLatop (P.cMatx x) P.dSm i p q * P.dCJ (dExp (Updst.xiF x)) x p q k
          = -∑ p, ∑ q, dRotMatVecdLatop (P.cMatx x) P.dSm i p q
            * (fun p q => P.dCJ (dquatDemapT (Updst.xiF x)) x p q k
              - P.dCJ (dExp (Updst.xiF x)) x p q k : Mat 3 3) p q := by
        simp only [mul_sub, Finset.sum_sub_distrib]; ring
      have h2 := latop_abs (P.cMatx x) (fun p q => P.dCJ (dquatDemapT (Updst.xiF x)) x p q k
              - P.dCJ (dExp (Updst.xiF x)) x p q k) P.dSm (fun p q => hD p q k) hC i
      rw [e, abs_mul, abs_neg, abs_of_pos (by unfold rScale; positivity : 0 < P.epsdotScaleInv * rScale)]
      refine (mul_le_mul_of_nonneg_right h2 (by unfold rScale; positivity)).trans ?_
      show _ ≤ 1 / 10 ^ 26 * (P.epsdotScaleInv * (vecNorm P.dSm + vecNorm P.wSm))
      have p1 := mul_nonneg hs.le hdn
      have p2 := mul_nonneg hs.le hwn
      unfold rScale
      generalize P.epsdotScaleInv = S at *
      generalize vecNorm P.dSm = D at *
      generalize vecNorm P.wSm = W at *
      have : 72 * (32 * (1 / 10 ^ 28) * D) * (S * 0.01) = (23.04 / 10 ^ 28) * (S * D) := by ring
      nlinarith
    · rw [P.jacJ_RE, P.jacJ_RE, sub_self, abs_zero]; exact hB
    · rw [P.jacJ_RR, P.jacJ_RR, ← sub_mul]
      have e : (-P.dt * (∑ p, ∑ q, dRotMatWveccpLatop P.wSm i p q
            * P.dCJ (dquatDemapT (Updst.xiF x)) x p q k) + if i = k then 1 else 0)
          - (-P.dt * (∑ p, ∑ q, dRotMatWveccpLatop P.wSm i p q * P.dCJ (dExp (Updst.xiF x)) x p q k)
            + if i = k then 1 else 0)
          = -P.dt * ∑ p, ∑ q, dRotMatWveccpLatop P.wSm i p q
            * (fun p q => P.dCJ (dquatDemapT (Updst.xiF x)) x p q k
              - P.dCJ (dExp (Updst.xiF x)) x p q k : Mat 3 3) p q := by
        simp only [mul_sub, Finset.sum_sub_distrib]; ring
      have h2 : |∑ p, ∑ q, dRotMatWveccpLatop P.wSm i p q
            * (fun p q => P.dCJ (dquatDemapT (Updst.xiF x)) x p q k
              - P.dCJ (dExp (Updst.xiF x)) x p q k : Mat 3 3) p q|
          ≤ 3 * (32 * (1 / 10 ^ 28) * vecNorm P.wSm) := by
        have h5 := wveccp_eq (fun p q => P.dCJ (dquatDemapT (Updst.xiF x)) x p q k
              - P.dCJ (dExp (Updst.xiF x)) x p q k) P.wSm i
        refine (le_of_eq (congrArg abs h5)).trans ?_
        refine (abs_sum_le (b := 32 * (1 / 10 ^ 28) * vecNorm P.wSm) fun j => ?_).trans
          (le_of_eq (by push_cast; ring))
        exact abs_mul_le (hD j i k) (abs_le_vecNorm _ _)
      rw [e, abs_mul, abs_mul, abs_neg, abs_of_pos hdt]
      have hrs : P.rotincrScaleInv = 1 / P.dt * P.epsdotScaleInv := rfl
      have hr0 : 0 < P.rotincrScaleInv * rScale := by
        rw [hrs]; unfold rScale; positivity
      rw [abs_of_pos hr0]
      have h3 : P.dt * |∑ p, ∑ q, dRotMatWveccpLatop P.wSm i p q
            * (fun p q => P.dCJ (dquatDemapT (Updst.xiF x)) x p q k
              - P.dCJ (dExp (Updst.xiF x)) x p q k : Mat 3 3) p q| * (P.rotincrScaleInv * rScale)
          ≤ P.dt * (3 * (32 * (1 / 10 ^ 28) * vecNorm P.wSm)) * (P.rotincrScaleInv * rScale) :=
        mul_le_mul_of_nonneg_right (mul_le_mul_of_nonneg_left h2 hdt.le) hr0.le
      refine h3.trans ?_
      show _ ≤ 1 / 10 ^ 26 * (P.epsdotScaleInv * (vecNorm P.dSm + vecNorm P.wSm))
      have p1 := mul_nonneg hs.le hdn
      have p2 := mul_nonneg hs.le hwn
      have e2 : P.dt * (3 * (32 * (1 / 10 ^ 28) * vecNorm P.wSm)) * (P.rotincrScaleInv * rScale)
          = (0.96 / 10 ^ 28) * (P.epsdotScaleInv * vecNorm P.wSm) := by
        rw [hrs]; unfold rScale; field_simp; ring
      rw [e2]
      nlinarith

/-- hypotheses: the starting point and a point with a very small rotation increment -/
example : Updst.xiF 0 = 0 ∧ dot probEx.cN probEx.cN = 1 ∧
    (∀ s, HasDerivAt (fun τ => (probEx.gd s τ).gdot) (probEx.gd s (probEx.taua 0 s)).dtau
      (probEx.taua 0 s)) :=
  ⟨by funext i; simp [Updst.xiF, vecsVxa], probEx_unit, fun s => hasDerivAt_id' _⟩

example : 1 / 10 ^ 90 < len (Updst.xiF fun _ => 1 / 10 ^ 10) ∧
    len (Updst.xiF fun _ => 1 / 10 ^ 10) < 1 / 10 ^ 9 := by
  have e : Updst.xiF (fun _ => 1 / 10 ^ 10) = fun _ : Fin 3 => 1 / 10 ^ 12 := by
    funext i; simp [Updst.xiF, vecsVxa, rScale]; norm_num
  have e2 : dot (fun _ : Fin 3 => (1 / 10 ^ 12 : ℝ)) (fun _ => 1 / 10 ^ 12) = 3 / 10 ^ 24 := by
    simp [dot]; norm_num
  rw [e]
  unfold len
  rw [e2]
  constructor
  · rw [Real.lt_sqrt (by positivity)]; norm_num
  · rw [Real.sqrt_lt' (by positivity)]; norm_num

end Ecm.Props
