/- Helper lemmas for C96: plain Newton iteration on the equations of a short step. -/
import Verif.Lemmas.NewtonConv
import Verif.SpecNewton

namespace Ecm.Updst
open Spec Ecm.Props
variable {n : ℕ} (P : Updst n)

/-- the Newton step in the unknowns of the solver and in strain and rotation -/
theorem newton_unscale (hdt : 0 < P.dt) (ha : 0 < P.adotsRef) {x d : Vec 8}
    (h : (P.jac x).mulVec d = -P.resid x) :
    (∀ i, (P.jacU x).mulVec (fun j => xScale j * d j) (iE i) = -P.residE x i) ∧
      ∀ i, (P.jacU x).mulVec (fun j => xScale j * d j) (iR i) = -P.residR x i := by
  have h1 := (P.epsdotScaleInv_pos hdt ha).ne'
  have h2 := (P.rotincrScaleInv_pos hdt ha).ne'
  have key : ∀ k, (P.jac x).mulVec d k
      = (if k.val < 5 then P.epsdotScaleInv else P.rotincrScaleInv)
        * (P.jacU x).mulVec (fun j => xScale j * d j) k := by
    intro k
    simp only [Matrix.mulVec, dotProduct, Finset.mul_sum, jac, xScale]
    exact Finset.sum_congr rfl fun j _ => by ring
  constructor
  · intro i
    have h3 := congrFun h (iE i)
    rw [key, if_pos (by simp [iE])] at h3
    simp only [resid, Pi.neg_apply, block8_iE] at h3
    refine mul_left_cancel₀ h1 ?_
    rw [h3]; ring
  · intro i
    have h3 := congrFun h (iR i)
    rw [key, if_neg (by simp [iR])] at h3
    simp only [resid, Pi.neg_apply, block8_iR] at h3
    refine mul_left_cancel₀ h2 ?_
    rw [h3]; ring

theorem eF_add (x d : Vec 8) : P.eF (x + d) = P.eF x + fun i => xScale (iE i) * d (iE i) := by
  funext i
  have : xScale (iE i) = eScale := by simp [xScale, iE]
  simp only [eF, vecsVapb, vecsVxa, Pi.add_apply, this]
  ring

theorem xiF_add (x d : Vec 8) : xiF (x + d) = xiF x + fun i => xScale (iR i) * d (iR i) := by
  funext i
  have : xScale (iR i) = rScale := by simp [xScale, iR]
  simp only [xiF, vecsVxa, Pi.add_apply, this]
  ring

theorem vecNorm_le_blocks (d : Vec 8) :
    vecNorm d ≤ 2000 * vecNorm (fun i => xScale (iE i) * d (iE i)) + 100 * vecNorm fun i => xScale (iR i) * d (iR i) := by
  have e1 : (fun i => xScale (iE i) * d (iE i)) = (1 / 2000 : ℝ) • fun i => d (iE i) := by
    funext i
    have : xScale (iE i) = eScale := by simp [xScale, iE]
    rw [this]; simp [eScale]; norm_num
  have e2 : (fun i => xScale (iR i) * d (iR i)) = (1 / 100 : ℝ) • fun i => d (iR i) := by
    funext i
    have : xScale (iR i) = rScale := by simp [xScale, iR]
    rw [this]; simp [rScale]
  rw [e1, e2, vecNorm_smul, vecNorm_smul, abs_of_pos (by norm_num), abs_of_pos (by norm_num), ← mul_assoc, ← mul_assoc]
  norm_num
  set a := vecNorm fun i => d (iE i)
  set b := vecNorm fun i => d (iR i)
  have ha : 0 ≤ a := vecNorm_nonneg _
  have hb : 0 ≤ b := vecNorm_nonneg _
  refine abs_le_of_sq_le_sq' ?_ (by positivity) |>.2
  have e : vecNorm d ^ 2 = a ^ 2 + b ^ 2 := by
    rw [vecNorm_sq, vecNorm_sq, vecNorm_sq, sum_fin8]
  rw [e]
  nlinarith [mul_nonneg ha hb]

/-- the residual handed to the solver, from what is missing in the equations -/
theorem resid_of_defect (hdt : 0 < P.dt) (ha : 0 < P.adotsRef) (x : Vec 8) :
    vecNorm (P.resid x) ≤ P.epsdotScaleInv / P.dt * P.defect x := by
  have h1 := P.epsdotScaleInv_pos hdt ha
  have hE : (fun i => P.resid x (iE i)) = P.epsdotScaleInv • P.residE x := by
    funext i; simp [resid]
  have hR : (fun i => P.resid x (iR i)) = (P.epsdotScaleInv / P.dt) • P.residR x := by
    funext i; simp [resid, rotincrScaleInv, dtRi]; left; ring
  have e : vecNorm (P.resid x) ^ 2 = vecNorm (fun i => P.resid x (iE i)) ^ 2 + vecNorm (fun i => P.resid x (iR i)) ^ 2 := by
    rw [vecNorm_sq, vecNorm_sq, vecNorm_sq, sum_fin8]
  rw [hE, hR, vecNorm_smul, vecNorm_smul, abs_of_pos h1, abs_of_pos (by positivity)] at e
  have hd : P.epsdotScaleInv / P.dt * P.defect x
      = P.epsdotScaleInv * vecNorm (P.residE x) + P.epsdotScaleInv / P.dt * vecNorm (P.residR x) := by
    unfold defect; field_simp
  rw [hd]
  have h2 : 0 ≤ P.epsdotScaleInv * vecNorm (P.residE x) := mul_nonneg h1.le (vecNorm_nonneg _)
  have h3 : 0 ≤ P.epsdotScaleInv / P.dt * vecNorm (P.residR x) := mul_nonneg (by positivity) (vecNorm_nonneg _)
  refine abs_le_of_sq_le_sq' ?_ (by positivity) |>.2
  rw [e]
  nlinarith [mul_nonneg h2 h3]

/-- what is missing at the starting point -/
theorem defect_zero (hdt : 0 < P.dt) (hcn : qn P.cN = 1) (hP : ∀ i, vecNorm (fun k => P.geom.P k i) ≤ 1)
    (hQ : ∀ i, vecNorm (fun k => P.geom.Q k i) ≤ 1 / 2) :
    P.defect 0 ≤ P.dt * (3 / 2 * ∑ s, |P.gdot 0 s| + vecNorm P.dSm + vecNorm P.wSm) := by
  have hrot := (isRot_of_unit (P.qn_cQuat hcn 0)).1
  have eE : P.residE 0 = vecsVMa P.geom.P (P.gdot 0) + (-1 : ℝ) • vecsVMTa (P.qr5x5 0) P.dSm := by
    funext i
    simp [residE, P.edot_zero]
    ring
  have eR : P.residR 0 = P.dt • (vecsVMa P.geom.Q (P.gdot 0) + (-1 : ℝ) • vecsVMTa (P.cMatx 0) P.wSm) := by
    funext i
    have : xiF (0 : Vec 8) = 0 := by funext i; simp [xiF, vecsVxa]
    simp [residR, P.edot_zero, this, vecsVMa]
    ring
  have bD : vecNorm (vecsVMTa (P.qr5x5 0) P.dSm) = vecNorm P.dSm := vecNorm_vecsVMTa_rot hrot P.dSm
  have bW : vecNorm (vecsVMTa (P.cMatx 0) P.wSm) ≤ vecNorm P.wSm := by
    refine abs_le_of_sq_le_sq' ?_ (vecNorm_nonneg _) |>.2
    refine le_of_eq ?_
    have hO : P.cMatx 0 * (P.cMatx 0).transpose = 1 := hrot
    have e1 : ∀ v : Vec 3, vecNorm v ^ 2 = dotProduct v v := fun v => by
      rw [vecNorm_sq]; simp only [dotProduct]; exact Finset.sum_congr rfl fun i _ => by ring
    have e2 : vecsVMTa (P.cMatx 0) P.wSm = (P.cMatx 0).transpose.mulVec P.wSm := by
      funext i
      simp only [vecsVMTa, Matrix.mulVec, dotProduct, Matrix.transpose_apply]
    rw [e1, e1, e2, Matrix.dotProduct_mulVec, Matrix.vecMul_transpose, Matrix.mulVec_mulVec, hO, Matrix.one_mulVec]
  have nE : vecNorm (P.residE 0) ≤ ∑ s, |P.gdot 0 s| + vecNorm P.dSm := by
    rw [eE]
    refine (vecNorm_add_le _ _).trans ?_
    rw [vecNorm_smul, abs_neg, abs_one, one_mul, bD]
    have := vecNorm_vecsVMa_le _ hP (P.gdot 0)
    linarith
  have nR : vecNorm (P.residR 0) ≤ P.dt * (1 / 2 * ∑ s, |P.gdot 0 s| + vecNorm P.wSm) := by
    rw [eR, vecNorm_smul, abs_of_pos hdt]
    refine mul_le_mul_of_nonneg_left ((vecNorm_add_le _ _).trans ?_) hdt.le
    rw [vecNorm_smul, abs_neg, abs_one, one_mul]
    have := vecNorm_vecsVMa_le _ hQ (P.gdot 0)
    linarith
  unfold defect
  have := mul_le_mul_of_nonneg_left nE hdt.le
  linarith

/-- what is asked of a step that plain Newton iteration can solve; `σ` its size on the scale of slip, rate and spin,
    `r` the strain it may use up, `T` the stress up to which the slip law is gentle -/
structure Short (κ T Λ ε σ r : ℝ) : Prop where
  dt : 0 < P.dt
  vol : 0 < P.detV
  quat : qn P.cN = 1
  ref : 0 < P.adotsRef
  el : ∀ k, |P.el.kDiag k| ≤ κ
  colP : ∀ i, vecNorm (fun k => P.geom.P k i) ≤ 1
  colQ : ∀ i, vecNorm (fun k => P.geom.Q k i) ≤ 1 / 2
  pos : 0 ≤ Λ
  jump : 0 ≤ ε
  law : P.Gentle T Λ ε
  slip : n * (Λ * κ) * P.dt ≤ σ
  rate : P.dt * vecNorm P.dSm ≤ σ
  spin : P.dt * vecNorm P.wSm ≤ σ
  small : σ ≤ 1 / 32
  strain : vecNorm P.eN / P.aV ≤ 1 / 4
  reach : ∀ s, |P.taua 0 s| + κ * r ≤ T

variable {P} {κ T Λ ε σ r : ℝ}

theorem Short.inRange (h : P.Short κ T Λ ε σ r) {x : Vec 8} (hx : vecNorm (P.eF x - P.eN) / P.aV ≤ r) (s : Fin n) :
    |P.taua x s| ≤ T := by
  have h1 := P.taua_change h.vol h.el h.colP x 0 s
  rw [P.eF_zero] at h1
  have hκ : 0 ≤ κ := (abs_nonneg _).trans (h.el 0)
  have h2 := mul_le_mul_of_nonneg_left hx hκ
  have h3 := h.reach s
  have h4 : |P.taua x s| ≤ |P.taua 0 s| + |P.taua x s - P.taua 0 s| := by
    have := abs_add_le (P.taua 0 s) (P.taua x s - P.taua 0 s)
    rwa [add_sub_cancel] at this
  linarith

theorem Short.det (h : P.Short κ T Λ ε σ r) {x : Vec 8} (hx : vecNorm (P.eF x - P.eN) / P.aV ≤ r) :
    (P.jacU x).det ≠ 0 := by
  intro h0
  obtain ⟨z, hz, hJ⟩ := Matrix.exists_mulVec_eq_zero_iff.2 h0
  have h1 := P.newton_size h.dt h.vol h.quat h.el h.colP h.colQ h.law h.slip h.rate h.spin h.small h.strain
    (h.inRange hx) (z := z) (a := 0) (b := 0) (fun i => by rw [hJ]; simp) (fun i => by rw [hJ]; simp)
  rw [vecNorm_zero, vecNorm_zero, mul_zero, add_zero, mul_zero] at h1
  have ha := P.aV_pos h.vol
  have a1 : 0 ≤ vecNorm (fun i => z (iE i)) / P.aV := div_nonneg (vecNorm_nonneg _) ha.le
  have a2 : 0 ≤ vecNorm (fun i => z (iR i)) := vecNorm_nonneg _
  have b1 : vecNorm (fun i => z (iE i)) = 0 := by
    have : vecNorm (fun i => z (iE i)) / P.aV = 0 := by linarith
    rcases div_eq_zero_iff.1 this with h | h
    · exact h
    · exact absurd h ha.ne'
  have b2 : vecNorm (fun i => z (iR i)) = 0 := by linarith
  refine hz ?_
  funext k
  revert k
  exact forall_fin8 (fun i => congrFun (vecNorm_eq_zero b1) i) (fun i => congrFun (vecNorm_eq_zero b2) i)

/-- the error floor of the iteration: jumps of the slip law and of the rotation map -/
noncomputable def _root_.Ecm.Props.newtonFloor (n : ℕ) (dt ε σ : ℝ) : ℝ := 3 / 2 * dt * (n * ε) + 5 * σ * (8 / 10 ^ 90)

open Classical in
/-- the iteration -/
theorem Short.run (h : P.Short κ T Λ ε σ r) {tol θ δ : ℝ} (hδ : 1000 * r ≤ δ) (hδ' : 1000 * (r * P.aV) ≤ δ)
    (hθ : ∀ x, P.defect x ≤ θ → vecNorm (P.resid x) ≤ tol) (hf : newtonFloor n P.dt ε σ ≤ θ / 4) (j : ℕ) :
    ∀ f c x, j < f → vecNorm (P.eF x - P.eN) / P.aV + 3 * P.defect x + 3 * newtonFloor n P.dt ε σ * j ≤ r →
      P.defect x ≤ (2 ^ j + 1) * θ / 2 →
      ∃ y k, newtonRun δ P.problem tol f c x = { converged := true, x := y, xLast := y, nFEvals := c + k } ∧
        k ≤ j + 1 ∧ vecNorm (P.eF y - P.eN) / P.aV ≤ r := by
  have ha := P.aV_pos h.vol
  have hσ0 : 0 ≤ σ := (mul_nonneg h.dt.le (vecNorm_nonneg _)).trans h.rate
  have hfl : 0 ≤ newtonFloor n P.dt ε σ := by
    unfold newtonFloor
    have := h.dt; have := h.jump
    positivity
  induction j with
  | zero =>
    intro f c x hjf h1 h2
    obtain ⟨f, rfl⟩ : ∃ f', f = f' + 1 := ⟨f - 1, by omega⟩
    have hd := P.defect_nonneg h.dt x
    have hr : vecNorm (P.resid x) ≤ tol := hθ x (by rw [pow_zero] at h2; linarith)
    refine ⟨x, 1, ?_, le_rfl, by simp at h1; linarith⟩
    simp only [newtonRun, problem]
    exact if_pos hr
  | succ j ih =>
    intro f c x hjf h1 h2
    obtain ⟨f, rfl⟩ : ∃ f', f = f' + 1 := ⟨f - 1, by omega⟩
    have hd := P.defect_nonneg h.dt x
    push_cast at h1
    have hx : vecNorm (P.eF x - P.eN) / P.aV ≤ r := by
      have : 0 ≤ 3 * newtonFloor n P.dt ε σ * ((j : ℝ) + 1) := by positivity
      linarith
    by_cases hr : vecNorm (P.resid x) ≤ tol
    · refine ⟨x, 1, ?_, by omega, hx⟩
      simp only [newtonRun, problem]
      exact if_pos hr
    have hdet := P.jac_det h.dt h.ref x (h.det hx)
    set d : Vec 8 := -((P.jac x)⁻¹.mulVec (P.resid x)) with hdd
    have hJd : (P.jac x).mulVec d = -P.resid x := by
      rw [hdd, Matrix.mulVec_neg, Matrix.mulVec_mulVec, Matrix.mul_nonsing_inv _ (isUnit_iff_ne_zero.2 hdet),
        Matrix.one_mulVec]
    obtain ⟨zE, zR⟩ := P.newton_unscale h.dt h.ref hJd
    have hsz := P.newton_size h.dt h.vol h.quat h.el h.colP h.colQ h.law h.slip h.rate h.spin h.small h.strain
      (h.inRange hx) zE zR
    have hsz' : vecNorm (fun i => xScale (iE i) * d (iE i)) / P.aV + vecNorm (fun i => xScale (iR i) * d (iR i))
        ≤ 3 / 2 * P.defect x := hsz
    set y := x + d with hy
    have eE := P.eF_add x d
    have eR := xiF_add x d
    rw [← hy] at eE eR
    set u : Vec 5 := fun i => xScale (iE i) * d (iE i) with hu
    set ω : Vec 3 := fun i => xScale (iR i) * d (iR i) with hω
    have hU : 0 ≤ vecNorm u / P.aV := div_nonneg (vecNorm_nonneg _) ha.le
    have hO : 0 ≤ vecNorm ω := vecNorm_nonneg _
    have hyE : vecNorm (P.eF y - P.eN) / P.aV ≤ vecNorm (P.eF x - P.eN) / P.aV + vecNorm u / P.aV := by
      rw [← add_div]
      refine div_le_div_of_nonneg_right ?_ ha.le
      have : P.eF y - P.eN = (P.eF x - P.eN) + u := by rw [eE]; abel
      rw [this]; exact vecNorm_add_le _ _
    have hfj : 0 ≤ 3 * newtonFloor n P.dt ε σ * (j : ℝ) := by positivity
    have hyr : vecNorm (P.eF y - P.eN) / P.aV ≤ r := by nlinarith
    have hstep := P.newton_step h.dt h.vol h.quat h.el h.pos h.colP h.colQ h.law h.slip h.rate h.spin h.small h.strain
      (h.inRange hx) (h.inRange hyr) eE eR zE zR
    have hstep' : P.defect y ≤ P.defect x / 2 + newtonFloor n P.dt ε σ := by
      refine hstep.trans (add_le_add ?_ le_rfl)
      have := mul_le_mul_of_nonneg_right h.small hd
      linarith
    have hlen : vecNorm ((P.jac x)⁻¹.mulVec (P.resid x)) ≤ δ := by
      have e1 : vecNorm ((P.jac x)⁻¹.mulVec (P.resid x)) = vecNorm d := by
        rw [hdd, show -((P.jac x)⁻¹.mulVec (P.resid x)) = (-1 : ℝ) • ((P.jac x)⁻¹.mulVec (P.resid x)) by module,
          vecNorm_smul, abs_neg, abs_one, one_mul]
      rw [e1]
      refine (vecNorm_le_blocks d).trans ?_
      have hdr : P.defect x ≤ r / 3 := by
        have : 0 ≤ vecNorm (P.eF x - P.eN) / P.aV := div_nonneg (vecNorm_nonneg _) ha.le
        nlinarith
      have e2 : vecNorm u = vecNorm u / P.aV * P.aV := by field_simp
      show 2000 * vecNorm u + 100 * vecNorm ω ≤ δ
      rw [e2]
      set U := vecNorm u / P.aV
      have q1 : U + vecNorm ω ≤ r / 2 := by linarith
      rcases le_total P.aV 1 with h1 | h1
      · have := mul_le_mul_of_nonneg_left h1 hU
        linarith
      · have q2 := mul_le_mul_of_nonneg_right q1 ha.le
        have q3 : vecNorm ω ≤ vecNorm ω * P.aV := le_mul_of_one_le_right hO h1
        nlinarith
    have hcond : ¬((P.jac x).det = 0 ∨ δ < len ((P.jac x)⁻¹.mulVec (P.resid x))) := by
      rintro (h | h)
      · exact hdet h
      · exact absurd h (not_lt.2 hlen)
    have hyx : x - (P.jac x)⁻¹.mulVec (P.resid x) = y := by rw [hy, hdd, sub_eq_add_neg]
    obtain ⟨w, k, k1, k2, k3⟩ := ih f (c + 1) y (by omega) (by nlinarith) (by
      rw [pow_succ] at h2
      nlinarith)
    refine ⟨w, k + 1, ?_, by omega, k3⟩
    simp only [newtonRun, problem]
    rw [if_neg (show ¬len (P.resid x) ≤ tol from hr), if_neg hcond, hyx]
    have e3 : c + (k + 1) = c + 1 + k := by ring
    rw [e3]
    exact k1

end Ecm.Updst
