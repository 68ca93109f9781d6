/-
  Property C15: the material tangent.
-/
import Verif.Lemmas.Tangent
import Verif.Lemmas.Balance
import Verif.Props.Notation
import Verif.Props.Balance

namespace Ecm.Props
open Spec

theorem hasDerivAt_vecdsToSvecP {u : ℝ → Vec 6} {u' : Vec 6}
    (h : ∀ i, HasDerivAt (fun s => u s i) (u' i) 0) (i : Fin 6) :
    HasDerivAt (fun s => svecpToSvec (vecdsToSvecP (u s)) i) (svecpToSvec (vecdsToSvecP u') i) 0 := by
  have h0 := h 0; have h1 := h 1; have h2 := h 2; have h3 := h 3; have h4 := h 4; have h5 := h 5
  fin_cases i
  · exact ((h0.const_mul sqr2i).sub (h1.const_mul sqr6i)).add (h5.const_mul (-sqr3i)).neg
  · exact ((h0.const_mul sqr2i).neg.sub (h1.const_mul sqr6i)).add (h5.const_mul (-sqr3i)).neg
  · exact (h1.const_mul sqr2b3).add (h5.const_mul (-sqr3i)).neg
  · exact h4.const_mul sqr2i
  · exact h3.const_mul sqr2i
  · exact h2.const_mul sqr2i

/-- the conversion of the tangent, applied to a strain tensor -/
theorem conv_mulVec (M : Mat 6 6) (E : T3) (hE : E.IsSymm) :
    (mtanConvSdSvec true M).mulVec
      (![E 0 0, E 1 1, E 2 2, 2 * E 1 2, 2 * E 0 2, 2 * E 0 1])
      = svecpToSvec (vecdsToSvecP (M.mulVec (symmToVecds E))) := by
  have h01 : E 1 0 = E 0 1 := hE.apply 0 1
  have h02 : E 2 0 = E 0 2 := hE.apply 0 2
  have h12 : E 2 1 = E 1 2 := hE.apply 1 2
  ext i; fin_cases i <;>
    simp [mtanConvSdSvec, mtanConvC, Matrix.mulVec, dotProduct, Fin.sum_univ_succ,
      symmToVecds, symmToVecd, traceToVecdsS, trace3, svecpToSvec, vecdsToSvecP, h01, h02, h12] <;>
    sqr_ring

theorem tangent_some {n : ℕ} {X : Ext} {K : ℝ} {P : Updst n} {x : Vec 8} {A : Mat 6 6}
    (h : Step.tangent X K P x true = some (some A)) :
    ∃ Y, X.lup (P.jacU x) (P.pfracRhsT x) = some Y ∧
      A = mtanConvSdSvec true fun i j => if i = 5 ∧ j = 5 then 3 * K else P.mtanOf x Y i j * P.dtRi := by
  unfold Step.tangent Updst.mtan at h
  cases hY : X.lup (P.jacU x) (P.pfracRhsT x) with
  | none => simp [hY] at h
  | some Y =>
    simp only [hY, if_true, Option.map_some, Option.some.injEq] at h
    exact ⟨Y, rfl, h.symm⟩

/-- C15 deviatoric part.  Let the imposed deviatoric rate vary along `D`, and let a differentiable
    path of points solve the equations near the given rate.  Then the tangent returned at the current
    point, applied to the strain increment rate `dt D` in Voigt form with engineering shears, is the
    derivative of the Voigt components of the updated Cauchy stress in the sample frame.  The only
    facts used about the linear solver are its contract and that the unscaled Jacobian is
    invertible. -/
theorem C15_deviatoric {n : ℕ} (P : Updst n) (X : Ext) (hX : X.lup.Sound) (K : ℝ)
    (hcn : dot P.cN P.cN = 1) (hdt : 0 < P.dt) (ha : 0 < P.adotsRef) (D : T3) (hD : IsDev D)
    (x : ℝ → Vec 8) (x' : Vec 8) (hx : ∀ k, HasDerivAt (fun s => x s k) (x' k) 0)
    (hres : ∀ᶠ s in nhds (0 : ℝ),
      ({ P with dSm := fun i => P.dSm i + s * symmToVecd D i } : Updst n).resid (x s) = 0)
    (hg : ∀ s, HasDerivAt (fun τ => (P.gd s τ).gdot) (P.gd s (P.taua (x 0) s)).dtau (P.taua (x 0) s))
    (hξ : 1 / 10 ^ 9 ≤ len (Updst.xiF (x 0))) (hdet : (P.jacU (x 0)).det ≠ 0)
    (A : Mat 6 6) (hA : Step.tangent X K P (x 0) true = some (some A)) (i : Fin 6) :
    HasDerivAt
      (fun s => voigt (ofSvecP (Step.stressOf
        ({ P with dSm := fun i => P.dSm i + s * symmToVecd D i } : Updst n)
        (P.eF (x s)) (P.cQuat (x s)))) i)
      (A.mulVec (P.dt • ![D 0 0, D 1 1, D 2 2, 2 * D 1 2, 2 * D 0 2, 2 * D 0 1]) i) 0 := by
  rw [dot_self_quat] at hcn
  obtain ⟨Y, hY, rfl⟩ := tangent_some hA
  have hz : ∀ᶠ s in nhds (0 : ℝ),
      (P.atRate fun i => P.dSm i + s * symmToVecd D i).residE (x s) = 0 ∧ P.residR (x s) = 0 :=
    hres.mono fun s hs =>
      (Updst.resid_eq_zero (P.atRate fun i => P.dSm i + s * symmToVecd D i) hdt ha _).1 hs
  have hp := P.path_deriv hX hcn hx (hz.mono fun s h => h.1) (hz.mono fun s h => h.2) hg hξ hdet hY
  set u' : Vec 6 := fun i => ∑ j : Fin 5, P.mtanOf (x 0) Y i j.castSucc * symmToVecd D j with hu'
  have hfun : (fun k => xScale k * x' k) = fun k => ∑ j, Y j k * symmToVecd D j := funext hp
  set u : ℝ → Vec 6 := fun s =>
    ![vecsVMa (P.qr5x5 (x s)) (fun k : Fin 5 => P.elastNEtoC (P.eF (x s)) k.castSucc) 0,
      vecsVMa (P.qr5x5 (x s)) (fun k : Fin 5 => P.elastNEtoC (P.eF (x s)) k.castSucc) 1,
      vecsVMa (P.qr5x5 (x s)) (fun k : Fin 5 => P.elastNEtoC (P.eF (x s)) k.castSucc) 2,
      vecsVMa (P.qr5x5 (x s)) (fun k : Fin 5 => P.elastNEtoC (P.eF (x s)) k.castSucc) 3,
      vecsVMa (P.qr5x5 (x s)) (fun k : Fin 5 => P.elastNEtoC (P.eF (x s)) k.castSucc) 4,
      P.elastNEtoC (P.eF (x s)) 5] with hu
  have hdev : ∀ k : Fin 5, HasDerivAt (fun s => vecsVMa (P.qr5x5 (x s))
      (fun k : Fin 5 => P.elastNEtoC (P.eF (x s)) k.castSucc) k) (u' k.castSucc) 0 := fun k => by
    have h1 := P.stress_dev_deriv hcn hx hξ k
    rw [hfun, ← P.dStress_sum] at h1
    refine h1.congr_deriv ?_
    simp only [hu', P.mtanOf_dev]
  have hvol : HasDerivAt (fun s => P.elastNEtoC (P.eF (x s)) 5) (u' 5) 0 := by
    have hxv : VFD x 0 (fun s k => s * x' k) := fun k => FD.of_hasDerivAt (hx k)
    have h1 := (((((P.eF_FD hxv 1).const_mul P.aVri).const_mul P.el.kSdax3).add
      (FD.const (P.tConst 5))).const_mul P.detVRi).hasDerivAt
    have h2 : HasDerivAt (fun s => P.detVRi * (P.el.kSdax3 * (P.aVri * P.eF (x s) 1) + P.tConst 5))
      (u' 5) 0 := by
      refine h1.congr_deriv ?_
      have h3 := hp (iE 1)
      rw [xScale_iE] at h3
      have e : u' 5 = P.detVRi * P.aVri * P.el.kSdax3 * ∑ j, Y j (iE 1) * symmToVecd D j := by
        simp only [hu', P.mtanOf_row5, Finset.mul_sum]
        exact Finset.sum_congr rfl fun j _ => by ring
      rw [e, ← h3]
      ring
    refine h2.congr_of_eventuallyEq (Filter.Eventually.of_forall fun s => ?_)
    show P.detVRi * P.elastNEtoT (P.eF (x s)) 5 = _
    rw [P.elastNEtoT_five]
  have hall : ∀ i, HasDerivAt (fun s => u s i) (u' i) 0 := by
    intro i
    fin_cases i
    · exact hdev 0
    · exact hdev 1
    · exact hdev 2
    · exact hdev 3
    · exact hdev 4
    · exact hvol
  have hfin := hasDerivAt_vecdsToSvecP hall i
  have hE : (P.dt • D).IsSymm := (isDev_smul P.dt hD).1
  have htr : (P.dt • D).trace = 0 := (isDev_smul P.dt hD).2
  have hconv := conv_mulVec (fun i j => if i = 5 ∧ j = 5 then 3 * K else P.mtanOf (x 0) Y i j * P.dtRi)
    (P.dt • D) hE
  have hin : (P.dt • ![D 0 0, D 1 1, D 2 2, 2 * D 1 2, 2 * D 0 2, 2 * D 0 1] : Vec 6)
      = ![(P.dt • D) 0 0, (P.dt • D) 1 1, (P.dt • D) 2 2, 2 * (P.dt • D) 1 2, 2 * (P.dt • D) 0 2,
        2 * (P.dt • D) 0 1] := by
    ext i; fin_cases i <;> simp <;> ring
  have hmul : (Matrix.mulVec (fun i j => if i = 5 ∧ j = 5 then 3 * K else P.mtanOf (x 0) Y i j * P.dtRi)
      (symmToVecds (P.dt • D)) : Vec 6) = u' := by
    have hs : ∀ j : Fin 5, symmToVecds (P.dt • D) j.castSucc = P.dt * symmToVecd D j := by
      intro j
      have : symmToVecds (P.dt • D) j.castSucc = symmToVecd (P.dt • D) j := by
        fin_cases j <;> rfl
      rw [this, symmToVecd_smul]; rfl
    have h5 : symmToVecds (P.dt • D) 5 = 0 := by
      have : symmToVecds (P.dt • D) 5 = sqr3i * (P.dt • D).trace := by
        simp only [symmToVecds, traceToVecdsS, trace3, Matrix.trace_fin_three, Matrix.cons_val]
      rw [this, htr, mul_zero]
    ext i
    simp only [Matrix.mulVec, dotProduct]
    rw [Fin.sum_univ_castSucc]
    have hl : (Fin.last 5 : Fin 6) = 5 := rfl
    rw [hl, h5, mul_zero, add_zero, hu']
    refine Finset.sum_congr rfl fun j _ => ?_
    have hj : (j.castSucc : Fin 6) ≠ 5 := by
      intro h; have := congrArg Fin.val h; have := j.isLt; simp at *; omega
    rw [if_neg fun h => hj h.2, hs, Updst.dtRi]
    field_simp
  rw [hin, hconv, hmul]
  refine hfin.congr_of_eventuallyEq (Filter.Eventually.of_forall fun s => ?_)
  show voigt (ofSvecP (vecdsToSvecP (u s))) i = svecpToSvec (vecdsToSvecP (u s)) i
  fin_cases i <;> simp [voigt, ofSvecP, svecpToSvec] <;> ring

/-- C15 volumetric part: a volume strain gives the pressure of the reported bulk modulus and no
    deviatoric stress. -/
theorem C15_volumetric {n : ℕ} (P : Updst n) (X : Ext) (K : ℝ) (x : Vec 8) (A : Mat 6 6)
    (hA : Step.tangent X K P x true = some (some A)) :
    A.mulVec ![1, 1, 1, 0, 0, 0] = ![3 * K, 3 * K, 3 * K, 0, 0, 0] := by
  obtain ⟨Y, hY, rfl⟩ := tangent_some hA
  have h1 := conv_mulVec (fun i j => if i = 5 ∧ j = 5 then 3 * K else P.mtanOf x Y i j * P.dtRi)
    1 Matrix.isSymm_one
  have e1 : (![(1 : T3) 0 0, (1 : T3) 1 1, (1 : T3) 2 2, 2 * (1 : T3) 1 2, 2 * (1 : T3) 0 2,
      2 * (1 : T3) 0 1] : Vec 6) = ![1, 1, 1, 0, 0, 0] := by
    ext i; fin_cases i <;> simp
  rw [e1] at h1
  rw [h1]
  have e2 : symmToVecds (1 : T3) = ![0, 0, 0, 0, 0, 3 * sqr3i] := by
    ext i
    fin_cases i <;> simp [symmToVecds, symmToVecd, traceToVecdsS, trace3]
    · right; norm_num
    · ring
  have e3 : (Matrix.mulVec (fun i j => if i = 5 ∧ j = 5 then 3 * K else P.mtanOf x Y i j * P.dtRi)
      (symmToVecds 1) : Vec 6) = ![0, 0, 0, 0, 0, 3 * K * (3 * sqr3i)] := by
    rw [e2]
    ext i
    simp only [Matrix.mulVec, dotProduct]
    rw [Fin.sum_univ_castSucc]
    have hl : (Fin.last 5 : Fin 6) = 5 := rfl
    rw [hl, Finset.sum_eq_zero]
    · fin_cases i <;> simp [P.mtanOf_col5]
    · intro j _
      fin_cases j <;> simp
  rw [e3]
  ext i
  fin_cases i <;> simp [svecpToSvec, vecdsToSvecP] <;> sqr_ring

open Classical in
/-- a linear solver meeting the contract -/
noncomputable def idealLup : LUP := fun A B =>
  if A.det ≠ 0 then some fun j => A⁻¹.mulVec (B j) else none

theorem idealLup_sound : idealLup.Sound := by
  intro A B X h j i
  unfold idealLup at h
  split_ifs at h with hd
  cases h
  have e : A.mulVec (A⁻¹.mulVec (B j)) = B j := by
    rw [Matrix.mulVec_mulVec, Matrix.mul_nonsing_inv _ (isUnit_iff_ne_zero.2 hd), Matrix.one_mulVec]
  exact congrFun e i

/-- an elastic FCC crystal (all systems locked) that is turned by half a revolution in the step -/
noncomputable def turnEx : Updst 12 :=
  { probEx with
    gd := fun _ _ => { gdot := 0, dtau := 0, dg := 0 }
    dt := 1
    detV := 1
    eN := 0
    cN := ![1, 0, 0, 0]
    dSm := 0
    wSm := ![0, 0, Real.pi] }

/-- the direction in which its deformation rate is varied: diag(1, 1, -2) -/
def turnD : T3 := !![1, 0, 0; 0, 1, 0; 0, 0, -2]

/-- its path of solutions -/
noncomputable def turnPath (s : ℝ) : Vec 8 :=
  block8 (fun i => s * symmToVecd turnD i / eScale) ![0, 0, Real.pi / rScale]

theorem turn_xi (s : ℝ) : Updst.xiF (turnPath s) = ![0, 0, Real.pi] := by
  have hs : rScale ≠ 0 := by unfold rScale; norm_num
  funext i
  simp only [Updst.xiF, vecsVxa, turnPath, block8_iR]
  fin_cases i <;> simp
  field_simp

theorem turn_norm : vecNorm (![0, 0, Real.pi] : Vec 3) = Real.pi := by
  unfold vecNorm
  simp [Fin.sum_univ_three, Real.pi_pos.le]

theorem turn_quat : emapToQuat ![0, 0, Real.pi] = ![0, 0, 0, 1] := by
  have h : idpTinySqrt < vecNorm (![0, 0, Real.pi] : Vec 3) := by
    rw [turn_norm]; unfold idpTinySqrt; linarith [Real.pi_gt_three, show (1 / 10 ^ 90 : ℝ) < 1 by norm_num]
  rw [emapToQuat_eq_expQuat (Or.inl h), expQuat_of_pos (by rw [turn_norm]; exact Real.pi_pos)]
  ext i
  fin_cases i <;> simp [turn_norm, Real.pi_ne_zero]

theorem turn_cQuat (s : ℝ) : turnEx.cQuat (turnPath s) = ![0, 0, 0, 1] := by
  unfold Updst.cQuat
  rw [turn_xi, turn_quat]
  ext i
  fin_cases i <;> simp [getCQuat, quatProd, turnEx]

theorem turn_aVri : turnEx.aVri = 1 := by simp [Updst.aVri, Updst.aV, turnEx]

theorem turn_dtRi : turnEx.dtRi = 1 := by simp [Updst.dtRi, turnEx]

theorem turn_eF (s : ℝ) : turnEx.eF (turnPath s) = fun i => s * symmToVecd turnD i := by
  have hs : eScale ≠ 0 := by unfold eScale; norm_num
  funext i
  simp only [Updst.eF, vecsVapb, vecsVxa, turnPath, block8_iE]
  simp [turnEx]
  field_simp

theorem turn_edot (s : ℝ) : turnEx.edot (turnPath s) = fun i => s * symmToVecd turnD i := by
  rw [turnEx.edot_eq, turn_eF]
  funext i
  simp [turnEx]

theorem turn_resid (s : ℝ) :
    ({ turnEx with dSm := fun i => turnEx.dSm i + s * symmToVecd turnD i } : Updst 12).resid
      (turnPath s) = 0 := by
  refine (Updst.resid_eq_zero _ (by norm_num [turnEx]) (by norm_num [turnEx, probEx]) _).2 ⟨?_, ?_⟩
  · funext i
    show turnEx.aVri * turnEx.edot (turnPath s) i
      + vecsVMa turnEx.geom.P (turnEx.gdot (turnPath s)) i
      - vecsVMTa (getRotMatVecd (quatToTensor (turnEx.cQuat (turnPath s))))
          (fun i => turnEx.dSm i + s * symmToVecd turnD i) i = 0
    rw [turn_aVri, turn_edot, turn_cQuat]
    have h0 : vecsVMa turnEx.geom.P (turnEx.gdot (turnPath s)) i = 0 := by
      simp [vecsVMa, Updst.gdot, turnEx]
    rw [h0]
    fin_cases i <;>
      simp [turnEx, vecsVMTa, getRotMatVecd, quatToTensor, symmToVecd, turnD, Fin.sum_univ_succ]
    ring
  · funext i
    show Updst.xiF (turnPath s) i - turnEx.dt * (vecsVMTa (quatToTensor (turnEx.cQuat (turnPath s)))
      turnEx.wSm i - vecsVMa turnEx.geom.Q (turnEx.gdot (turnPath s)) i
      + turnEx.eeFac * vecsVMa (m35 (turnEx.eF (turnPath s))) (turnEx.edot (turnPath s)) i) = 0
    rw [turn_xi, turn_eF, turn_edot, turn_cQuat]
    have h0 : vecsVMa turnEx.geom.Q (turnEx.gdot (turnPath s)) i = 0 := by
      simp [vecsVMa, Updst.gdot, turnEx]
    rw [h0]
    fin_cases i <;>
      simp [turnEx, vecsVMTa, vecsVMa, quatToTensor, symmToVecd, turnD, Fin.sum_univ_succ, m35]

theorem turn_det : (turnEx.jacU (turnPath 0)).det ≠ 0 := by
  intro h
  obtain ⟨v, hv0, hv⟩ := Matrix.exists_mulVec_eq_zero_iff.2 h
  apply hv0
  have hC : turnEx.cMatx (turnPath 0) = !![-1, 0, 0; 0, -1, 0; 0, 0, 1] := by
    unfold Updst.cMatx
    rw [turn_cQuat]
    ext i j; fin_cases i <;> fin_cases j <;> simp [quatToTensor]
  have hdq : dquatDemapT ![0, 0, Real.pi]
      = !![0, 1 / Real.pi, 0, 0; 0, 0, 1 / Real.pi, 0; -(1 / 2), 0, 0, 0] := by
    rw [dquatDemapT_eq_dExp (by rw [turn_norm]; unfold thetaSmA; linarith [Real.pi_gt_three,
      show (1 / 10 ^ 9 : ℝ) < 1 by norm_num])]
    ext i j
    fin_cases i <;> fin_cases j <;> simp [dExp, turn_norm, Real.pi_ne_zero]
  have hW : ∀ i j, dWappDxi turnEx.wSm (Updst.xiF (turnPath 0)) turnEx.cN
      (turnEx.cQuat (turnPath 0)) i j = (!![2, 0, 0; 0, 2, 0; 0, 0, 0] : T3) i j := by
    intro i j
    rw [turn_xi, turn_cQuat]
    have hq : ∀ w, dCquatDxiT ![0, 0, Real.pi] turnEx.cN w
        = (!![0, 1 / Real.pi, 0, 0; 0, 0, 1 / Real.pi, 0; -(1 / 2), 0, 0, 0] : Mat 3 4) w := by
      intro w
      show quatProd turnEx.cN (dquatDemapT ![0, 0, Real.pi] w) = _
      rw [hdq]
      ext k
      fin_cases w <;> fin_cases k <;> simp [quatProd, turnEx]
    simp only [dWappDxi, dCmatxDxi, hq]
    fin_cases i <;> fin_cases j <;>
      simp [dRotMatWveccpLatop, dQuatToTensor, turnEx, Fin.sum_univ_succ, Real.pi_ne_zero] <;>
      field_simp
  have hE : ∀ i, v (iE i) = 0 := by
    intro i
    have h1 := congrFun hv (iE i)
    rw [Matrix.mulVec, dotProduct, sum_fin8] at h1
    have e1 : ∀ j, turnEx.jacU (turnPath 0) (iE i) (iE j) = if i = j then 1 else 0 := fun j => by
      unfold Updst.jacU
      refine (block88_EE _ _ _ _ i j).trans ?_
      rw [turn_aVri, turn_dtRi]
      simp [Updst.dplSymm, vecsMABT, Updst.dgdotDeps, Updst.dgdotDtau, turnEx]
    have e2 : ∀ j, turnEx.jacU (turnPath 0) (iE i) (iR j) = 0 := fun j => by
      unfold Updst.jacU
      refine (block88_ER _ _ _ _ i j).trans ?_
      have hd : ∀ p q, dRotMatVecdLatop (turnEx.cMatx (turnPath 0)) turnEx.dSm i p q = 0 := by
        intro p q
        rw [hC]
        fin_cases i <;> fin_cases p <;> fin_cases q <;> simp [dRotMatVecdLatop, turnEx]
      simp [dDappDxi, hd]
    simp only [e1, e2] at h1
    simpa using h1
  have hR : ∀ i, v (iR i) = 0 := by
    have h1 : ∀ i, ∑ j, turnEx.jacU (turnPath 0) (iR i) (iR j) * v (iR j) = 0 := fun i => by
      have := congrFun hv (iR i)
      rw [Matrix.mulVec, dotProduct, sum_fin8] at this
      simpa [hE] using this
    have e : ∀ i j, turnEx.jacU (turnPath 0) (iR i) (iR j)
        = (!![-1, 0, 0; 0, -1, 0; 0, 0, 1] : T3) i j := fun i j => by
      unfold Updst.jacU
      refine (block88_RR _ _ _ _ i j).trans ?_
      rw [hW]
      fin_cases i <;> fin_cases j <;> simp [turnEx] <;> norm_num
    simp only [e] at h1
    have a0 := h1 0; have a1 := h1 1; have a2 := h1 2
    simp [Fin.sum_univ_three] at a0 a1 a2
    intro i
    fin_cases i
    · exact a0
    · exact a1
    · exact a2
  funext k
  revert k
  exact forall_fin8 hE hR

example (i : Fin 6) : ∃ A : Mat 6 6, HasDerivAt
      (fun s => voigt (ofSvecP (Step.stressOf
        ({ turnEx with dSm := fun i => turnEx.dSm i + s * symmToVecd turnD i } : Updst 12)
        (turnEx.eF (turnPath s)) (turnEx.cQuat (turnPath s)))) i)
      (A.mulVec (turnEx.dt • ![turnD 0 0, turnD 1 1, turnD 2 2, 2 * turnD 1 2, 2 * turnD 0 2,
        2 * turnD 0 1]) i) 0 := by
  let X : Ext := { solver := fun _ _ _ x => ⟨true, x, x, 0⟩, lup := idealLup, evalCost := 1 }
  have hA : ∃ A, Step.tangent X 5 turnEx (turnPath 0) true = some (some A) := by
    unfold Step.tangent Updst.mtan
    simp only [X, idealLup, if_pos turn_det]
    exact ⟨_, rfl⟩
  obtain ⟨A, hA⟩ := hA
  refine ⟨A, C15_deviatoric turnEx X idealLup_sound 5 ?_ ?_ ?_ turnD ?_ turnPath
    (block8 (fun i => symmToVecd turnD i / eScale) 0) ?_ ?_ ?_ ?_ turn_det A hA i⟩
  · simp [turnEx, dot, Fin.sum_univ_four]
  · norm_num [turnEx]
  · norm_num [turnEx, probEx]
  · rw [isDev_iff]; simp [turnD]; norm_num
  · refine forall_fin8 (fun k => ?_) fun k => ?_
    · simp only [turnPath, block8_iE]
      have := ((hasDerivAt_id' (0 : ℝ)).mul_const (symmToVecd turnD k)).div_const eScale
      rwa [one_mul] at this
    · simp only [turnPath, block8_iR]
      exact hasDerivAt_const _ _
  · exact Filter.Eventually.of_forall turn_resid
  · intro s
    exact hasDerivAt_const _ _
  · rw [turn_xi]
    show _ ≤ vecNorm _
    rw [turn_norm]
    linarith [Real.pi_gt_three, show (1 / 10 ^ 9 : ℝ) < 1 by norm_num]

end Ecm.Props
