/- A change of the units of stress and time: helper lemmas for C75. -/
import Verif.Lemmas.Response
import Verif.SpecUnits

namespace Ecm

/-! ## Linear helpers applied to a multiple -/

theorem vecNorm_smul' {n : ℕ} {c : ℝ} (hc : 0 ≤ c) (v : Vec n) : vecNorm (fun i => c * v i) = c * vecNorm v := by
  unfold vecNorm
  rw [show (∑ i, c * v i * (c * v i)) = c ^ 2 * ∑ i, v i * v i by
    rw [Finset.mul_sum]; exact Finset.sum_congr rfl fun i _ => by ring]
  rw [Real.sqrt_mul (sq_nonneg c), Real.sqrt_sq hc]

theorem vecsVMa_smul {n q : ℕ} (c : ℝ) (M : Mat n q) (v : Vec q) :
    vecsVMa M (fun i => c * v i) = fun i => c * vecsVMa M v i := by
  funext i
  simp only [vecsVMa, Finset.mul_sum]
  exact Finset.sum_congr rfl fun j _ => by ring

theorem vecsVMTa_smul {n : ℕ} (c : ℝ) (M : Mat n n) (v : Vec n) :
    vecsVMTa M (fun i => c * v i) = fun i => c * vecsVMTa M v i := by
  funext i
  simp only [vecsVMTa, Finset.mul_sum]
  exact Finset.sum_congr rfl fun j _ => by ring

theorem vecsVaTM_smul {n q : ℕ} (c : ℝ) (M : Mat n q) (v : Vec n) :
    vecsVaTM (fun i => c * v i) M = fun i => c * vecsVaTM v M i := by
  funext i
  simp only [vecsVaTM, Finset.mul_sum]
  exact Finset.sum_congr rfl fun j _ => by ring

theorem vecsMABT_smul {n m q : ℕ} (c : ℝ) (A : Mat n q) (B : Mat m q) :
    vecsMABT A (fun i j => c * B i j) = fun i j => c * vecsMABT A B i j := by
  funext i j
  simp only [vecsMABT, Finset.mul_sum]
  exact Finset.sum_congr rfl fun j _ => by ring

theorem m35_smul (c : ℝ) (v : Vec 5) : m35 (fun i => c * v i) = fun i j => c * m35 v i j := by
  funext i j
  fin_cases i <;> fin_cases j <;> simp [m35] <;> ring

set_option maxHeartbeats 4000000 in
theorem dDappDxi_smul (c : ℝ) (d : Vec 5) (xi : Vec 3) (cn : Vec 4) (cm : Mat 3 3) (cq : Vec 4) :
    dDappDxi (fun i => c * d i) xi cn cm cq = fun i j => c * dDappDxi d xi cn cm cq i j := by
  have h : ∀ i p q, dRotMatVecdLatop cm (fun i => c * d i) i p q = c * dRotMatVecdLatop cm d i p q := by
    intro i p q
    fin_cases i <;> fin_cases p <;> fin_cases q <;> simp [dRotMatVecdLatop] <;> ring
  funext i w
  simp only [dDappDxi, h, Finset.mul_sum]
  exact Finset.sum_congr rfl fun p _ => Finset.sum_congr rfl fun q _ => by ring

theorem dWappDxi_smul (c : ℝ) (w : Vec 3) (xi : Vec 3) (cn : Vec 4) (cq : Vec 4) :
    dWappDxi (fun i => c * w i) xi cn cq = fun i j => c * dWappDxi w xi cn cq i j := by
  have h : ∀ i p q, dRotMatWveccpLatop (fun i => c * w i) i p q = c * dRotMatWveccpLatop w i p q := by
    intro i p q
    fin_cases i <;> fin_cases p <;> fin_cases q <;> simp [dRotMatWveccpLatop]
  funext i j
  simp only [dWappDxi, h, Finset.mul_sum]
  exact Finset.sum_congr rfl fun p _ => Finset.sum_congr rfl fun q _ => by ring

set_option maxHeartbeats 4000000 in
theorem dRotMatVecdSmop_smul (c : ℝ) (cm : Mat 3 3) (v : Vec 5) (i : Fin 5) (p q : Fin 3) :
    dRotMatVecdSmop cm (fun i => c * v i) i p q = c * dRotMatVecdSmop cm v i p q := by
  fin_cases i <;> fin_cases p <;> fin_cases q <;> simp [dRotMatVecdSmop] <;> ring

theorem svecToVecd_smul (c : ℝ) (v : Vec 7) : svecToVecd (fun i => c * v i) = fun i => c * svecToVecd v i := by
  funext i; fin_cases i <;> simp [svecToVecd] <;> ring

theorem vecdsToSvecP_smul (c : ℝ) (v : Vec 6) : vecdsToSvecP (fun i => c * v i) = fun i => c * vecdsToSvecP v i := by
  funext i; fin_cases i <;> simp [vecdsToSvecP] <;> ring

theorem mtanConvSdSvec_smul (c : ℝ) (g : Bool) (M : Mat 6 6) :
    mtanConvSdSvec g (fun i j => c * M i j) = fun i j => c * mtanConvSdSvec g M i j := by
  funext i j
  cases g <;> fin_cases i <;> fin_cases j <;> simp [mtanConvSdSvec, mtanConvC] <;> ring

/-! ## Elasticity and equation of state in other units -/

theorem Elast.units_kDiag (σ : ℝ) (el : Elast) (i : Fin 5) : (el.units σ).kDiag i = σ * el.kDiag i := by
  cases el <;> fin_cases i <;> simp [Elast.units, Elast.kDiag] <;> ring

theorem Elast.units_kSdax3 (σ : ℝ) (el : Elast) : (el.units σ).kSdax3 = σ * el.kSdax3 := by
  cases el <;> simp [Elast.units, Elast.kSdax3]; ring

theorem Elast.units_eval (σ : ℝ) (el : Elast) (Ee : Vec 6) (p e : ℝ) :
    (el.units σ).eval Ee (σ * p) (σ * e) = fun i => σ * el.eval Ee p e i := by
  have hk := fun i => el.units_kDiag σ i
  have hs := el.units_kSdax3 σ
  cases el with
  | cubic c11 c12 c44 =>
    simp only [Elast.units] at hk ⊢
    funext i
    fin_cases i <;> simp [Elast.eval, hk] <;> ring
  | hexag c11 c12 c13 c33 c44 g =>
    simp only [Elast.units] at hk hs ⊢
    funext i
    fin_cases i <;> simp [Elast.eval, hk, hs, Elast.gVecd2] <;> ring

theorem Elast.units_kGmod (σ : ℝ) (el : Elast) : (el.units σ).kGmod = σ * el.kGmod := by
  have hk := fun i => el.units_kDiag σ i
  cases el with
  | cubic c11 c12 c44 => simp only [Elast.units, Elast.kGmod]; ring
  | hexag c11 c12 c13 c33 c44 g =>
    simp only [Elast.units] at hk ⊢
    simp only [Elast.kGmod, vecsssum, hk, ← Finset.mul_sum]; ring

theorem Elast.units_getGmod {σ : ℝ} (hσ : 0 < σ) (el : Elast) :
    (el.units σ).getGmod = match el.getGmod with
      | .ok g => .ok (σ * g)
      | .fail s => .fail s
      | .undef w => .undef w := by
  unfold Elast.getGmod
  rw [Elast.units_kGmod]
  by_cases h : el.kGmod ≤ 0
  · rw [if_pos h, if_pos (mul_nonpos_of_nonneg_of_nonpos hσ.le h)]
  · rw [if_neg h, if_neg (by push Not at h ⊢; exact mul_pos hσ h)]

theorem Eos.units_tK {σ : ℝ} (hσ : 0 < σ) (s : Eos) (v e : ℝ) :
    ((s.units σ).evalPT v (σ * e)).2 = (s.evalPT v e).2 := by
  unfold Eos.evalPT Eos.units Eos.tK0 Eos.dtde0
  simp only
  have h : (1 / (σ * s.cvav)) = σ⁻¹ * (1 / s.cvav) := by rw [one_div, one_div, mul_inv]
  split_ifs <;> simp only [h] <;> field_simp

theorem Eos.units_update {σ : ℝ} (hσ : 0 < σ) (s : Eos) (v dv e p : ℝ) :
    ((s.units σ).updateSimple v dv (σ * e) (σ * p)).press = σ * (s.updateSimple v dv e p).press ∧
    ((s.units σ).updateSimple v dv (σ * e) (σ * p)).eNew = σ * (s.updateSimple v dv e p).eNew ∧
    ((s.units σ).updateSimple v dv (σ * e) (σ * p)).bulkNew = σ * (s.updateSimple v dv e p).bulkNew := by
  refine ⟨?_, ?_, ?_⟩
  · simp only [Eos.updateSimple, Eos.evalPTDiff, Eos.units]
    by_cases h : s.isothermal = true
    · simp only [h, if_true]; ring
    · simp only [h]; simp; ring
  · simp only [Eos.updateSimple]; ring
  · simp only [Eos.updateSimple, Eos.evalPTDiff, Eos.units]
    rw [mul_max_of_nonneg _ _ hσ.le]
    congr 1
    · ring
    · by_cases h : s.isothermal = true
      · simp only [h, if_true]; ring
      · simp only [h]; simp; ring

/-! ## The problem of one update in other units -/

namespace Updst
variable {n : ℕ} (P : Updst n) {σ θ : ℝ}

/-- the problem in other units: stresses `σ` times as large, times `θ` times as large -/
noncomputable def units (σ θ : ℝ) (gd' : Fin n → ℝ → Gd) : Updst n :=
  { P with
    el := P.el.units σ
    gd := gd'
    adotsRef := θ⁻¹ * P.adotsRef
    hdnScale := σ * P.hdnScale
    dt := θ * P.dt
    eVref := σ * P.eVref
    pEos := σ * P.pEos
    dSm := fun i => θ⁻¹ * P.dSm i
    wSm := fun i => θ⁻¹ * P.wSm i }

variable (gd' : Fin n → ℝ → Gd)

theorem units_dtRi : (P.units σ θ gd').dtRi = θ⁻¹ * P.dtRi := by
  simp only [dtRi, units, one_div, mul_inv]

theorem units_aVri : (P.units σ θ gd').aVri = P.aVri := rfl

theorem units_edot (x : Vec 8) : (P.units σ θ gd').edot x = fun i => θ⁻¹ * P.edot x i := by
  funext i
  simp only [edot, vecsVsa, units_dtRi]; ring

theorem units_scaleInv (hθ : 0 < θ) : (P.units σ θ gd').epsdotScaleInv = θ * P.epsdotScaleInv := by
  have hi : 0 < θ⁻¹ := inv_pos.2 hθ
  have hn : vecNorm (P.units σ θ gd').dSm = θ⁻¹ * vecNorm P.dSm := vecNorm_smul' hi.le _
  unfold epsdotScaleInv
  simp only [hn]
  have e1 : (P.units σ θ gd').adotsRef = θ⁻¹ * P.adotsRef := rfl
  have e2 : (P.units σ θ gd').dt = θ * P.dt := rfl
  rw [e1, e2]
  have c1 : θ⁻¹ * vecNorm P.dSm < epsdotSclNzeff * (θ⁻¹ * P.adotsRef) ↔ vecNorm P.dSm < epsdotSclNzeff * P.adotsRef := by
    rw [mul_left_comm, mul_lt_mul_iff_right₀ hi]
  have c2 : θ⁻¹ * vecNorm P.dSm = 0 ↔ vecNorm P.dSm = 0 := by simp [hθ.ne']
  simp only [c1, c2]
  split_ifs
  · rw [one_div, mul_inv, inv_inv, one_div]
  · ring
  · rw [mul_min_of_nonneg _ _ hθ.le]
    congr 1
    · rw [one_div, mul_inv, inv_inv, one_div]
    · ring

theorem units_rotScaleInv (hθ : 0 < θ) : (P.units σ θ gd').rotincrScaleInv = P.rotincrScaleInv := by
  unfold rotincrScaleInv
  rw [units_dtRi, units_scaleInv P gd' hθ]
  field_simp

theorem units_elastNEtoT (e : Vec 5) : (P.units σ θ gd').elastNEtoT e = fun i => σ * P.elastNEtoT e i :=
  Elast.units_eval σ P.el _ _ _

theorem units_elastNEtoC (e : Vec 5) : (P.units σ θ gd').elastNEtoC e = fun i => σ * P.elastNEtoC e i := by
  funext i
  show P.detVRi * (P.units σ θ gd').elastNEtoT e i = σ * (P.detVRi * P.elastNEtoT e i)
  rw [units_elastNEtoT]; ring

theorem units_taua (x : Vec 8) : (P.units σ θ gd').taua x = fun i => σ * P.taua x i := by
  show vecsVaTM (fun i : Fin 5 => (P.units σ θ gd').elastNEtoT (P.eF x) i.castSucc) P.geom.P = _
  rw [units_elastNEtoT]
  exact vecsVaTM_smul σ _ _

variable {gd'} (hg : GdUnits σ θ P.gd gd')
include hg

theorem units_gdot (x : Vec 8) : (P.units σ θ gd').gdot x = fun i => θ⁻¹ * P.gdot x i := by
  funext i
  show (gd' i ((P.units σ θ gd').taua x i)).gdot = _
  rw [units_taua]
  exact (hg i _).1

theorem units_dgdotDtau (x : Vec 8) : (P.units σ θ gd').dgdotDtau x = fun i => θ⁻¹ * (σ⁻¹ * P.dgdotDtau x i) := by
  funext i
  show (gd' i ((P.units σ θ gd').taua x i)).dtau = _
  rw [units_taua]
  exact (hg i _).2

theorem units_residE (x : Vec 8) : (P.units σ θ gd').residE x = fun i => θ⁻¹ * P.residE x i := by
  funext i
  unfold residE
  rw [units_edot, P.units_gdot hg]
  show P.aVri * (θ⁻¹ * P.edot x i) + vecsVMa P.geom.P (fun i => θ⁻¹ * P.gdot x i) i
    - vecsVMTa (P.qr5x5 x) (fun i => θ⁻¹ * P.dSm i) i = _
  rw [vecsVMa_smul, vecsVMTa_smul]; ring

theorem units_residR (hθ : 0 < θ) (x : Vec 8) : (P.units σ θ gd').residR x = P.residR x := by
  funext i
  unfold residR
  rw [units_edot, P.units_gdot hg]
  show xiF x i - θ * P.dt * (vecsVMTa (P.cMatx x) (fun i => θ⁻¹ * P.wSm i) i
    - vecsVMa P.geom.Q (fun i => θ⁻¹ * P.gdot x i) i
    + P.eeFac * vecsVMa (m35 (P.eF x)) (fun i => θ⁻¹ * P.edot x i) i) = _
  rw [vecsVMa_smul, vecsVMa_smul, vecsVMTa_smul]
  field_simp

theorem units_resid (hθ : 0 < θ) (x : Vec 8) : (P.units σ θ gd').resid x = P.resid x := by
  unfold resid
  rw [units_scaleInv P gd' hθ, units_rotScaleInv P gd' hθ, P.units_residE hg, P.units_residR hg hθ]
  congr 1
  funext i
  field_simp

theorem units_dgdotDeps (hσ : 0 < σ) (x : Vec 8) : (P.units σ θ gd').dgdotDeps x = fun i s => θ⁻¹ * P.dgdotDeps x i s := by
  funext i s
  unfold dgdotDeps
  rw [P.units_dgdotDtau hg]
  show θ⁻¹ * (σ⁻¹ * P.dgdotDtau x s) * ((P.el.units σ).kDiag i * P.aVri * P.geom.P i s)
    = θ⁻¹ * (P.dgdotDtau x s * (P.el.kDiag i * P.aVri * P.geom.P i s))
  rw [Elast.units_kDiag]
  field_simp

theorem units_jacU (hσ : 0 < σ) (hθ : 0 < θ) (x : Vec 8) (i j : Fin 8) :
    (P.units σ θ gd').jacU x i j = (if i.val < 5 then θ⁻¹ else 1) * P.jacU x i j := by
  have hS : (P.units σ θ gd').dplSymm x = fun i j => θ⁻¹ * P.dplSymm x i j := by
    unfold dplSymm
    rw [P.units_dgdotDeps hg hσ]
    exact vecsMABT_smul _ _ _
  have hW : (P.units σ θ gd').dplSkew x = fun i j => θ⁻¹ * P.dplSkew x i j := by
    unfold dplSkew
    rw [P.units_dgdotDeps hg hσ]
    exact vecsMABT_smul _ _ _
  have hD : dDappDxi (P.units σ θ gd').dSm (xiF x) (P.units σ θ gd').cN ((P.units σ θ gd').cMatx x)
      ((P.units σ θ gd').cQuat x) = fun i j => θ⁻¹ * dDappDxi P.dSm (xiF x) P.cN (P.cMatx x) (P.cQuat x) i j :=
    dDappDxi_smul _ _ _ _ _ _
  have hWa : dWappDxi (P.units σ θ gd').wSm (xiF x) (P.units σ θ gd').cN ((P.units σ θ gd').cQuat x)
      = fun i j => θ⁻¹ * dWappDxi P.wSm (xiF x) P.cN (P.cQuat x) i j := dWappDxi_smul _ _ _ _ _
  unfold jacU
  rw [hS, hW, hD, hWa, units_edot, m35_smul, units_dtRi]
  have e1 : (P.units σ θ gd').dt = θ * P.dt := rfl
  have e2 : (P.units σ θ gd').aVri = P.aVri := rfl
  have e3 : (P.units σ θ gd').eeFac = P.eeFac := rfl
  have e4 : (P.units σ θ gd').eF x = P.eF x := rfl
  rw [e1, e2, e3, e4]
  unfold block88 block8
  by_cases hi : i.val < 5 <;> by_cases hj : j.val < 5 <;> simp only [hi, hj, dif_pos, dif_neg, if_true, if_false, not_false_eq_true]
  · split_ifs <;> ring
  · ring
  · field_simp
  · split_ifs <;> field_simp

theorem units_jac (hσ : 0 < σ) (hθ : 0 < θ) (x : Vec 8) : (P.units σ θ gd').jac x = P.jac x := by
  funext i j
  unfold jac
  rw [P.units_jacU hg hσ hθ, units_scaleInv P gd' hθ, units_rotScaleInv P gd' hθ]
  split_ifs <;> field_simp

theorem units_problem (hσ : 0 < σ) (hθ : 0 < θ) : (P.units σ θ gd').problem = P.problem := by
  funext x
  unfold problem
  rw [P.units_resid hg hθ, P.units_jac hg hσ hθ]

theorem units_disRate (x : Vec 8) : (P.units σ θ gd').disRate x = σ * (θ⁻¹ * P.disRate x) := by
  unfold disRate
  rw [units_taua, P.units_gdot hg]
  show P.detVRi * _ = _
  simp only [vecsyadotb, Finset.mul_sum]
  exact Finset.sum_congr rfl fun i _ => by ring

theorem units_shrateEff (hθ : 0 < θ) (x : Vec 8) : (P.units σ θ gd').shrateEff x = θ⁻¹ * P.shrateEff x := by
  unfold shrateEff
  rw [P.units_gdot hg]
  simp only [vecsssumabs, abs_mul, abs_of_pos (inv_pos.2 hθ), Finset.mul_sum]

theorem units_flowStr (hσ : 0 < σ) (hθ : 0 < θ)
    (ht : idpTinySqrt < vecdDeff P.dSm ↔ idpTinySqrt < θ⁻¹ * vecdDeff P.dSm) (x : Vec 8) :
    Step.flowStr (P.units σ θ gd') x = σ * Step.flowStr P x := by
  have hd : vecdDeff (P.units σ θ gd').dSm = θ⁻¹ * vecdDeff P.dSm := by
    show sqr2b3 * vecNorm (fun i => θ⁻¹ * P.dSm i) = _
    rw [vecNorm_smul' (inv_pos.2 hθ).le]; unfold vecdDeff; ring
  unfold Step.flowStr
  rw [hd, P.units_disRate hg]
  simp only [← ht]
  split_ifs
  · rw [mul_left_comm, mul_div_mul_left _ _ (inv_pos.2 hθ).ne', mul_div_assoc]
  · rfl

omit hg in
theorem units_stressOf (e : Vec 5) (q : Vec 4) :
    Step.stressOf (P.units σ θ gd') e q = fun i => σ * Step.stressOf P e q i := by
  unfold Step.stressOf
  rw [units_elastNEtoC]
  simp only [vecsVMa_smul]
  rw [← vecdsToSvecP_smul]
  congr 1
  funext i
  fin_cases i <;> rfl

omit hg in
theorem units_mtanOf (x : Vec 8) (X : Mat 5 8) :
    (P.units σ θ gd').mtanOf x (fun i j => θ * X i j) = fun i j => σ * (θ * P.mtanOf x X i j) := by
  have h1 : (P.el.units σ).multCauchyDif (fun a b => θ * X b (iE a)) P.detVRi P.aVri
      = fun i j => σ * (θ * P.el.multCauchyDif (fun a b => X b (iE a)) P.detVRi P.aVri i j) := by
    have hk := fun i => P.el.units_kDiag σ i
    have hs := P.el.units_kSdax3 σ
    funext i j
    cases hel : P.el with
    | cubic c11 c12 c44 =>
      rw [hel] at hk
      simp only [Elast.units] at hk ⊢
      simp only [Elast.multCauchyDif, hk]
      split_ifs <;> ring
    | hexag c11 c12 c13 c33 c44 g =>
      rw [hel] at hk hs
      simp only [Elast.units] at hk hs ⊢
      simp only [Elast.multCauchyDif, hk, hs]
      split_ifs <;> ring
  have h2 : ∀ A : Mat 6 6, qr6x6PreMul false (fun i j => σ * (θ * A i j)) (P.qr5x5 x)
      = fun i j => σ * (θ * qr6x6PreMul false A (P.qr5x5 x) i j) := by
    intro A
    funext i j
    unfold qr6x6PreMul
    by_cases h : i.val < 5
    · rw [dif_pos h, dif_pos h, Finset.mul_sum, Finset.mul_sum]
      exact Finset.sum_congr rfl fun k _ => by ring
    · rw [dif_neg h, dif_neg h]
  have h3 : (P.units σ θ gd').dsigClatDCquat x = fun i r => σ * P.dsigClatDCquat x i r := by
    funext i r
    unfold dsigClatDCquat
    rw [units_elastNEtoC]
    simp only [dRotMatVecdSmop_smul]
    rw [Finset.mul_sum]
    refine Finset.sum_congr rfl fun p _ => ?_
    rw [Finset.mul_sum]
    exact Finset.sum_congr rfl fun q _ => mul_assoc _ _ _
  have h4 : (P.units σ θ gd').dCquatDI x (fun i j => θ * X i j) = fun q I => θ * P.dCquatDI x X q I := by
    funext q I
    unfold dCquatDI
    rw [Finset.mul_sum]
    exact Finset.sum_congr rfl fun w _ => by
      show dCquatDxiT (xiF x) P.cN w q * (θ * X I (iR w)) = _; ring
  funext i j
  unfold mtanOf
  rw [h3, h4]
  show qr6x6PreMul false ((P.el.units σ).multCauchyDif (fun a b => θ * X b (iE a)) P.detVRi P.aVri) (P.qr5x5 x) i j + _ = _
  rw [h1, h2]
  have h5 : ∀ a b, vecsMAB (fun i r => σ * P.dsigClatDCquat x i r) (fun q I => θ * P.dCquatDI x X q I) a b
      = σ * (θ * vecsMAB (P.dsigClatDCquat x) (P.dCquatDI x X) a b) := by
    intro a b
    simp only [vecsMAB]
    rw [Finset.mul_sum, Finset.mul_sum]
    exact Finset.sum_congr rfl fun w _ => by ring
  simp only [h5]
  split_ifs <;> ring

theorem units_tangent (hσ : 0 < σ) (hθ : 0 < θ) (X : Ext) (bulk : ℝ) (x : Vec 8) (want : Bool)
    (hL : want = false ∨ LupUnits X.lup θ) :
    Step.tangent X (σ * bulk) (P.units σ θ gd') x want
      = (Step.tangent X bulk P x want).map (Option.map (matScale σ)) := by
  unfold Step.tangent
  cases want with
  | false => rfl
  | true =>
    have hL := hL.resolve_left (by simp)
    have hJ : (P.units σ θ gd').jacU x = fun i j => (if i.val < 5 then θ⁻¹ else 1) * P.jacU x i j := by
      funext i j; exact P.units_jacU hg hσ hθ x i j
    have hB : ∀ j i, 5 ≤ i.val → P.pfracRhsT x j i = 0 := fun j i hi => by
      unfold pfracRhsT; rw [dif_neg (by omega)]
    simp only [if_true, mtan, hJ]
    rw [show (P.units σ θ gd').pfracRhsT x = P.pfracRhsT x from rfl, hL _ _ hB]
    cases X.lup (P.jacU x) (P.pfracRhsT x) with
    | none => rfl
    | some Y =>
      have hm := P.units_mtanOf (σ := σ) (θ := θ) (gd' := gd') x Y
      simp only [units_dtRi]
      show some (some (mtanConvSdSvec true fun i j => if i = 5 ∧ j = 5 then 3 * (σ * bulk)
        else (P.units σ θ gd').mtanOf x (fun i j => θ * Y i j) i j * (θ⁻¹ * P.dtRi))) = _
      rw [hm]
      show _ = some (some fun i j => σ * mtanConvSdSvec true
        (fun i j => if i = 5 ∧ j = 5 then 3 * bulk else P.mtanOf x Y i j * P.dtRi) i j)
      refine congrArg some (congrArg some (Eq.trans (congrArg _ ?_)
        (mtanConvSdSvec_smul σ true fun i j => if i = 5 ∧ j = 5 then 3 * bulk else P.mtanOf x Y i j * P.dtRi)))
      funext i j
      split_ifs
      · ring
      · field_simp

end Updst
end Ecm
