/- Property theorems C72: the equations of a step have a solution for every step length
   (src/ecmech/ECMech_evptn.h:548-670 computeRJ, 998-1246 getResponseSngl). -/
import Verif.Lemmas.Solvable
import Verif.Props.Unique

namespace Ecm.Props
open Ecm Spec Matrix

variable {n nH : ℕ}

/-- entries of the Schmid arrays of a slip system -/
theorem slipPQ_le {m s : Fin n → Vec 3} (h : ∀ i, IsSlipSystem (m i) (s i)) :
    (∀ k i, |(slipPQ m s).P k i| ≤ 1) ∧ ∀ k i, |(slipPQ m s).Q k i| ≤ 1 := by
  have key : ∀ i a b, |s i a * m i b| ≤ 1 := by
    intro i a b
    have hb : ∀ u : Vec 3, dot u u = 1 → ∀ j, |u j| ≤ 1 := by
      intro u hu j
      rw [← sq_le_one_iff_abs_le_one, ← hu, sq]
      exact Finset.single_le_sum (f := fun j => u j * u j) (fun j _ => mul_self_nonneg _) (Finset.mem_univ j)
    rw [abs_mul]
    exact mul_le_one₀ (hb _ (h i).2.1 a) (abs_nonneg _) (hb _ (h i).1 b)
  -- the sum of squares of the five components is at most one
  have hsq : ∀ i, (∑ a, s i a * s i a) = 1 ∧ (∑ a, m i a * m i a) = 1 := fun i => ⟨(h i).2.1, (h i).1⟩
  constructor
  · intro k i
    have hn : ∑ k, (slipPQ m s).P k i * (slipPQ m s).P k i ≤ 1 := by
      obtain ⟨h1, h2⟩ := hsq i
      have h3 : (∑ a, m i a * s i a) = 0 := (h i).2.2
      have e : ∑ k, (slipPQ m s).P k i * (slipPQ m s).P k i
          = 1 / 2 * ((∑ a, s i a * s i a) * (∑ a, m i a * m i a))
            + 1 / 6 * (∑ a, m i a * s i a) ^ 2 := by
        simp only [Fin.sum_univ_five, Fin.sum_univ_three, slipPQ, matToP, symmToVecd, vecsMsymm, vecsMaTb,
          Matrix.cons_val]
        generalize s i 0 = a; generalize s i 1 = b; generalize s i 2 = c
        generalize m i 0 = u; generalize m i 1 = v; generalize m i 2 = w
        sqr_ring
      rw [e, h1, h2, h3]; norm_num
    rw [← sq_le_one_iff_abs_le_one, sq]
    exact (Finset.single_le_sum (f := fun k => (slipPQ m s).P k i * (slipPQ m s).P k i)
      (fun j _ => mul_self_nonneg _) (Finset.mem_univ k)).trans hn
  · intro k i
    have k2 : ∀ a b c d, |1 / 2 * (s i a * m i b - s i c * m i d)| ≤ 1 := by
      intro a b c d
      have h1 := abs_le.1 (key i a b); have h2 := abs_le.1 (key i c d)
      rw [abs_le]; constructor <;> linarith [h1.1, h1.2, h2.1, h2.2]
    fin_cases k
    · refine le_of_eq_of_le (congrArg abs ?_) (k2 2 1 1 2)
      simp [slipPQ, matToQ, skewToVeccp, vecsMskew, vecsMaTb]
      left; norm_num
    · refine le_of_eq_of_le (congrArg abs ?_) (k2 0 2 2 0)
      simp [slipPQ, matToQ, skewToVeccp, vecsMskew, vecsMaTb]
      left; norm_num
    · refine le_of_eq_of_le (congrArg abs ?_) (k2 1 0 0 1)
      simp [slipPQ, matToQ, skewToVeccp, vecsMskew, vecsMaTb]
      left; norm_num

/-- **C72.** For stable elasticity and slip laws that are continuous, rise with the stress and vanish at
    zero stress, the balance equations of one backward Euler step have a solution: an elastic strain `E`
    and a rotation increment `ξ` of the lattice.  The step length, the imposed rate and spin and the state
    before the step are arbitrary. -/
theorem C72_balance (P : Updst n) (m s : Fin n → Vec 3) (hgeom : P.geom = slipPQ m s)
    (hcn : dot P.cN P.cN = 1) (hdt : 0 < P.dt) (hv : 0 < P.detV)
    (hst : ∀ E, IsDev E → E ≠ 0 → 0 < ddot E (refStress P.el E))
    (hc : ∀ i, Continuous fun τ => (P.gd i τ).gdot) (hm : ∀ i, Monotone fun τ => (P.gd i τ).gdot)
    (h0 : ∀ i, (P.gd i 0).gdot = 0)
    (a : ℝ) (ha0 : 0 < a) (ha3 : a ^ 3 = P.detV) (D E0 : T3)
    (hD : IsDev D) (hE0 : IsDev E0) (dD : symmToVecd D = P.dSm) (dE0 : symmToVecd E0 = P.eN) :
    ∃ (x : Vec 8) (E : T3), IsDev E ∧ symmToVecd E = P.eF x ∧
      Balance a P.dt D P.wSm (quatToTensor P.cN * quatToTensor (expQuat (Updst.xiF x))) E
        ((1 / P.dt) • (E - E0)) (slipGrad (fun i => (P.gd i (P.taua x i)).gdot) s m) (Updst.xiF x) := by
  have haV : P.aV = a := by
    have h1 := P.aV_cube hv
    have h2 := P.aV_pos hv
    exact (pow_left_inj₀ h2.le ha0.le (by norm_num : (3 : ℕ) ≠ 0)).1 (h1.trans ha3.symm)
  rw [dot_self_quat] at hcn
  obtain ⟨x, hE, hR⟩ := P.exists_exact ((C47_positive_definite P.el).1 hst) hdt hv hc hm h0
  have q2 : qn (quatProd P.cN (expQuat (Updst.xiF x))) = 1 := by rw [qn_prod, hcn, qn_expQuat, one_mul]
  have hr := isRot_of_unit q2
  have hmul : quatToTensor P.cN * quatToTensor (expQuat (Updst.xiF x))
      = quatToTensor (quatProd P.cN (expQuat (Updst.xiF x))) := (quatToTensor_prod _ _).symm
  have dE : symmToVecd (vecdToSymm (P.eF x)) = P.eF x := symmToVecd_vecdToSymm _
  have hEd := vecdToSymm_isDev (P.eF x)
  refine ⟨x, vecdToSymm (P.eF x), hEd, dE, ?_⟩
  rw [hmul]
  generalize vecdToSymm (P.eF x) = E at dE hEd
  have e3 : P.edot x = symmToVecd ((1 / P.dt) • (E - E0)) := by
    rw [symmToVecd_smul, P.edot_eq, ← dE, ← dE0]
    congr 1
    ext i
    fin_cases i <;> simp [symmToVecd] <;> ring
  constructor
  · have hL : IsDev ((1 / a) • ((1 / P.dt) • (E - E0))
        + dev (sym (slipGrad (fun i => (P.gd i (P.taua x i)).gdot) s m))) :=
      isDev_add (isDev_smul _ (isDev_smul _ (isDev_sub hEd hE0))) (isDev_dev_sym _)
    refine symmToVecd_inj hL (isDev_conjT hr.1 hD) ?_
    rw [symmToVecd_add, symmToVecd_smul, ← e3, symmToVecd_dev, ← vecsVMTa_rot q2 hD, dD]
    have e2 : vecsVMa P.geom.P (fun i => (P.gd i (P.taua x i)).gdot)
        = symmToVecd (sym (slipGrad (fun i => (P.gd i (P.taua x i)).gdot) s m)) := by
      rw [hgeom, C18_plastic_rate]; rfl
    funext i
    rw [← hE i, ← e2, ← haV]
    rfl
  · have e2 : vecsVMa P.geom.Q (fun i => (P.gd i (P.taua x i)).gdot)
        = axial (slipGrad (fun i => (P.gd i (P.taua x i)).gdot) s m) := by
      rw [hgeom, C18_plastic_spin]; rfl
    have e4 : vecsVMa (m35 (P.eF x)) (P.edot x)
        = axial (((1 / P.dt) • (E - E0)) * E - E * ((1 / P.dt) • (E - E0))) := by
      rw [e3, ← dE]
      exact (C08_commutator _ _ (isDev_smul _ (isDev_sub hEd hE0)).1 hEd.1).1
    funext i
    rw [hR i, ← e2, ← e4, ← haV]
    simp only [Pi.smul_apply, Pi.add_apply, Pi.sub_apply, smul_eq_mul, Updst.eeFac, Updst.aVri,
      vecsVMTa_eq]
    ring

/-- **C72, power-law kinetics.** With the code's own slip law (which has a threshold at small and another
    at large stress) and its own exponential map, an acceptable point exists for every tolerance above a
    bound far below rounding, whatever the step length: unless what is stored and supplied reaches the
    power at which the slip law is cut off (`10^60` times the reference rate).  `F` is the elastic strain
    without deviatoric stress. -/
theorem C72_voce (P : Updst n) (m s : Fin n → Vec 3) (hgeom : P.geom = slipPQ m s)
    (hms : ∀ i, IsSlipSystem (m i) (s i)) (hcn : dot P.cN P.cN = 1) (hdt : 0 < P.dt) (hv : 0 < P.detV)
    (κ : ℝ) (hst : ∀ E, IsDev E → E ≠ 0 → 0 < ddot E (refStress P.el E))
    (hκ : ∀ E, IsDev E → ddot E (refStress P.el E) ≤ κ * ddot E E)
    (k : Voce) (hm : 0 < k.xm) (hw : 0 < k.gamW) (g : ℝ) (hg : 0 < g)
    (hgd : ∀ i τ, (P.gd i τ).gdot = (k.evalGdot g τ).gdot) (ha : P.adotsRef = k.gamW)
    (F : Vec 5) (hF : ∀ i : Fin 5, P.elastNEtoT F i.castSucc = 0)
    (hs : (energyNorm P.el (vecdToSymm P.eN - vecdToSymm F)
        + P.dt * P.detV ^ (1 / 3 : ℝ) * (Real.sqrt κ * len P.dSm)) ^ 2
      ≤ 4 * (P.dt * (P.detV ^ (1 / 3 : ℝ)) ^ 2) * ((10 ^ 60 : ℝ) ^ k.xm * g * (10 ^ 60 * k.gamW))) :
    ∃ x, len (P.resid x) ≤ n / 10 ^ 51 + 1 / 10 ^ 79 * (1 + len P.wSm / k.gamW) := by
  have hK := (C47_positive_definite P.el).1 hst
  have hF' : F = P.eFree := by
    funext i
    have h := hF i
    rw [P.elastNEtoT_castSucc] at h
    unfold Updst.aVri at h
    have h1 := P.aV_pos hv
    have h2 := hK i
    unfold Updst.eFree
    field_simp at h ⊢
    linarith
  have e51 : (n : ℝ) / 10 ^ 51 = n * (1 / 10 ^ 60) * 10 ^ 9 := by ring
  rw [e51]
  refine P.exists_voce k hm hw hg hgd ha (hgeom ▸ slipPQ_le hms) hK (kDiag_le hκ) hdt hv
    (by rwa [dot_self_quat] at hcn) ?_
  rw [vecdToSymm_sub, energyNorm_eq, hF'] at hs
  have e : k.tMax = (10 ^ 60 : ℝ) ^ k.xm := by unfold Voce.tMax gamRatioOvf; norm_num
  rw [e]
  exact hs

/-- a solver that finds an acceptable point whenever there is one -/
noncomputable def idealSolver (n : ℕ) : Solver n := fun P tol _ _ =>
  haveI := Classical.propDecidable (∃ x r J, P x = some (r, J) ∧ vecNorm r ≤ tol)
  if h : ∃ x r J, P x = some (r, J) ∧ vecNorm r ≤ tol then
    { converged := true, x := h.choose, xLast := h.choose, nFEvals := 1 }
  else { converged := false, x := 0, xLast := 0, nFEvals := 1 }

theorem idealSolver_sound (n : ℕ) : (idealSolver n).Sound := by
  intro P tol maxIter x0 hc
  by_cases h : ∃ x r J, P x = some (r, J) ∧ vecNorm r ≤ tol
  · simp only [idealSolver, dif_pos h]
    exact ⟨h.choose_spec, trivial⟩
  · simp [idealSolver, dif_neg h] at hc

theorem idealSolver_converged {n : ℕ} {P : Problem n} {tol : ℝ}
    (h : ∃ x r J, P x = some (r, J) ∧ vecNorm r ≤ tol) (maxIter : ℕ) (x0 : Vec n) :
    (idealSolver n P tol maxIter x0).converged = true := by
  simp only [idealSolver, dif_pos h]

theorem getGmod_of_stable {el : Elast} (hK : ∀ k, 0 < el.kDiag k) : el.getGmod = .ok el.kGmod := by
  unfold Elast.getGmod
  rw [if_neg]
  rw [not_le]
  have h0 := hK 0; have h1 := hK 1; have h2 := hK 2; have h3 := hK 3; have h4 := hK 4
  cases el with
  | cubic c11 c12 c44 =>
    simp [Elast.kDiag] at h0 h2
    unfold Elast.kGmod
    norm_num
    linarith
  | hexag c11 c12 c13 c33 c44 g =>
    unfold Elast.kGmod
    simp only [vecsssum, Fin.sum_univ_five]
    norm_num
    linarith

/-- **C72, updates.** For a material with power-law kinetics and stable elasticity, an update without
    tangent whose problem can be set up succeeds when the solver finds an acceptable point whenever there
    is one: the equations never stand in the way, for any step length, tolerance above the bound, rate of
    deformation and state. -/
theorem C72_update (M : Material n 1) (m s : Fin n → Vec 3) (hgeom : M.geom = slipPQ m s)
    (hms : ∀ i, IsSlipSystem (m i) (s i)) (k : Voce) (S : Solver 1) (hkin : M.kin = k.kin S n)
    (hm : 0 < k.xm) (hw : 0 < k.gamW) (κ : ℝ)
    (hst : ∀ E, IsDev E → E ≠ 0 → 0 < ddot E (refStress M.el E))
    (hκ : ∀ E, IsDev E → ddot E (refStress M.el E) ≤ κ * ddot E E)
    (inp : Inputs) (hdt : 0 < inp.dt) (hd : IsDev (devOfSvecP inp.d)) (mem : Mem 1 n)
    (hmem : mem.mtan = none) (hU : Vec 1) (P : Updst n) (hset : Step.setup M inp mem = .ok (hU, P))
    (F : Vec 5) (hF : ∀ i : Fin 5, P.elastNEtoT F i.castSucc = 0)
    (hs : (energyNorm M.el (vecdToSymm (histOf mem).e - vecdToSymm F)
        + inp.dt * (inp.vr 1) ^ (1 / 3 : ℝ) * (Real.sqrt κ * frob (devOfSvecP inp.d))) ^ 2
      ≤ 4 * (inp.dt * ((inp.vr 1) ^ (1 / 3 : ℝ)) ^ 2) * ((10 ^ 60 : ℝ) ^ k.xm * hU 0 * (10 ^ 60 * k.gamW)))
    (htol : n / 10 ^ 51 + 1 / 10 ^ 79 * (1 + len inp.w / k.gamW) ≤ inp.tol)
    (X : Ext) (hX : X.solver = idealSolver 8) :
    ∃ mem', getResponseSngl X M inp mem = .ok mem' := by
  obtain ⟨kU, v, sc, hq, -, -, hv, -, hV, hP⟩ := Step.setup_ok hset
  have hP0 := hP
  have hgV : ∃ hg : 0 < hU 0, (∀ i τ, (P.gd i τ).gdot = (k.evalGdot (hU 0) τ).gdot) ∧
      P.adotsRef = k.gamW := by
    obtain ⟨geom, kin, el, eos⟩ := M
    simp only at hkin
    subst hkin
    simp only [Voce.kin] at hV
    split_ifs at hV with hg
    cases hV
    refine ⟨hg, ?_, ?_⟩
    · intro i τ; rw [hP]; rfl
    · rw [hP]; rfl
  obtain ⟨hg, hgd, ha⟩ := hgV
  have hK := (C47_positive_definite M.el).1 hst
  obtain ⟨x, hx⟩ := C72_voce P m s (by rw [hP]; exact hgeom) hms
    (by rw [dot_self_quat, hP]; exact qn_quatN hq) (by rw [hP]; exact hdt) (by rw [hP]; exact hv) κ
    (by rw [hP]; exact hst) (by rw [hP]; exact hκ) k hm hw (hU 0) hg hgd ha F hF (by
      rw [frob_eq hd] at hs
      rw [hP]; exact hs)
  have hwS : P.wSm = inp.w := by rw [hP]
  rw [hwS] at hx
  have hc : (Step.solve X inp P).converged = true := by
    unfold Step.solve
    rw [hX]
    exact idealSolver_converged ⟨x, P.resid x, P.jac x, rfl, hx.trans htol⟩ _ _
  unfold getResponseSngl
  rw [hset]
  simp only [Step.run, hc, hmem, Step.tangent, getGmod_of_stable hK]
  exact ⟨_, rfl⟩

/-- for cubic crystals the elastic strain without deviatoric stress is zero -/
theorem C72_cubic (P : Updst n) (c11 c12 c44 : ℝ) (h : P.el = .cubic c11 c12 c44) (i : Fin 5) :
    P.elastNEtoT 0 i.castSucc = 0 := by
  unfold Updst.elastNEtoT
  rw [h]
  fin_cases i <;> simp [Elast.eval, vecsVxa]

theorem exEl_stable : ∀ E, IsDev E → E ≠ 0 → 0 < ddot E (refStress exEl E) :=
  (C47_positive_definite _).2 (((C47_stability_constants 3 1 0 0 1 0).1).2 (by norm_num))

/-- hypotheses of the exact statement: the crystal with a linear law in general position -/
example : ∃ (x : Vec 8) (E : T3), IsDev E ∧ symmToVecd E = probEx.eF x ∧
    Balance 2 (1 / 2) (vecdToSymm ![1, 2, 0, 0, 1]) ![0, 1, 2]
      (quatToTensor probEx.cN * quatToTensor (expQuat (Updst.xiF x))) E
      ((1 / (1 / 2 : ℝ)) • (E - vecdToSymm ![1, 0, 2, 0, 0]))
      (slipGrad (fun i => probEx.taua x i) fccS fccM) (Updst.xiF x) :=
  C72_balance probEx fccM fccS rfl probEx_unit (by norm_num [probEx]) (by norm_num [probEx]) exEl_stable
    (fun _ => continuous_id) (fun _ => monotone_id) (fun _ => rfl) 2 (by norm_num) (by norm_num [probEx])
    _ _ (vecdToSymm_isDev _) (vecdToSymm_isDev _) (symmToVecd_vecdToSymm _) (symmToVecd_vecdToSymm _)

/-- a rate of shear with spin and volume change -/
noncomputable def solInp : Inputs where
  dt := 1
  tol := 1 / 10 ^ 10
  d := ![0, 0, 0, 0, 0, 1, 0]
  w := ![0, 0, 1]
  vr := ![1, 2, 0, 1]

theorem sol_setup : ∃ d, Step.setup (exMat exEl) solInp (exMem smallE none)
      = .ok ((fun _ => 1), exProb exEl smallE d ![0, 0, 1]) := by
  refine ⟨svecToVecd solInp.d, ?_⟩
  have h := Step.setup_eq_ok (M := exMat exEl) (inp := solInp) (m := exMem smallE none) (hU := fun _ => 1)
    (kU := 1) (v := (1 : ℝ)) (scale := 1) ?_ ?_ ?_ ?_ ?_ ?_
  · rw [h, ex_quatN, ex_ofArray]
    congr 2
    unfold exProb
    congr 1
    · simp [solInp, exMem, Step.tK, Eos.evalPT, Eos.tK0, Eos.dtde0, exMat]
  · rw [ex_ofArray]
    intro h
    have := congrFun h 2
    simp [exHist] at this
  · simp [exMat]
  · simp [solInp]
  · simp [solInp]
  · rw [ex_ofArray]; exact ex_updateH exEl
  · show (if (0 : ℝ) < 1 then (Out.ok ((1 : ℝ), (1 : ℝ)) : Out (ℝ × ℝ)) else _) = _
    rw [if_pos one_pos]
    rfl

/-- hypotheses of the update: the example material, sheared by 100 per cent in one step -/
example : ∃ mem', getResponseSngl ⟨idealSolver 8, fun _ B => some B, 1⟩ (exMat exEl) solInp
    (exMem smallE none) = .ok mem' := by
  obtain ⟨d, hset⟩ := sol_setup
  refine C72_update (exMat exEl) fccM fccS rfl fcc_slip voceExample _ rfl (by norm_num [voceExample])
    (by norm_num [voceExample]) 2 exEl_stable ?_ solInp (by norm_num [solInp]) ?_ _ rfl _ _ hset 0
    (C72_cubic _ 3 1 1 rfl) ?_ ?_ _ rfl
  · intro E hE
    have e := vecdToSymm_symmToVecd E hE
    rw [← e]
    generalize symmToVecd E = v
    apply le_of_eq
    simp only [ddot, Fin.sum_univ_three, refStress, exMat, exEl, cubicStress, vecdToSymm, ofSvecP,
      vecdsToSvecP, Matrix.of_apply, Matrix.cons_val]
    sqr_ring
  · rw [isDev_iff]
    simp [devOfSvecP, solInp]
  · have h1 : energyNorm (exMat exEl).el (vecdToSymm (histOf (exMem smallE none)).e - vecdToSymm 0) ≤ 1 := by
      have e : (histOf (exMem smallE none)).e = smallE := by unfold histOf; rw [ex_ofArray]; rfl
      rw [e, vecdToSymm_sub, energyNorm_eq]
      unfold wNorm
      rw [Real.sqrt_le_left zero_le_one]
      simp [Fin.sum_univ_five, exMat, exEl, Elast.kDiag, smallE]
      norm_num
    have h0 : 0 ≤ energyNorm (exMat exEl).el
        (vecdToSymm (histOf (exMem smallE none)).e - vecdToSymm 0) := Real.sqrt_nonneg _
    have h2 : frob (devOfSvecP solInp.d) ≤ 2 := by
      unfold frob
      rw [Real.sqrt_le_left (by norm_num)]
      simp [ddot, Fin.sum_univ_three, devOfSvecP, solInp]
      norm_num
    have h3 : 0 ≤ frob (devOfSvecP solInp.d) := Real.sqrt_nonneg _
    have h4 : Real.sqrt 2 ≤ 2 := by rw [Real.sqrt_le_left (by norm_num)]; norm_num
    have h5 := Real.sqrt_nonneg 2
    have h6 : (1 : ℝ) ≤ (2 : ℝ) ^ (1 / 3 : ℝ) := Real.one_le_rpow (by norm_num) (by norm_num)
    have h7 : (2 : ℝ) ^ (1 / 3 : ℝ) ≤ 2 := by
      calc (2 : ℝ) ^ (1 / 3 : ℝ) ≤ (2 : ℝ) ^ (1 : ℝ) :=
            Real.rpow_le_rpow_of_exponent_le (by norm_num) (by norm_num)
        _ = 2 := Real.rpow_one 2
    have ev : solInp.vr 1 = 2 := rfl
    have ed : solInp.dt = 1 := rfl
    have ex : voceExample.xm = 1 := by norm_num [voceExample]
    have ew : voceExample.gamW = 1 := by norm_num [voceExample]
    rw [ev, ed, ex, ew, Real.rpow_one]
    generalize energyNorm (exMat exEl).el (vecdToSymm (histOf (exMem smallE none)).e - vecdToSymm 0) = u at *
    generalize frob (devOfSvecP solInp.d) = f at *
    generalize Real.sqrt 2 = r at *
    generalize (2 : ℝ) ^ (1 / 3 : ℝ) = b at *
    have k1 : r * f ≤ 4 := by nlinarith
    have k0 : 0 ≤ r * f := mul_nonneg h5 h3
    have k2 : 1 * b * (r * f) ≤ 8 := by nlinarith
    have k3 : 0 ≤ 1 * b * (r * f) := by positivity
    have k4 : (u + 1 * b * (r * f)) ^ 2 ≤ 81 := by nlinarith
    have k5 : (1 : ℝ) ≤ 1 * b ^ 2 := by nlinarith
    have k6 : (100 : ℝ) ≤ 10 ^ 60 * 1 * (10 ^ 60 * 1) := by norm_num
    nlinarith [mul_le_mul k5 k6 (by norm_num) (by positivity)]
  · have hw : len solInp.w = 1 := by
      show vecNorm _ = 1
      unfold vecNorm
      simp [Fin.sum_univ_three, solInp]
    rw [hw]
    norm_num [solInp, voceExample]

end Ecm.Props
