/- Property theorems C94, second part: the heat of slip that enters the energy can be negative
   (src/ecmech/ECMech_evptn.h:1049-1077, 1200-1239). -/
import Verif.Props.FirstLaw

namespace Ecm.Props
open Ecm Spec Classical

/-- the FCC crystal of test/test_updst.cxx with the Voce law without hardening (test/setup_kin_VocePL_NS.h) -/
noncomputable def walkMat : Material 12 1 where
  geom := slipPQ fccM fccS
  kin := (testVoceNS false).kin (probe 1) 12
  el := .cubic 3 1 1
  eos := testEos (5 / 3)

/-- the direction of the elastic strain: tension along the third axis of the lattice -/
def axis3 : Vec 5 := ![0, 1, 0, 0, 0]

/-- rates of slip at the elastic strain `b` -/
noncomputable def walkRate (b : ℝ) : Vec 12 := fun s =>
  ((testVoceNS false).evalGdot (1 / 1000) (2 * b * (slipPQ fccM fccS).P 1 s)).gdot

/-- stress per unit of elastic strain, contracted with the rate of slip at the elastic strain `b` -/
noncomputable def walkPow (b : ℝ) : ℝ := ∑ s, walkRate b s * (2 * (slipPQ fccM fccS).P 1 s)

/-- input of a step of length `dt` from the elastic strain `a` to `b` -/
noncomputable def walkInp (dt tol a b : ℝ) : Inputs where
  dt := dt
  tol := tol
  d := svecP (vecdToSymm fun i => (b - a) / dt * axis3 i + vecsVMa (slipPQ fccM fccS).P (walkRate b) i)
  w := vecsVMa (slipPQ fccM fccS).Q (walkRate b)
  vr := ![1, 1, 0, 0]

/-- the library with a solver that tries the exact solution first -/
noncomputable def walkExt (a b : ℝ) : Ext := tryExt (elasticX fun i => (b - a) * axis3 i)

/-- crystal in the orientation of the sample with the elastic strain `a`, the stress that belongs to it, and energy `E` -/
structure AtStrain (a E : ℝ) (m : Mem 1 12) : Prop where
  e : (histOf m).e = fun i => a * axis3 i
  q : (histOf m).q = ![1, 0, 0, 0]
  h : (histOf m).h = fun _ => 1 / 1000
  mtan : m.mtan = none
  stress : devOfSvecP m.stress = stateS walkMat.el 1 m
  energy : m.eInt = E

/-- the Voce law with equal initial and saturation strength does not harden -/
theorem ns_rest (h : Vec 1) (dt : ℝ) (g : Vec 12) :
    (testVoceNS false).updateH (probe 1) h dt g = .ok (h, 1) := by
  set k := testVoceNS false
  have hsat : (k.getEvolVals g).2 ≤ k.tausi := by
    simp only [Voce.getEvolVals]
    split_ifs
    · rw [show k.xms = 0 from rfl, Real.rpow_zero, mul_one]
      exact le_of_eq rfl
    · exact le_of_eq rfl
  have hlaw : ∀ z, ∃ d, k.getSdot1 (k.getEvolVals g) z = some (0, d) := by
    intro z
    have hn : k.nonlinear = false := rfl
    simp only [Voce.getSdot1, hn, Bool.false_eq_true, if_false, if_pos hsat, mul_zero, zero_mul]
    exact ⟨_, rfl⟩
  unfold Voce.updateH
  rw [if_neg (not_le.2 (show 0 < k.gamss0 by norm_num [k, testVoceNS, testVoce]))]
  have hp : ∃ J, ({ law := k.getSdot1 (k.getEvolVals g), hO := h 0, dt := dt } : H1Problem).problem
      (fun _ => 0) = some ((0 : Vec 1), J) := by
    unfold H1Problem.problem
    obtain ⟨d, hd⟩ := hlaw (h 0)
    rw [H1Problem.computeRJ_some (s := 0) (d := d)]
    · simp only [Option.map_some]
      refine ⟨_, congrArg some (Prod.ext ?_ rfl)⟩
      funext i
      simp
    · simpa using hd
  obtain ⟨J, hJ⟩ := hp
  simp only [updateH1, probe_zero hJ (by norm_num : (0 : ℝ) ≤ 1 / 10 ^ 10), Out.bind, if_true,
    H1Problem.getHn, zero_mul, add_zero]
  congr 2
  funext i; rw [Subsingleton.elim i 0]

theorem quat_unit_tensor : quatToTensor ![1, 0, 0, 0] = (1 : T3) := by
  ext i j
  fin_cases i <;> fin_cases j <;> simp [quatToTensor]

theorem fcc_perp (i : Fin 12) : dot (fccM i) (fccS i) = 0 := (fcc_slip i).2.2

/-- the stress of the crystal, and its contraction with the rate of slip -/
theorem walk_lat {a E : ℝ} {m : Mem 1 12} (h : AtStrain a E m) :
    shapeStrain 1 m = a • vecdToSymm axis3 ∧ devOfSvecP m.stress = (2 * a) • vecdToSymm axis3 ∧
      storedE walkMat.el (shapeStrain 1 m) = a ^ 2 := by
  have hs : shapeStrain 1 m = a • vecdToSymm axis3 := by
    unfold shapeStrain
    rw [h.e, Real.one_rpow, div_one, one_smul]
    ext i j
    fin_cases i <;> fin_cases j <;> simp [vecdToSymm, ofSvecP, vecdsToSvecP, axis3] <;> ring
  refine ⟨hs, ?_, ?_⟩
  · rw [h.stress]
    unfold stateS latS
    rw [h.q, quat_unit_tensor, hs]
    ext i j
    fin_cases i <;> fin_cases j <;>
      simp [vecdToSymm, ofSvecP, vecdsToSvecP, axis3, refStress, walkMat, cubicStress, dev, Matrix.trace_fin_three] <;> sqr_ring
  · rw [hs]
    unfold storedE
    simp [vecdToSymm, ofSvecP, vecdsToSvecP, axis3, refStress, walkMat, cubicStress, ddot, Fin.sum_univ_three]
    sqr_ring

theorem walk_pow (a b : ℝ) : ddot ((2 * a) • vecdToSymm axis3) (dev (sym (slipGrad (walkRate b) fccS fccM)))
    = a * walkPow b := by
  have hV := vecdToSymm_isDev axis3
  have h1 : ∀ A : T3, ddot (vecdToSymm axis3) (dev (sym A)) = ddot (vecdToSymm axis3) A := by
    intro A
    have e1 := hV.1.apply 0 1
    have e2 := hV.1.apply 0 2
    have e3 := hV.1.apply 1 2
    have ht := hV.2
    rw [Matrix.trace_fin_three] at ht
    generalize vecdToSymm axis3 = V at *
    simp [ddot, dev, sym, Fin.sum_univ_three, Matrix.trace_fin_three, e1, e2, e3]
    linear_combination -((A 0 0 + A 1 1 + A 2 2) / 3) * ht
  rw [ddot_smul_l, h1]
  unfold slipGrad walkPow
  rw [C18_power fccM fccS _ hV.1 _ fcc_perp, Finset.mul_sum, Finset.mul_sum]
  refine Finset.sum_congr rfl fun s _ => ?_
  rw [symmToVecd_vecdToSymm]
  simp [vecsVaTM, axis3, Fin.sum_univ_five]
  ring

theorem walk_d (dt tol a b : ℝ) : devOfSvecP (walkInp dt tol a b).d
    = ((b - a) / dt) • vecdToSymm axis3 + dev (sym (slipGrad (walkRate b) fccS fccM)) := by
  have h1 : vecsVMa (slipPQ fccM fccS).P (walkRate b) = symmToVecd (dev (sym (slipGrad (walkRate b) fccS fccM))) := by
    rw [symmToVecd_dev]
    exact C18_plastic_rate fccM fccS _
  have h2 : IsDev (dev (sym (slipGrad (walkRate b) fccS fccM))) := isDev_dev_sym _
  show devOfSvecP (svecP (vecdToSymm _)) = _
  rw [h1]
  conv_rhs => rw [← vecdToSymm_symmToVecd _ h2]
  generalize symmToVecd (dev (sym (slipGrad (walkRate b) fccS fccM))) = g
  generalize (b - a) / dt = c
  ext i j
  fin_cases i <;> fin_cases j <;> simp [devOfSvecP, svecP, vecdToSymm, ofSvecP, vecdsToSvecP, axis3, dev, Matrix.trace_fin_three] <;> sqr_ring

set_option maxHeartbeats 800000 in
/-- **C94, a step of the walk.** From any of these states to any other, in any time: the state is reached exactly, and
    the energy changes by the stored elastic energy and the work of the mean stress on the slip. -/
theorem walk_step {a b E dt tol : ℝ} (hdt : 0 < dt) (htol : 0 ≤ tol) {m : Mem 1 12} (hm : AtStrain a E m) :
    ∃ m', getResponseSngl (walkExt a b) walkMat (walkInp dt tol a b) m = .ok m' ∧
      AtStrain b (E + (b ^ 2 - a ^ 2) + dt * ((a + b) / 2) * walkPow b) m' ∧ (histOf m').gdot = walkRate b := by
  set inp := walkInp dt tol a b with hinp
  have hq0 : (![1, 0, 0, 0] : Vec 4) ≠ 0 := fun h => by simpa using congrFun h 0
  have hH : walkMat.kin.updateH (Hist.ofArray m.hist).h inp.dt (Hist.ofArray m.hist).gdot
      = .ok (fun _ => (1 / 1000 : ℝ), 1) := by
    have := hm.h
    unfold histOf at this
    rw [this]
    exact ns_rest (fun _ => (1 / 1000 : ℝ)) inp.dt _
  have hset := Step.setup_eq_ok (M := walkMat) (inp := inp) (m := m) (hU := fun _ => (1 / 1000 : ℝ)) (kU := 1)
    (v := (1 / 1000 : ℝ)) (scale := 1 / 1000)
    (by have := hm.q; unfold histOf at this; rw [this]; exact hq0) (by norm_num [walkMat, testEos])
    hdt.ne' (by simp [hinp, walkInp]) hH
    (by
      show (if (0 : ℝ) < 1 / 1000 then Out.ok ((1 / 1000 : ℝ), (1 / 1000 : ℝ)) else .undef "assert(vals[0] > zero)")
        = Out.ok (1 / 1000, 1 / 1000)
      exact if_pos (by norm_num))
  have heN : (Hist.ofArray m.hist).e = fun i => a * axis3 i := hm.e
  rw [heN] at hset
  have hcN : Step.quatN m = ![1, 0, 0, 0] := by
    have := hm.q
    unfold histOf at this
    unfold Step.quatN
    rw [this]
    ext i
    fin_cases i <;> simp [vecsVNormalize, vecNorm, vecsVsa, Fin.sum_univ_four]
  rw [hcN] at hset
  set P : Updst 12 := { geom := walkMat.geom, el := walkMat.el, gd := walkMat.kin.evalGdot (1 / 1000 : ℝ),
                        adotsRef := walkMat.kin.fixedRefRate (1 / 1000 : ℝ), hdnScale := 1 / 1000, dt := inp.dt,
                        detV := inp.vr 1, eVref := (Step.eosUpdate walkMat inp m).eNew,
                        pEos := (Step.eosUpdate walkMat inp m).press, tK := Step.tK walkMat inp m,
                        eN := fun i => a * axis3 i, cN := ![1, 0, 0, 0],
                        dSm := svecToVecd inp.d, wSm := inp.w } with hP
  have hPv : P.detV = 1 := by simp [hP, hinp, walkInp]
  have hPdt : P.dt = dt := rfl
  set x := elasticX fun i => (b - a) * axis3 i with hx
  have hinc : vecsVxa eScale (fun i => x (iE i)) = fun i => (b - a) * axis3 i := by
    funext i
    show eScale * (block8 (fun i => (b - a) * axis3 i / eScale) 0) (iE i) = _
    rw [block8_iE, mul_div_cancel₀ _ eScale_ne]
  have heF : P.eF x = fun i => b * axis3 i := by
    funext i
    have h1 : P.eN i = a * axis3 i := rfl
    simp only [Updst.eF, hinc, vecsVapb, h1]
    ring
  have hedot : P.edot x = fun i => (b - a) / dt * axis3 i := by
    funext i
    simp only [Updst.edot, hinc, vecsVsa, Updst.dtRi, hPdt]
    ring
  have hxi : Updst.xiF x = 0 := by
    funext i
    simp [Updst.xiF, vecsVxa, hx, elasticX]
  have hcq : P.cQuat x = P.cN := by
    unfold Updst.cQuat
    rw [hxi, emapToQuat_zero, getCQuat_one]
  have hKd : ∀ i, P.el.kDiag i = 2 := by
    intro i
    show Elast.kDiag (.cubic 3 1 1) i = 2
    fin_cases i <;> norm_num [Elast.kDiag]
  have hg : P.gdot x = walkRate b := by
    funext s
    show ((testVoceNS false).evalGdot (1 / 1000) (P.taua x s)).gdot = _
    have h1 := P.taua_cubic (c11 := 3) (c12 := 1) (c44 := 1) rfl x s
    have h2 : P.taua x s = 2 * b * (slipPQ fccM fccS).P 1 s := by
      rw [h1, P.aVri_one hPv, one_mul, heF]
      simp only [hKd]
      show ∑ i, 2 * (b * axis3 i) * (slipPQ fccM fccS).P i s = _
      simp [axis3, Fin.sum_univ_five]
    rw [h2]
    rfl
  have hcm : P.cMatx x = 1 := by
    unfold Updst.cMatx
    rw [hcq]
    exact quat_unit_tensor
  have hqr : P.qr5x5 x = 1 := by
    unfold Updst.qr5x5
    rw [hcm]
    ext i j
    fin_cases i <;> fin_cases j <;> simp [getRotMatVecd] <;> sqr_ring
  have hdS : P.dSm = fun i => (b - a) / dt * axis3 i + vecsVMa (slipPQ fccM fccS).P (walkRate b) i := by
    show svecToVecd (svecP (vecdToSymm _)) = _
    rw [(C01_tensor_round_trip _ (vecdToSymm_isDev _).1).2.2.2, symmToVecd_vecdToSymm]
  have hE : P.residE x = 0 := by
    funext i
    unfold Updst.residE
    rw [hedot, hg, hqr, P.aVri_one hPv, hdS]
    simp [vecsVMTa, Matrix.one_apply]
    exact sub_self (vecsVMa (slipPQ fccM fccS).P (walkRate b) i)
  have hR : P.residR x = 0 := by
    funext i
    have h3 : vecsVMa (m35 (fun i => b * axis3 i)) (fun i => (b - a) / dt * axis3 i) i = 0 := by
      fin_cases i <;> simp [vecsVMa, m35, axis3, Fin.sum_univ_five]
    unfold Updst.residR
    rw [hxi, hg, hcm, heF, hedot, h3]
    show (0 : ℝ) - dt * (vecsVMTa 1 (vecsVMa (slipPQ fccM fccS).Q (walkRate b)) i
      - vecsVMa (slipPQ fccM fccS).Q (walkRate b) i + P.eeFac * 0) = 0
    simp [vecsVMTa, Matrix.one_apply]
  have hres : vecNorm (P.resid x) ≤ tol := by
    have : vecNorm (P.resid x) ^ 2 = 0 := by
      rw [resid_norm_sq, hR, hE]
      simp [vecNorm]
    rw [pow_eq_zero_iff two_ne_zero] at this
    rw [this]; exact htol
  have hsol : Step.solve (walkExt a b) inp P = { converged := true, x := x, xLast := x, nFEvals := 1 } :=
    orIdeal_first (probe_of_le P hres 200) rfl
  have hG := getGmod_of_stable (el := walkMat.el) (by
    intro k; exact (hKd k).symm ▸ (by norm_num))
  obtain ⟨m', k1, k2, k3, k4, k5, k6, k7, k8⟩ := step_of_solve hset hsol hm.mtan hG
  have hq' : (histOf m').q = ![1, 0, 0, 0] := by
    rw [k3, hcq]
    show Step.flipQuat ![1, 0, 0, 0] ![1, 0, 0, 0] = _
    unfold Step.flipQuat
    rw [if_neg (by simp [vecsyadotb, Fin.sum_univ_four])]
  have hm' : AtStrain b m'.eInt m' := ⟨k2.trans heF, hq', k4, k7, by
    have := C94_stress _ walkMat 3 1 1 rfl inp m m' k1
    rwa [show inp.vr 1 = 1 by simp [hinp, walkInp]] at this, rfl⟩
  have hb := C94_step _ walkMat 3 1 1 rfl fccM fccS inp hdt one_pos (by simp [hinp, walkInp]) (by simp [hinp, walkInp])
    m m' k1 hm.stress
  have w0 := walk_lat hm
  have w1 := walk_lat hm'
  have hslip : slipD fccM fccS m' = dev (sym (slipGrad (walkRate b) fccS fccM)) := by
    unfold slipD
    rw [hq', quat_unit_tensor, k5, hg]
    simp
  have hlost : lostD fccM fccS inp m m' = 0 := by
    unfold lostD lostRate
    rw [hq', quat_unit_tensor, k5, hg, walk_d dt tol a b, hm'.e, hm.e, show inp.vr 1 = 1 by simp [hinp, walkInp],
      Real.one_rpow, show inp.dt = dt from rfl]
    generalize dev (sym (slipGrad (walkRate b) fccS fccM)) = D
    have h1 : vecdToSymm (fun i => b * axis3 i) - vecdToSymm (fun i => a * axis3 i) = (b - a) • vecdToSymm axis3 := by
      ext i j
      fin_cases i <;> fin_cases j <;> simp [vecdToSymm, ofSvecP, vecdsToSvecP, axis3] <;> ring
    rw [h1]
    simp only [Matrix.transpose_one, one_mul, mul_one, div_one, smul_smul]
    rw [show 1 / dt * (b - a) = (b - a) / dt by ring]
    module
  have hturn : turnWork walkMat.el 1 m m' = 0 := by
    unfold turnWork stateS
    rw [hq', hm.q, quat_unit_tensor]
    simp [ddot]
  refine ⟨m', k1, ⟨hm'.e, hm'.q, hm'.h, hm'.mtan, hm'.stress, ?_⟩, k5.trans hg⟩
  rw [hb, hlost, hturn, hslip, w0.2.2, w1.2.2, hm.energy, show inp.vr 3 = 0 by simp [hinp, walkInp]]
  unfold meanWork
  rw [w0.2.1, w1.2.1, walk_pow, walk_pow, show inp.dt = dt from rfl]
  simp [ddot]
  ring

/-- slip dissipates at the stress that drives it -/
theorem walkPow_pos {b : ℝ} (hb : 1 / 2000 ≤ |b|) : 0 < b * walkPow b := by
  have e : b * walkPow b = ∑ s, (2 * b * (slipPQ fccM fccS).P 1 s) * walkRate b s := by
    unfold walkPow
    rw [Finset.mul_sum]
    exact Finset.sum_congr rfl fun s _ => by ring
  have hsign := fun s => C24_sign (testVoceNS false) (by norm_num [testVoceNS, testVoce])
    (by norm_num [testVoceNS, testVoce]) (1 / 1000) (2 * b * (slipPQ fccM fccS).P 1 s) (by norm_num)
  have hP : (slipPQ fccM fccS).P 1 0 = -(1 / 2) := by
    simp [slipPQ, fccM, fccS, matToP, vecsMsymm, vecsMaTb, symmToVecd]
    sqr_ring
  rw [e]
  refine Finset.sum_pos' (fun s _ => (hsign s).2.2) ⟨0, Finset.mem_univ _, (hsign 0).2.1 ?_⟩
  rw [hP, show 2 * b * -(1 / 2) = -b by ring, abs_neg]
  have hmin : (1 / 10 ^ 60 : ℝ) ^ (1 / 100 : ℝ) ≤ 1 / 3 := by
    have := (root_between (a := (1 / 10 ^ 60 : ℝ)) (l := 0) (u := 1 / 3) (n := 100) (by norm_num)
      (by norm_num) le_rfl (by norm_num) (by norm_num) (by norm_num)).2
    simpa using this
  have hx : (testVoceNS false).xm = 1 / 100 := rfl
  rw [hx]
  have : 1 / 2 ≤ |b| / (1 / 1000) := by rw [le_div_iff₀ (by norm_num)]; linarith
  linarith

/-- the dissipation at the end of a step of the walk -/
theorem walk_dis {b E : ℝ} {m' : Mem 1 12} (hm : AtStrain b E m') (hg : (histOf m').gdot = walkRate b) :
    ddot (devOfSvecP m'.stress) (slipD fccM fccS m') = b * walkPow b := by
  rw [(walk_lat hm).2.1]
  unfold slipD
  rw [hm.q, quat_unit_tensor, hg]
  simp only [Matrix.transpose_one, one_mul, mul_one]
  exact walk_pow b b

/-- **C94, refuted in one step.** The wish that slip only heats is false: unload the crystal of the tests from tension to
    a smaller compression in one step.  The slip at the end of the step dissipates, but the thermal energy after the step
    is below any given value, if the step is long enough. -/
theorem C94_refuted_step {a b E tol : ℝ} (hb : 1 / 2000 ≤ b) (hab : b < a) (htol : 0 ≤ tol) {m : Mem 1 12}
    (hm : AtStrain a E m) (B : ℝ) :
    ∃ X inp m', Finds X.solver ∧ 0 < inp.dt ∧ inp.vr = ![1, 1, 0, 0] ∧ inp.tol = tol ∧
      getResponseSngl X walkMat inp m = .ok m' ∧ 0 < ddot (devOfSvecP m'.stress) (slipD fccM fccS m') ∧
      m'.eInt - storedE walkMat.el (shapeStrain 1 m') < B := by
  have h0 : 0 < b := by linarith
  have hp := walkPow_pos (b := -b) (by rw [abs_neg, abs_of_pos h0]; exact hb)
  have hn : 0 < -walkPow (-b) := by
    by_contra h
    push Not at h
    nlinarith
  set c := (a - b) / 2 * -walkPow (-b) with hc
  have hc0 : 0 < c := mul_pos (by linarith) hn
  set dt := (|E - a ^ 2 - B| + 1) / c with hdt'
  have hdt : 0 < dt := by positivity
  obtain ⟨m', h1, h2, h3⟩ := walk_step (b := -b) hdt htol hm
  refine ⟨_, _, m', orIdeal_finds (goTo_sound _), hdt, rfl, rfl, h1, ?_, ?_⟩
  · rw [walk_dis h2 h3]; exact hp
  · rw [(walk_lat h2).2.2, h2.energy]
    have e : dt * c = |E - a ^ 2 - B| + 1 := div_mul_cancel₀ _ hc0.ne'
    have := le_abs_self (E - a ^ 2 - B)
    have e2 : dt * ((a + -b) / 2) * walkPow (-b) = -(dt * c) := by rw [hc]; ring
    rw [e2, e]
    linarith

/-- elastic strains of the cycle: from zero to `a`, then `-b` and `a` in turn -/
noncomputable def cyclePt (a b : ℝ) (k : ℕ) : ℝ := if k = 0 then 0 else if k % 2 = 1 then a else -b

/-- energies along a walk through the elastic strains `p` with the time steps `dt` -/
noncomputable def walkE (p dt : ℕ → ℝ) : ℕ → ℝ
  | 0 => 0
  | k + 1 => walkE p dt k + (p (k + 1) ^ 2 - p k ^ 2) + dt k * ((p k + p (k + 1)) / 2) * walkPow (p (k + 1))

theorem atStrain_zero : AtStrain 0 0 (testMem (fun _ => 1 / 1000) 0 0 none) := by
  refine ⟨?_, ?_, ?_, rfl, ?_, rfl⟩
  · simp only [histOf, testMem, Hist.ofArray_toArray]; funext i; simp
  · simp only [histOf, testMem, Hist.ofArray_toArray]
  · simp only [histOf, testMem, Hist.ofArray_toArray]
  · have hs : shapeStrain 1 (testMem (fun _ => 1 / 1000) 0 0 none : Mem 1 12) = 0 := by
      unfold shapeStrain
      simp only [histOf, testMem, Hist.ofArray_toArray]
      ext i j
      fin_cases i <;> fin_cases j <;> simp [vecdToSymm, ofSvecP, vecdsToSvecP]
    unfold stateS latS
    rw [hs]
    have h0 : refStress walkMat.el 0 = 0 := by
      ext i j
      fin_cases i <;> fin_cases j <;> simp [refStress, walkMat, cubicStress]
    rw [h0]
    have h1 : dev (0 : T3) = 0 := by simp [dev]
    rw [h1, smul_zero, Matrix.mul_zero, Matrix.zero_mul]
    show devOfSvecP (0 : Fin 7 → ℝ) = 0
    ext i j
    fin_cases i <;> fin_cases j <;> simp [devOfSvecP]

/-- **C94, walk.** The crystal of the tests can be taken through any sequence of these states with any time steps, and the
    energies are the ones of `walkE`. -/
theorem C94_walk (p dt : ℕ → ℝ) (hp : p 0 = 0) (hdt : ∀ k, 0 < dt k) {tol : ℝ} (htol : 0 ≤ tol) (N : ℕ) :
    ∃ t : Trajectory walkMat N, (∀ k, Finds (t.X k).solver) ∧ t.m 0 = testMem (fun _ => 1 / 1000) 0 0 none ∧
      (∀ k, t.m (k + 1) = t.m' k) ∧ (∀ k, t.inp k = walkInp (dt k) tol (p k) (p (k + 1))) ∧ AtVolume t 1 ∧
      ∀ k, AtStrain (p (k + 1)) (walkE p dt (k + 1)) (t.m' k) ∧ (histOf (t.m' k)).gdot = walkRate (p (k + 1)) := by
  let out : ℕ → Mem 1 12 → Mem 1 12 := fun j m =>
    match getResponseSngl (walkExt (p j) (p (j + 1))) walkMat (walkInp (dt j) tol (p j) (p (j + 1))) m with
    | .ok m' => m'
    | _ => m
  let m : ℕ → Mem 1 12 := fun j => Nat.rec (testMem (fun _ => 1 / 1000) 0 0 none) (fun j m => out j m) j
  have key : ∀ k, AtStrain (p k) (walkE p dt k) (m k) := by
    intro k
    induction k with
    | zero => rw [hp]; exact atStrain_zero
    | succ k ih =>
      obtain ⟨m', h1, h2, -⟩ := walk_step (b := p (k + 1)) (hdt k) htol ih
      have e : m (k + 1) = m' := by
        show out k (m k) = m'
        simp only [out, h1]
      rw [e]; exact h2
  have step : ∀ k, getResponseSngl (walkExt (p k) (p (k + 1))) walkMat (walkInp (dt k) tol (p k) (p (k + 1))) (m k)
      = .ok (m (k + 1)) ∧ (histOf (m (k + 1))).gdot = walkRate (p (k + 1)) := by
    intro k
    obtain ⟨m', h1, -, h3⟩ := walk_step (b := p (k + 1)) (hdt k) htol (key k)
    have e : m (k + 1) = m' := by
      show out k (m k) = m'
      simp only [out, h1]
    rw [e]; exact ⟨h1, h3⟩
  refine ⟨{ X := fun k => walkExt (p k) (p (k + 1)), inp := fun k => walkInp (dt k) tol (p k) (p (k + 1)), m := m,
            m' := fun j => m (j + 1), ok := fun k _ => (step k).1, link := fun _ _ => rfl },
    fun _ => orIdeal_finds (goTo_sound _), rfl, fun _ => rfl, fun _ => rfl,
    ⟨fun _ _ => rfl, fun _ _ => rfl, fun _ _ => ?_, fun _ _ => ?_, fun _ _ => ?_, fun k _ => hdt k, (key 0).stress⟩,
    fun k => ⟨key _, (step k).2⟩⟩ <;> simp [walkInp]

/-- **C94, refuted for cycles.** The crystal of the tests without hardening, cycled between tension and a smaller
    compression: the slip of every step dissipates, yet with suitable times of the two halves every cycle lowers the
    thermal energy by the same given amount. -/
theorem C94_refuted_heat {a b δ tol : ℝ} (hb : 1 / 2000 ≤ b) (hab : b < a) (hδ : 0 < δ) (htol : 0 ≤ tol) :
    ∃ dt : ℕ → ℝ, (∀ k, 0 < dt k) ∧ ∀ N, ∃ t : Trajectory walkMat (2 * N + 1), (∀ k, Finds (t.X k).solver) ∧
      t.m 0 = testMem (fun _ => 1 / 1000) 0 0 none ∧ AtVolume t 1 ∧
      (∀ k, t.inp k = walkInp (dt k) tol (cyclePt a b k) (cyclePt a b (k + 1))) ∧
      (∀ k, 0 < ddot (devOfSvecP (t.m' k).stress) (slipD fccM fccS (t.m' k))) ∧
      storedE walkMat.el (shapeStrain 1 (t.m' (2 * N))) = a ^ 2 ∧
      (t.m' (2 * N)).eInt - storedE walkMat.el (shapeStrain 1 (t.m' (2 * N))) = δ * a / (a - b) - N * δ := by
  have h0 : 0 < b := by linarith
  have ha : 0 < a := by linarith
  have hd : 0 < a - b := by linarith
  have pa := walkPow_pos (b := a) (by rw [abs_of_pos ha]; linarith)
  have pb := walkPow_pos (b := -b) (by rw [abs_neg, abs_of_pos h0]; exact hb)
  have ha' : 0 < walkPow a := by
    by_contra h
    push Not at h
    nlinarith
  have hb' : 0 < -walkPow (-b) := by
    by_contra h
    push Not at h
    nlinarith
  let dt : ℕ → ℝ := fun k => if k % 2 = 0 then 2 * δ / ((a - b) * walkPow a) else 4 * δ / ((a - b) * -walkPow (-b))
  have hdt : ∀ k, 0 < dt k := by
    intro k
    simp only [dt]
    split_ifs <;> positivity
  have hE : ∀ j : ℕ, walkE (cyclePt a b) dt (2 * j + 1) = a ^ 2 + δ * a / (a - b) - j * δ := by
    intro j
    induction j with
    | zero =>
      simp [walkE, cyclePt, dt]
      field_simp
    | succ j ih =>
      have e1 : walkE (cyclePt a b) dt (2 * (j + 1) + 1) = walkE (cyclePt a b) dt (2 * j + 1)
          + ((-b) ^ 2 - a ^ 2) + 4 * δ / ((a - b) * -walkPow (-b)) * ((a + -b) / 2) * walkPow (-b)
          + (a ^ 2 - (-b) ^ 2) + 2 * δ / ((a - b) * walkPow a) * ((-b + a) / 2) * walkPow a := by
        have c1 : cyclePt a b (2 * j + 1) = a := by simp [cyclePt, Nat.add_mod]
        have c2 : cyclePt a b (2 * j + 1 + 1) = -b := by simp [cyclePt, Nat.add_mod]
        have c3 : cyclePt a b (2 * j + 1 + 1 + 1) = a := by simp [cyclePt, Nat.add_mod]
        have d1 : dt (2 * j + 1) = 4 * δ / ((a - b) * -walkPow (-b)) := by simp [dt, Nat.add_mod]
        have d2 : dt (2 * j + 1 + 1) = 2 * δ / ((a - b) * walkPow a) := by simp [dt, Nat.add_mod]
        show walkE (cyclePt a b) dt (2 * j + 1 + 1 + 1) = _
        rw [walkE, walkE, c1, c2, c3, d1, d2]
      rw [e1, ih]
      have f1 : 4 * δ / ((a - b) * -walkPow (-b)) * ((a + -b) / 2) * walkPow (-b) = -(2 * δ) := by
        have : walkPow (-b) ≠ 0 := by linarith
        field_simp
        ring
      have f2 : 2 * δ / ((a - b) * walkPow a) * ((-b + a) / 2) * walkPow a = δ := by
        field_simp
        ring
      rw [f1, f2]
      push_cast
      ring
  refine ⟨dt, hdt, fun N => ?_⟩
  obtain ⟨t, t1, t2, -, t4, t5, t6⟩ := C94_walk (cyclePt a b) dt (by simp [cyclePt]) hdt htol (2 * N + 1)
  have ce : cyclePt a b (2 * N + 1) = a := by simp [cyclePt, Nat.add_mod]
  refine ⟨t, t1, t2, t5, t4, fun k => ?_, by rw [(walk_lat (t6 (2 * N)).1).2.2, ce], ?_⟩
  · rw [walk_dis (t6 k).1 (t6 k).2]
    rcases Nat.mod_two_eq_zero_or_one k with h | h
    · rw [show cyclePt a b (k + 1) = a by simp [cyclePt, Nat.add_mod, h]]; exact pa
    · rw [show cyclePt a b (k + 1) = -b by simp [cyclePt, Nat.add_mod, h]]; exact pb
  · rw [(walk_lat (t6 (2 * N)).1).2.2, (t6 (2 * N)).1.energy, hE N, ce]
    ring

/-- **C94, refuted, below absolute zero.** With enough such cycles the temperature that the equation of state assigns to
    the crystal is below any given value, also below absolute zero. -/
theorem C94_refuted_cold {a b δ tol : ℝ} (hb : 1 / 2000 ≤ b) (hab : b < a) (hδ : 0 < δ) (htol : 0 ≤ tol) (T : ℝ) :
    ∃ (N : ℕ) (t : Trajectory walkMat (2 * N + 1)), (∀ k, Finds (t.X k).solver) ∧
      t.m 0 = testMem (fun _ => 1 / 1000) 0 0 none ∧ AtVolume t 1 ∧
      (∀ k, 0 < ddot (devOfSvecP (t.m' k).stress) (slipD fccM fccS (t.m' k))) ∧
      (walkMat.eos.evalPT 1 (t.m' (2 * N)).eInt).2 < T := by
  obtain ⟨dt, -, h⟩ := C94_refuted_heat hb hab hδ htol
  obtain ⟨N, hN⟩ := exists_nat_gt ((δ * a / (a - b) + a ^ 2 + (2 / 10 ^ 5) * (300 - T)) / δ)
  obtain ⟨t, h1, h2, h3, -, h5, h6, h7⟩ := h N
  refine ⟨N, t, h1, h2, h3, h5, ?_⟩
  rw [div_lt_iff₀ hδ] at hN
  rw [h6] at h7
  simp only [walkMat, Eos.evalPT, Eos.tK0, Eos.dtde0, testEos, Bool.false_eq_true, if_false]
  rw [show (t.m' (2 * N)).eInt = a ^ 2 + (δ * a / (a - b) - N * δ) by linarith]
  linarith

/-- the hypotheses hold for the reversal from 1.05 to 0.95 times the strength; the state of the first theorem is reached -/
example : ∃ m : Mem 1 12, AtStrain (21 / 20000) ((21 / 20000) ^ 2 + 1 * ((0 + 21 / 20000) / 2) * walkPow (21 / 20000)) m := by
  obtain ⟨m', -, h, -⟩ := walk_step (b := 21 / 20000) (dt := 1) (tol := 0) one_pos le_rfl atStrain_zero
  exact ⟨m', by convert h using 1; ring⟩

example : (1 / 2000 : ℝ) ≤ 19 / 20000 ∧ (19 / 20000 : ℝ) < 21 / 20000 := by norm_num

/-- the hypotheses of `C94_history` and `C94_turn` hold along a walk in which the crystal slips, those of `C94_elastic`
    for elastic strains below the threshold of slip -/
example (N : ℕ) : ∃ t : Trajectory walkMat (N + 1), walkMat.el = .cubic 3 1 1 ∧ AtVolume t 1 ∧
    (∀ k, (histOf (t.m' k)).gdot ≠ 0) ∧ ∀ k, dot (histOf (t.m' k)).q (histOf (t.m' k)).q = 1 := by
  obtain ⟨t, -, -, -, -, h5, h6⟩ := C94_walk (fun k => if k = 0 then 0 else 1 / 1000) (fun _ => 1) rfl
    (fun _ => one_pos) (tol := 0) le_rfl (N + 1)
  refine ⟨t, rfl, h5, fun k hk => ?_, fun k => ?_⟩
  · have h := walk_dis (h6 k).1 (h6 k).2
    have hp := walkPow_pos (b := 1 / 1000) (by norm_num)
    have : slipD fccM fccS (t.m' k) = 0 := by
      unfold slipD
      rw [hk]
      have : slipGrad (0 : Vec 12) fccS fccM = 0 := by simp [slipGrad]
      rw [this]
      simp [sym, dev]
    rw [this] at h
    simp only [Nat.add_eq_zero_iff, one_ne_zero, and_false, if_false] at h
    rw [← h] at hp
    simp [ddot] at hp
  · rw [(h6 k).1.q]
    simp [dot, Fin.sum_univ_four]

example (N : ℕ) : ∃ t : Trajectory walkMat (N + 1), (∀ k, (t.X k).solver.Sound) ∧ AtVolume t 1 ∧
    (∀ k, IsDev (devOfSvecP (t.inp k).d)) ∧ (∀ k, (histOf (t.m' k)).gdot = 0) ∧
    (∀ k, (histOf (t.m' k)).q = (histOf (t.m k)).q) ∧ devOfSvecP (t.m' 0).stress ≠ 0 ∧
    ∀ p T h vals sc, walkMat.kin.getVals p T h = .ok (vals, sc) →
      0 < walkMat.kin.fixedRefRate vals ∧ walkMat.kin.fixedRefRate vals ≤ 1 := by
  obtain ⟨t, h1, h2, h3, h4, h5, h6⟩ := C94_walk (fun k => if k % 2 = 0 then 0 else 1 / 10000) (fun _ => 1) rfl
    (fun _ => one_pos) (tol := 0) le_rfl (N + 1)
  have hz : ∀ b : ℝ, |b| ≤ 1 / 10000 → walkRate b = 0 := by
    intro b hb
    funext s
    refine (C24_sign (testVoceNS false) (by norm_num [testVoceNS, testVoce])
      (by norm_num [testVoceNS, testVoce]) (1 / 1000) _ (by norm_num)).1.2 ?_
    have hx : (testVoceNS false).xm = 1 / 100 := rfl
    have hmin : 1 / 5 ≤ (1 / 10 ^ 60 : ℝ) ^ (1 / 100 : ℝ) := by
      have := (root_between (a := (1 / 10 ^ 60 : ℝ)) (l := 1 / 5) (u := 1) (n := 100) (by norm_num)
        (by norm_num) (by norm_num) (by norm_num) (by norm_num) (by norm_num)).1
      simpa using this
    have hP : |(slipPQ fccM fccS).P 1 s| ≤ 1 := by
      have h := fcc_P_norm s
      rw [vecNorm_sq] at h
      have := Finset.single_le_sum (f := fun i => (slipPQ fccM fccS).P i s ^ 2) (fun i _ => sq_nonneg _) (Finset.mem_univ 1)
      exact abs_le_of_sq_le_sq (by nlinarith) zero_le_one
    rw [hx, div_le_iff₀ (by norm_num), abs_mul, abs_mul, abs_of_pos (by norm_num : (0 : ℝ) < 2)]
    have := mul_le_mul hb hP (abs_nonneg _) (by norm_num)
    nlinarith
  refine ⟨t, fun k => (h1 k).sound, h5, fun k => ?_, fun k => ?_, fun k => ?_, ?_, ?_⟩
  · rw [h4 k, walk_d]
    exact isDev_add (isDev_smul _ (vecdToSymm_isDev _)) (isDev_dev_sym _)
  · rw [(h6 k).2]
    refine hz _ ?_
    split_ifs <;> norm_num
  · rw [(h6 k).1.q]
    cases k with
    | zero => rw [h2]; simp only [histOf, testMem, Hist.ofArray_toArray]
    | succ k => rw [h3 k, (h6 k).1.q]
  · rw [(walk_lat (h6 0).1).2.1]
    intro h
    have h33 := congrFun (congrFun h 2) 2
    simp [vecdToSymm, ofSvecP, vecdsToSvecP, axis3, sqr2b3] at h33
  · intro p T h vals sc _
    show 0 < (testVoceNS false).gamW ∧ (testVoceNS false).gamW ≤ 1
    norm_num [testVoceNS, testVoce]

end Ecm.Props
