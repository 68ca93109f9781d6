/- Property theorem C77: the expected values of the unit tests of one material update
   (test/test_evptn.cxx, test/test_updst.cxx, test/test_expectedVals.h). -/
import Verif.Lemmas.Axisym
import Verif.Props.TestValues
import Verif.Props.Unique
import Verif.Lemmas.KMRoot
import Verif.Lemmas.KMHex
import Verif.Lemmas.AxisHcp

namespace Ecm.Props
open Ecm Spec

variable {n nH : ℕ}

/-- test/setup_conditions.h: the deformation rate, scaled to unit magnitude, the time step, the spin, the
    volume ratios; the tolerance of test/setup_base.h:8 is a parameter -/
noncomputable def testInp (tol : ℝ) : Inputs where
  dt := 1 / 10
  tol := tol
  d := fun i => sqr2b3 * (![-1 / 2, -1 / 2, 1, 0, 0, 0, 0] : Vec 7) i
  w := ![0, 0, 1 / 2]
  vr := ![1, 1, 0, 0]

/-- test/test_evptn.cxx:145-154: energy, stress and history zero except for the identity orientation and the
    hardness state -/
def testMem (h : Vec nH) (T : ℝ) (sdd : Vec 2) (t : Option (Mat 6 6)) : Mem nH n where
  eInt := 0
  stress := 0
  hist := ({ shrateEff := 0, shrEff := 0, flowStr := 0, nFEval := 0, e := 0, q := ![1, 0, 0, 0], h := h,
             gdot := 0 } : Hist nH n).toArray
  tkelv := T
  sdd := sdd
  mtan := t

/-- test/setup_base.h:7, test/setup_eos.h with the bulk modulus `K` of the elasticity -/
noncomputable def testEos (K : ℝ) : Eos where
  isothermal := false
  rho0 := 3
  bulkMod := K
  cvav := 2 / 10 ^ 5
  gamma := 17 / 10
  ec0 := -(2 / 10 ^ 5) * 300

/-- a solver that tries one given point, whatever the starting point -/
noncomputable def goTo (x : Vec 8) : Solver 8 := fun P tol k _ => probe 8 P tol k x

theorem goTo_sound (x : Vec 8) : (goTo x).Sound := fun P tol k _ h => probe_sound 8 P tol k x h

/-- the library of the test with a solver that finds the point `x` -/
noncomputable def testExt (x : Vec 8) : Ext where
  solver := goTo x
  lup := fun _ _ => none
  evalCost := 1

theorem testInp_d (tol : ℝ) : svecToVecd (testInp tol).d = ![0, 1, 0, 0, 0] := by
  ext i
  fin_cases i <;> simp [svecToVecd, testInp]
  sqr_ring

theorem testInp_dev (tol : ℝ) : IsDev (devOfSvecP (testInp tol).d) := by
  refine ⟨?_, ?_⟩
  · ext i j; fin_cases i <;> fin_cases j <;> simp [devOfSvecP]
  · simp [Matrix.trace, Fin.sum_univ_three, devOfSvecP, testInp]
    ring

theorem testMem_quat (h : Vec nH) (T : ℝ) (sdd : Vec 2) (t : Option (Mat 6 6)) :
    Step.quatN (testMem h T sdd t : Mem nH n) = ![1, 0, 0, 0] := by
  unfold Step.quatN testMem
  rw [Hist.ofArray_toArray]
  have : vecNorm (![1, 0, 0, 0] : Vec 4) = 1 := by
    unfold vecNorm
    rw [show (∑ i, (![1, 0, 0, 0] : Vec 4) i * (![1, 0, 0, 0] : Vec 4) i) = 1 by
      simp [Fin.sum_univ_four], Real.sqrt_one]
  show vecsVNormalize ![1, 0, 0, 0] = _
  unfold vecsVNormalize
  rw [this]
  ext i; fin_cases i <;> simp [vecsVsa]

/-- the problem the update constructs in the tests -/
noncomputable def testProb (M : Material n nH) (v : M.kin.Vals) (scale : ℝ) : Updst n where
  geom := M.geom
  el := M.el
  gd := M.kin.evalGdot v
  adotsRef := M.kin.fixedRefRate v
  hdnScale := scale
  dt := 1 / 10
  detV := 1
  eVref := 0
  pEos := 0
  tK := 300
  eN := 0
  cN := ![1, 0, 0, 0]
  dSm := ![0, 1, 0, 0, 0]
  wSm := ![0, 0, 1 / 2]

theorem test_setup {M : Material n nH} {K : ℝ} (hM : M.eos = testEos K) {h : Vec nH} {k : ℕ}
    (hH : M.kin.updateH h (1 / 10) 0 = .ok (h, k)) {v : M.kin.Vals} {scale : ℝ}
    (hV : M.kin.getVals 0 300 h = .ok (v, scale)) (tol T : ℝ) (sdd : Vec 2) (t : Option (Mat 6 6)) :
    Step.setup M (testInp tol) (testMem h T sdd t) = .ok (h, testProb M v scale) := by
  have hhist : Hist.ofArray (testMem h T sdd t : Mem nH n).hist
      = { shrateEff := 0, shrEff := 0, flowStr := 0, nFEval := 0, e := 0, q := ![1, 0, 0, 0], h := h,
          gdot := 0 } := Hist.ofArray_toArray _
  have hp : (Step.eosUpdate M (testInp tol) (testMem h T sdd t)).press = 0 := by
    simp [Step.eosUpdate, hM, Eos.updateSimple, Eos.evalPTDiff, testEos, testInp, testMem]
  have he : (Step.eosUpdate M (testInp tol) (testMem h T sdd t)).eNew = 0 := by
    simp [Step.eosUpdate, Eos.updateSimple, testInp, testMem]
  have hT : Step.tK M (testInp tol) (testMem h T sdd t) = 300 := by
    simp [Step.tK, hM, Eos.evalPT, Eos.tK0, Eos.dtde0, testEos, testMem]
    norm_num
  have := Step.setup_eq_ok (M := M) (inp := testInp tol) (m := testMem h T sdd t) (hU := h) (kU := k)
    (v := v) (scale := scale) ?_ ?_ ?_ ?_ ?_ ?_
  · rw [this, hp, he, hT, testInp_d, testMem_quat, hhist]
    rfl
  · rw [hhist]
    intro h0
    have := congrFun h0 0
    simp at this
  · rw [hM]; norm_num [testEos]
  · norm_num [testInp]
  · norm_num [testInp]
  · rw [hhist]; exact hH
  · rw [hp, hT]; exact hV

/-- the update of the tests finds the axisymmetric state, if the rates of slip balance there -/
theorem test_ok {M : Material n nH} {K : ℝ} (hM : M.eos = testEos K) {h : Vec nH} {k : ℕ}
    (hH : M.kin.updateH h (1 / 10) 0 = .ok (h, k)) {v : M.kin.Vals} {scale : ℝ}
    (hV : M.kin.getVals 0 300 h = .ok (v, scale)) {G : ℝ} (hG : M.el.getGmod = .ok G)
    {E : ℝ} {g : Vec n} (hg : ∀ s, (M.kin.evalGdot v s (M.el.kDiag 1 * E * M.geom.P 1 s)).gdot = g s)
    (hP : ∀ i, ∑ s, M.geom.P i s * g s = if i = 1 then 1 - 10 * E else 0)
    (hQ : ∀ i, ∑ s, M.geom.Q i s * g s = 0) {tol : ℝ} (htol : 0 ≤ tol) (T : ℝ) (sdd : Vec 2) :
    ∃ x m', getResponseSngl (testExt x) M (testInp tol) (testMem h T sdd none) = .ok m' ∧
      (histOf m').e = ![0, E, 0, 0, 0] ∧
      (histOf m').q = ![Real.cos (1 / 40), 0, 0, Real.sin (1 / 40)] ∧
      (histOf m').h = h ∧ (histOf m').gdot = g ∧ (histOf m').shrateEff = ∑ s, |g s| ∧
      m'.tkelv = 300 := by
  set P := testProb M v scale with hPdef
  have hwt : P.dt * (1 / 2) = 1 / 20 := by norm_num [hPdef, testProb]
  have hgd : P.gdot (axisX E (1 / 20)) = g := by
    funext s
    unfold Updst.gdot
    rw [P.taua_axis rfl rfl rfl]
    exact hg s
  have htiny : idpTinySqrt < (1 / 20 : ℝ) := by unfold idpTinySqrt; norm_num
  have hres : P.resid (axisX E (1 / 20)) = 0 := by
    have := P.resid_axis rfl rfl rfl (w := 1 / 2) rfl rfl E (by rw [hwt]; exact htiny) ?_ ?_
    · rwa [hwt] at this
    · rw [hwt, hgd]
      intro i
      show ∑ s, M.geom.P i s * g s = _
      rw [hP i]
      have : E / P.dt = 10 * E := by show E / (1 / 10) = _; ring
      rw [this]
    · rw [hwt, hgd]; exact hQ
  have hsol : Step.solve (testExt (axisX E (1 / 20))) (testInp tol) P
      = { converged := true, x := axisX E (1 / 20), xLast := axisX E (1 / 20), nFEvals := 1 } := by
    show probe 8 P.problem tol 200 (axisX E (1 / 20)) = _
    refine probe_zero (J := P.jac (axisX E (1 / 20))) ?_ htol 200
    show some (P.resid _, _) = some _
    rw [hres]
  have hq : P.cQuat (axisX E (1 / 20)) = ![Real.cos (1 / 40), 0, 0, Real.sin (1 / 40)] := by
    rw [P.cQuat_axis rfl htiny]
    norm_num
  have hcos : 0 < Real.cos (1 / 40) := by
    apply Real.cos_pos_of_mem_Ioo
    constructor <;> nlinarith [Real.pi_gt_three]
  have hflip : Step.flipQuat (P.cQuat (axisX E (1 / 20))) P.cN
      = ![Real.cos (1 / 40), 0, 0, Real.sin (1 / 40)] := by
    rw [hq]
    unfold Step.flipQuat
    rw [if_neg]
    rw [not_lt]
    show 0 ≤ vecsyadotb _ ![1, 0, 0, 0]
    simp [vecsyadotb, Fin.sum_univ_four]
    simpa using hcos.le
  refine ⟨axisX E (1 / 20), ?_⟩
  unfold getResponseSngl
  rw [test_setup hM hH hV]
  simp only [← hPdef, Step.run, hsol, hG]
  refine ⟨_, rfl, ?_⟩
  simp only [histOf, Hist.ofArray_toArray]
  refine ⟨?_, ?_, ?_, ?_, ?_, ?_⟩
  · exact P.eF_axis rfl E (1 / 20)
  · exact hflip
  · rfl
  · exact hgd
  · show P.shrateEff (axisX E (1 / 20)) = _
    unfold Updst.shrateEff
    rw [hgd]; rfl
  · simp [Step.tK, hM, Eos.evalPT, Eos.tK0, Eos.dtde0, testEos, testMem]
    norm_num


theorem double_between {c l u x : ℝ} (hx : Real.cos x = c) (hl : 0 ≤ l) (h1 : l ≤ c) (h2 : c ≤ u) :
    2 * l ^ 2 - 1 ≤ Real.cos (2 * x) ∧ Real.cos (2 * x) ≤ 2 * u ^ 2 - 1 := by
  rw [Real.cos_two_mul, hx]
  constructor <;> nlinarith

/-- the first component of the orientation after the step; test/test_expectedVals.h: 0.999687516276 and
    0.9996875162757 -/
theorem test_cos : |Real.cos (1 / 40) - 9996875162757 / 10 ^ 13| < 1 / 10 ^ 9 := by
  have h0 := Real.cos_bound (x := 1 / 640) (by rw [abs_of_pos] <;> norm_num)
  rw [abs_of_pos (by norm_num : (0 : ℝ) < 1 / 640), abs_le] at h0
  obtain ⟨a0, b0⟩ := h0
  obtain ⟨a1, b1⟩ := double_between (x := 1 / 640) (l := 999998779296564558 / 10 ^ 18) (u := 999998779297185442 / 10 ^ 18) rfl (by norm_num)
    (by norm_num at a0 ⊢; linarith) (by norm_num at b0 ⊢; linarith)
  rw [show (2 : ℝ) * (1 / 640) = 1 / 320 by norm_num] at a1 b1
  obtain ⟨a2, b2⟩ := double_between (x := 1 / 320) (l := 999995117189238465 / 10 ^ 18) (u := 999995117191722000 / 10 ^ 18) rfl (by norm_num)
    (by norm_num at a1 ⊢; linarith) (by norm_num at b1 ⊢; linarith)
  rw [show (2 : ℝ) * (1 / 320) = 1 / 160 by norm_num] at a2 b2
  obtain ⟨a3, b3⟩ := double_between (x := 1 / 160) (l := 999980468804637541 / 10 ^ 18) (u := 999980468814571635 / 10 ^ 18) rfl (by norm_num)
    (by norm_num at a2 ⊢; linarith) (by norm_num at b2 ⊢; linarith)
  rw [show (2 : ℝ) * (1 / 160) = 1 / 80 by norm_num] at a3 b3
  obtain ⟨a4, b4⟩ := double_between (x := 1 / 80) (l := 999921875981485348 / 10 ^ 18) (u := 999921876021220950 / 10 ^ 18) rfl (by norm_num)
    (by norm_num at a3 ⊢; linarith) (by norm_num at b3 ⊢; linarith)
  rw [show (2 : ℝ) * (1 / 80) = 1 / 40 by norm_num] at a4 b4
  rw [abs_lt]
  constructor
  · norm_num at a4 ⊢; linarith
  · norm_num at b4 ⊢; linarith

/-- test/test_evptn.cxx with KIN_TYPE 0: FCC, cubic elasticity of test/setup_elastn.h, power law and linear
    Voce hardening -/
noncomputable def testMatA : Material 12 1 where
  geom := slipPQ fccM fccS
  kin := (testVoce false).kin (probe 1) 12
  el := .cubic 3 1 1
  eos := testEos (5 / 3)

theorem voce_rest (k : Voce) (hk : k.nonlinear = false) (hg : 0 < k.gamss0) (h : Vec 1) (dt : ℝ) :
    k.updateH (probe 1) h dt (0 : Vec 12) = .ok (h, 1) := by
  have h0 : vecsssumabs (0 : Vec 12) = 0 := by simp [vecsssumabs]
  have hlaw : ∀ z, ∃ d, k.getSdot1 (k.getEvolVals (0 : Vec 12)) z = some (0, d) := by
    intro z
    simp only [Voce.getSdot1, hk, Bool.false_eq_true, if_false, Voce.getEvolVals, h0, mul_zero]
    exact ⟨_, rfl⟩
  unfold Voce.updateH
  rw [if_neg (not_le.2 hg)]
  have hp : ∃ J, ({ law := k.getSdot1 (k.getEvolVals (0 : Vec 12)), hO := h 0, dt := dt } : H1Problem).problem
      (fun _ => 0) = some ((0 : Vec 1), J) := by
    unfold H1Problem.problem
    obtain ⟨d, hd⟩ := hlaw (h 0)
    rw [H1Problem.computeRJ_some (s := 0) (d := d)]
    · simp only [Option.map_some]
      refine ⟨_, congrArg some (Prod.ext ?_ rfl)⟩
      funext i
      simp
    · simpa using hd
  obtain ⟨J, hJ⟩ := hp
  simp only [updateH1, probe_zero hJ (by norm_num : (0 : ℝ) ≤ 1 / 10 ^ 10), Out.bind, if_true,
    H1Problem.getHn, zero_mul, add_zero]
  congr 2
  funext i; rw [Subsingleton.elim i 0]

theorem testVoce_rate {E : ℝ} (h1 : 1 / 2000 ≤ E) (h2 : E ≤ 1 / 1000) :
    ((testVoce false).evalGdot (1 / 1000) E).gdot = (1000 * E) ^ 100 ∧
    ((testVoce false).evalGdot (1 / 1000) (-E)).gdot = -(1000 * E) ^ 100 ∧
    ((testVoce false).evalGdot (1 / 1000) 0).gdot = 0 := by
  have hE : 0 < E := by linarith
  have hmin : (testVoce false).tMin ≤ 1 / 3 := by
    show gamRatioMin ^ (1 / 100 : ℝ) ≤ 1 / 3
    have := (root_between (a := gamRatioMin) (l := 0) (u := 1 / 3) (n := 100) (by norm_num)
      (by norm_num [gamRatioMin]) le_rfl (by norm_num) (by norm_num [gamRatioMin]) (by norm_num [gamRatioMin])).2
    simpa using this
  have hmax : 1 ≤ (testVoce false).tMax := by
    show 1 ≤ gamRatioOvf ^ (1 / 100 : ℝ)
    exact Real.one_le_rpow (by norm_num [gamRatioOvf]) (by norm_num)
  have hx : (testVoce false).xnn = (100 : ℕ) := by norm_num [Voce.xnn, testVoce]
  have hw : (testVoce false).gamW = 1 := rfl
  have e : |E| / (1 / 1000) = 1000 * E := by rw [abs_of_pos hE]; ring
  have e' : |-E| / (1 / 1000) = 1000 * E := by rw [abs_neg, e]
  refine ⟨?_, ?_, ?_⟩
  · rw [Voce.gdot_mid _ (by norm_num) (by rw [e]; linarith) (by rw [e]; linarith), e, hx, hw,
      Real.rpow_natCast, if_pos hE, one_mul, one_mul]
  · rw [Voce.gdot_mid _ (by norm_num) (by rw [e']; linarith) (by rw [e']; linarith), e', hx, hw,
      Real.rpow_natCast, if_neg (by linarith)]
    ring
  · rw [Voce.evalGdot_low _ (by norm_num)]
    simp [(testVoce false).tMin_pos.le]

/-- the axial elastic strain of the test -/
theorem testVoce_root : ∃ E : ℝ, 9861349707671 / 10 ^ 16 ≤ E ∧ E ≤ 9861349707691 / 10 ^ 16 ∧
    10 * E + 4 * (1000 * E) ^ 100 = 1 := by
  have hc : ContinuousOn (fun E : ℝ => 10 * E + 4 * (1000 * E) ^ 100)
      (Set.Icc (9861349707671 / 10 ^ 16) (9861349707691 / 10 ^ 16)) := by fun_prop
  obtain ⟨E, ⟨h1, h2⟩, h3⟩ := intermediate_value_Icc (by norm_num) hc
    (show (1 : ℝ) ∈ Set.Icc _ _ by constructor <;> norm_num)
  exact ⟨E, h1, h2, h3⟩

/-- what test/test_evptn.cxx:178-183 and test/test_updst.cxx:130-135 check, against expected values `e2`, `q1`,
    `gd` (test/test_expectedVals.h), for the slip system `s` -/
structure MeetsTest (m' : Mem nH n) (s : Fin n) (e2 q1 gd : ℝ) : Prop where
  strain : |(histOf m').e 1 - e2| < 1 / 10 ^ 10
  quat : |(histOf m').q 0 - q1| < 1 / 10 ^ 8
  rate : |(histOf m').gdot s - gd| < 1 / 10 ^ 8

theorem testMatA_hard : testMatA.kin.updateH (fun _ => (testVoce false).hdnInit) (1 / 10) 0
    = .ok (fun _ => (testVoce false).hdnInit, 1) :=
  voce_rest (testVoce false) rfl (by norm_num [testVoce]) (fun _ => (testVoce false).hdnInit) (1 / 10)

theorem testMatA_vals : testMatA.kin.getVals 0 300 (fun _ => (testVoce false).hdnInit)
    = .ok ((1 / 1000 : ℝ), 1 / 1000) := by
  have e : (testVoce false).hdnInit = 1 / 1000 := by norm_num [testVoce]
  show (if 0 < (testVoce false).hdnInit then Out.ok ((testVoce false).hdnInit, (testVoce false).hdnInit) else _) = _
  rw [e, if_pos (by norm_num)]
  rfl

/-- a cubic lattice in the tests: one scalar equation remains -/
theorem test_cubic {M : Material 12 nH} {K : ℝ} (hM : M.eos = testEos K) (hel : M.el = .cubic 3 1 1)
    (g1 : ∀ s, M.geom.P 1 s = fccA s / 2)
    (g2 : ∀ i, ∑ s, M.geom.P i s * fccA s = if i = 1 then 4 else 0)
    (g3 : ∀ i, ∑ s, M.geom.Q i s * fccA s = 0) {h : Vec nH} {k : ℕ}
    (hH : M.kin.updateH h (1 / 10) 0 = .ok (h, k)) {v : M.kin.Vals} {scale : ℝ}
    (hV : M.kin.getVals 0 300 h = .ok (v, scale)) {E Γ : ℝ}
    (r1 : ∀ s, (M.kin.evalGdot v s E).gdot = Γ) (r2 : ∀ s, (M.kin.evalGdot v s (-E)).gdot = -Γ)
    (r3 : ∀ s, (M.kin.evalGdot v s 0).gdot = 0) (hE : 10 * E + 4 * Γ = 1)
    {tol : ℝ} (htol : 0 ≤ tol) (T : ℝ) (sdd : Vec 2) {e2 gd : ℝ} (b1 : |E - e2| < 1 / 10 ^ 10)
    (b2 : |Γ - gd| < 1 / 10 ^ 8) {q1 : ℝ} (b3 : |q1 - 9996875162757 / 10 ^ 13| < 1 / 10 ^ 9) :
    ∃ X m', X.solver.Sound ∧ getResponseSngl X M (testInp tol) (testMem h T sdd none) = .ok m' ∧
      (histOf m').q = ![Real.cos (1 / 40), 0, 0, Real.sin (1 / 40)] ∧ (histOf m').gdot = (fun s => fccA s * Γ) ∧
      (histOf m').e = ![0, E, 0, 0, 0] ∧ (histOf m').h = h ∧ (histOf m').shrateEff = 8 * |Γ| ∧
      MeetsTest m' 1 e2 q1 gd := by
  have hP : ∀ i, ∑ s, M.geom.P i s * (fccA s * Γ) = if i = 1 then 1 - 10 * E else 0 := by
    intro i
    rw [show ∑ s, M.geom.P i s * (fccA s * Γ) = (∑ s, M.geom.P i s * fccA s) * Γ by
        rw [Finset.sum_mul]; exact Finset.sum_congr rfl fun s _ => by ring, g2]
    split_ifs <;> linarith
  have hQ : ∀ i, ∑ s, M.geom.Q i s * (fccA s * Γ) = 0 := by
    intro i
    rw [show ∑ s, M.geom.Q i s * (fccA s * Γ) = (∑ s, M.geom.Q i s * fccA s) * Γ by
        rw [Finset.sum_mul]; exact Finset.sum_congr rfl fun s _ => by ring, g3, zero_mul]
  have hG : M.el.getGmod = .ok 2 := by
    rw [hel]
    unfold Elast.getGmod
    norm_num [Elast.kGmod]
  have hg : ∀ s, (M.kin.evalGdot v s (M.el.kDiag 1 * E * M.geom.P 1 s)).gdot = fccA s * Γ := by
    intro s
    rw [g1, hel, show (Elast.cubic 3 1 1).kDiag 1 = 2 by norm_num [Elast.kDiag]]
    exact fcc_odd (f := fun t => (M.kin.evalGdot v s t).gdot) (r1 s) (r2 s) (r3 s) s
  obtain ⟨x, m', h1, h2, h3, h4, h5, h6, -⟩ := test_ok hM hH hV hG hg hP hQ htol T sdd
  refine ⟨_, m', goTo_sound x, h1, h3, h5, h2, h4, ?_, ?_, ?_, ?_⟩
  · rw [h6]
    simp only [abs_mul]
    rw [← Finset.sum_mul, fccA_abs]
  · rw [h2]; exact b1
  · rw [h3]
    show |Real.cos (1 / 40) - _| < _
    have := test_cos
    rw [abs_lt] at this b3 ⊢
    constructor <;> linarith
  · rw [h5]
    show |fccA 1 * Γ - gd| < _
    rw [show fccA 1 * Γ = Γ by simp [fccA]]; exact b2

/-- C77 power-law kinetics (KIN_TYPE 0): the equations of the step in the test have an exact solution, and
    the update that finds it meets the expected values. -/
theorem C77_voce {tol : ℝ} (htol : 0 ≤ tol) (T : ℝ) (sdd : Vec 2) :
    ∃ X m', X.solver.Sound ∧
      getResponseSngl X testMatA (testInp tol) (testMem (fun _ => (testVoce false).hdnInit) T sdd none) = .ok m' ∧
      MeetsTest m' 1 (9861349707681 / 10 ^ 16) (999687516276 / 10 ^ 12) (2475346625929 / 10 ^ 13) := by
  obtain ⟨E, hl, hu, hE⟩ := testVoce_root
  obtain ⟨a, b, c⟩ := testVoce_rate (E := E) (by linarith) (by linarith)
  obtain ⟨X, m', h1, h2, -, -, -, -, -, h3⟩ := test_cubic (M := testMatA) (K := 5 / 3) rfl rfl fcc_P1 fcc_PA fcc_QA
    testMatA_hard testMatA_vals (fun _ => a) (fun _ => b) (fun _ => c) hE htol T sdd
    (e2 := 9861349707681 / 10 ^ 16) (gd := 2475346625929 / 10 ^ 13) (q1 := 999687516276 / 10 ^ 12)
    (by rw [abs_lt]; constructor <;> linarith)
    (by rw [show (1000 * E) ^ 100 = (1 - 10 * E) / 4 by linarith, abs_lt]; constructor <;> linarith)
    (by rw [abs_lt]; constructor <;> norm_num)
  exact ⟨X, m', h1, h2, h3⟩

/-- C77 power-law kinetics: with tolerance zero every solver that claims convergence only at a solution meets the
    expected values, if it ends at the orientation of the test and at slip rates below the overflow threshold. -/
theorem C77_voce_unique (T : ℝ) (sdd : Vec 2) {X : Ext} (hX : X.solver.Sound) {m' : Mem 1 12}
    (h : getResponseSngl X testMatA (testInp 0) (testMem (fun _ => (testVoce false).hdnInit) T sdd none) = .ok m')
    (hq : (histOf m').q = ![Real.cos (1 / 40), 0, 0, Real.sin (1 / 40)])
    (hB : ∀ i, |(histOf m').gdot i| < 10 ^ 45) :
    MeetsTest m' 1 (9861349707681 / 10 ^ 16) (999687516276 / 10 ^ 12) (2475346625929 / 10 ^ 13) := by
  obtain ⟨E, hl, hu, hE⟩ := testVoce_root
  obtain ⟨a, b, c⟩ := testVoce_rate (E := E) (by linarith) (by linarith)
  obtain ⟨Y, m2, hY, h2, h3, h4, -, -, -, h5⟩ := test_cubic (M := testMatA) (K := 5 / 3) rfl rfl fcc_P1 fcc_PA fcc_QA
    testMatA_hard testMatA_vals (fun _ => a) (fun _ => b) (fun _ => c) hE le_rfl T sdd
    (e2 := 9861349707681 / 10 ^ 16) (gd := 2475346625929 / 10 ^ 13) (q1 := 999687516276 / 10 ^ 12)
    (by rw [abs_lt]; constructor <;> linarith)
    (by rw [show (1000 * E) ^ 100 = (1 - 10 * E) / 4 by linarith, abs_lt]; constructor <;> linarith)
    (by rw [abs_lt]; constructor <;> norm_num)
  have hst : ∀ F, IsDev F → F ≠ 0 → 0 < ddot F (refStress testMatA.el F) :=
    (C47_positive_definite _).2 fun k => by
      show 0 < Elast.kDiag (.cubic 3 1 1) k
      fin_cases k <;> norm_num [Elast.kDiag]
  have hB2 : ∀ i, |(histOf m2).gdot i| < 10 ^ 45 * (testVoce false).gamW := by
    intro i
    rw [h4]
    show |fccA i * (1000 * E) ^ 100| < 10 ^ 45 * 1
    have h1 : |(1000 * E) ^ 100| ≤ 1 := by
      rw [show (1000 * E) ^ 100 = (1 - 10 * E) / 4 by linarith, abs_le]; constructor <;> linarith
    have h2 : |fccA i| ≤ 1 := by rcases fccA_cases i with h | h | h <;> rw [h] <;> norm_num
    rw [abs_mul]
    exact (mul_le_one₀ h2 (abs_nonneg _) h1).trans_lt (by norm_num)
  have hd : IsDev (devOfSvecP (testInp 0).d) := testInp_dev 0
  obtain ⟨e1, -, e2, -⟩ := C70_exact X Y hX hY testMatA hst _ _ (C69_voce (testVoce false) (probe 1) (by norm_num [testVoce]))
    (C70_voce (testVoce false) (by norm_num [testVoce]) (by norm_num [testVoce]) (probe 1)) (testInp 0)
    (by norm_num [testInp]) hd _ m' m2 h h2 (by simpa [testVoce] using hB) hB2 rfl (by rw [hq, h3])
  refine ⟨by rw [e1]; exact h5.strain, ?_, by rw [e2]; exact h5.rate⟩
  rw [hq, ← h3]; exact h5.quat

/-- test/setup_kin_KMBalD_TFF_BCC_A.h with Kin_BCC_A (src/ecmech/ECMech_cases.h): the same numbers, the strength
    is an athermal threshold -/
noncomputable def testKMb : KMBalD 1 := { testKM with withGA := true }

/-- test/test_evptn.cxx with KIN_TYPE 1 and test/test_updst.cxx: FCC with dislocation kinetics -/
noncomputable def testMatB : Material 12 1 where
  geom := slipPQ fccM fccS
  kin := testKM.kin (probe 1) 12
  el := .cubic 3 1 1
  eos := testEos (5 / 3)

/-- test/test_evptn.cxx with KIN_TYPE 3: BCC with twelve systems and dislocation kinetics -/
noncomputable def testMatBcc : Material 12 1 where
  geom := slipPQ bccM12 bccS12
  kin := testKMb.kin (probe 1) 12
  el := .cubic 3 1 1
  eos := testEos (5 / 3)

/-- without slip the density keeps its value -/
theorem km_rest {nV : ℕ} (k : KMBalD nV) (hg : 0 < k.gammaO) {h : ℝ} (hh : 0 < h) (hm : k.hdnMin ≤ h) (dt : ℝ) (n : ℕ) :
    k.updateH (probe 1) (fun _ => h) dt (0 : Vec n) = .ok (fun _ => h, 1) := by
  have h0 : vecsssumabs (0 : Vec n) = 0 := by simp [vecsssumabs]
  have hlaw : ∀ z, ∃ d, k.getSdot1 (k.getEvolVals (0 : Vec n)) z = some (0, d) := by
    intro z
    simp only [KMBalD.getSdot1, KMBalD.getEvolVals, h0, mul_zero]
    exact ⟨_, rfl⟩
  unfold KMBalD.updateH
  rw [if_neg (not_le.2 hg), max_eq_left hm, if_neg (not_le.2 hh)]
  have hp : ∃ J, ({ law := k.getSdot1 (k.getEvolVals (0 : Vec n)), hO := Real.log h, dt := dt } : H1Problem).problem
      (fun _ => 0) = some ((0 : Vec 1), J) := by
    unfold H1Problem.problem
    obtain ⟨d, hd⟩ := hlaw (Real.log h)
    rw [H1Problem.computeRJ_some (s := 0) (d := d)]
    · simp only [Option.map_some]
      refine ⟨_, congrArg some (Prod.ext ?_ rfl)⟩
      funext i
      simp
    · simpa using hd
  obtain ⟨J, hJ⟩ := hp
  simp only [updateH1, probe_zero hJ (by norm_num : (0 : ℝ) ≤ 1 / 10 ^ 10), Out.bind, if_true,
    H1Problem.getHn, zero_mul, add_zero, Real.exp_log hh]

/-- the kinetics values in the tests -/
noncomputable def testVals (nV : ℕ) : KMVals nV where
  gamW := 40
  gamR := 250
  g := fun _ => 1 / 8000
  ct := fun _ => 200 / 3

theorem sqrt_quarter : Real.sqrt (25 / 100) = 1 / 2 := by
  rw [show (25 / 100 : ℝ) = (1 / 2) ^ 2 by norm_num, Real.sqrt_sq (by norm_num)]

theorem km_vals {nV : ℕ} (k : KMBalD nV) (h1 : k.gamWo = 20) (h2 : k.gamRo = 1000) (h3 : ∀ i, k.go i = 10 / 10 ^ 5)
    (h4 : ∀ i, k.s i = 5 / 10 ^ 5) (h5 : ∀ i, k.c1 i = 20000) (h6 : k.tauA = 4 / 1000) :
    ∃ sc, k.getVals 300 (fun _ => 25 / 100) = .ok (testVals nV, sc) := by
  unfold KMBalD.getVals
  rw [if_neg (by norm_num), if_neg (by norm_num)]
  have e : ({ gamW := k.gamWo / Real.sqrt (25 / 100)
              gamR := k.gamRo * Real.sqrt (25 / 100) * Real.sqrt (25 / 100)
              g := fun i => k.go i + k.s i * Real.sqrt (25 / 100)
              ct := fun i => k.c1 i / 300 } : KMVals nV) = testVals nV := by
    rw [sqrt_quarter, h1, h2]
    unfold testVals
    simp only [h3, h4, h5]
    norm_num
  simp only [e]
  rw [if_neg, if_neg]
  · exact ⟨_, rfl⟩
  · rw [h6]; norm_num
  · rintro ⟨-, i, hi⟩
    rw [sqrt_quarter, h3, h4] at hi
    norm_num at hi

/-- the exponent of the power law in the tests -/
noncomputable def testN : ℝ := testKM.xnn 0

theorem testN_eq : testN = 3752 / 75 := by
  unfold testN KMBalD.xnn KMBalD.xm testKM; norm_num

theorem testN_thresholds : testKM.tMin 0 ≤ 1 / 4 ∧ 1 ≤ testKM.tMax 0 := by
  have hx : testKM.xm 0 = 75 / 3752 := by unfold KMBalD.xm testKM; norm_num
  constructor
  · unfold KMBalD.tMin
    rw [hx]
    have h1 : gamRatioMin ^ (75 / 3752 : ℝ) ≤ gamRatioMin ^ (1 / 60 : ℝ) :=
      Real.rpow_le_rpow_of_exponent_ge (by norm_num [gamRatioMin]) (by norm_num [gamRatioMin]) (by norm_num)
    have h2 := (root_between (a := gamRatioMin) (l := 0) (u := 1 / 4) (n := 60) (by norm_num)
      (by norm_num [gamRatioMin]) le_rfl (by norm_num) (by norm_num [gamRatioMin]) (by norm_num [gamRatioMin])).2
    exact h1.trans (by simpa using h2)
  · unfold KMBalD.tMax
    rw [hx]
    exact Real.one_le_rpow (by norm_num [gamRatioOvf]) (by norm_num)

theorem testKM_adm : KMAdm testKM (testVals 1) 0 := by
  constructor <;> norm_num [testKM, testVals]

theorem testKMb_adm : KMAdm testKMb (testVals 1) 0 := by
  constructor <;> norm_num [testKMb, testKM, testVals]

/-- C77 dislocation kinetics in FCC (KIN_TYPE 1, also test/test_updst.cxx): the equations of the step in the test
    have an exact solution, and the update that finds it meets the expected values. -/
theorem C77_fcc {tol : ℝ} (htol : 0 ≤ tol) (T : ℝ) (sdd : Vec 2) :
    ∃ X m', X.solver.Sound ∧
      getResponseSngl X testMatB (testInp tol) (testMem (fun _ => testKM.hdnInit) T sdd none) = .ok m' ∧
      MeetsTest m' 1 (407276458021 / 10 ^ 14) (999687516276 / 10 ^ 12) (2398180885495 / 10 ^ 13) := by
  obtain ⟨E, hl, hu, hE⟩ := kmRootFcc (N := testN) (by rw [testN_eq]; norm_num)
  obtain ⟨sc, hV⟩ := km_vals testKM rfl rfl (fun _ => rfl) (fun _ => rfl) (fun _ => rfl) rfl
  have hH : testMatB.kin.updateH (fun _ => testKM.hdnInit) (1 / 10) 0 = .ok (fun _ => testKM.hdnInit, 1) :=
    km_rest testKM (by norm_num [testKM]) (by norm_num [testKM]) (by norm_num [KMBalD.hdnMin, testKM]) (1 / 10) 12
  have r1 : ∀ s : Fin 12, (testKM.evalGdot (testVals 1) s E).gdot
      = kmF testN ((E - 1 / 250) * 8000) ((E - 1 / 250) * 50) := by
    intro s
    exact testKM.km_point rfl rfl rfl rfl rfl rfl (km_xn testKM 0) (by norm_num [testKM, testVals])
      (by norm_num [testKM]) (by norm_num [testKM, testVals]) testN_thresholds.1 testN_thresholds.2 (by linarith)
      (by linarith) (by linarith) (by linarith) (by norm_num)
  have r2 : ∀ s : Fin 12, (testKM.evalGdot (testVals 1) s (-E)).gdot
      = -kmF testN ((E - 1 / 250) * 8000) ((E - 1 / 250) * 50) := fun s => by
    rw [C28_odd testKM (testVals 1) s testKM_adm (by simp [testKM]), r1]
  have r3 : ∀ s : Fin 12, (testKM.evalGdot (testVals 1) s 0).gdot = 0 := fun s =>
    (C28_sign testKM (testVals 1) s testKM_adm 0).2 (by norm_num [athermal, testKM])
  obtain ⟨X, m', h1, h2, -, -, -, -, -, h3⟩ := test_cubic (M := testMatB) (K := 5 / 3) rfl rfl fcc_P1 fcc_PA fcc_QA
    hH hV r1 r2 r3 hE htol T sdd
    (e2 := 407276458021 / 10 ^ 14) (gd := 2398180885495 / 10 ^ 13) (q1 := 999687516276 / 10 ^ 12)
    (by rw [abs_lt]; constructor <;> linarith)
    (by rw [abs_lt]; constructor <;> linarith)
    (by rw [abs_lt]; constructor <;> norm_num)
  exact ⟨X, m', h1, h2, h3⟩

/-- C77 dislocation kinetics in BCC (KIN_TYPE 3). -/
theorem C77_bcc {tol : ℝ} (htol : 0 ≤ tol) (T : ℝ) (sdd : Vec 2) :
    ∃ X m', X.solver.Sound ∧
      getResponseSngl X testMatBcc (testInp tol) (testMem (fun _ => testKMb.hdnInit) T sdd none) = .ok m' ∧
      MeetsTest m' 1 (23952767304669 / 10 ^ 16) (9996875162757 / 10 ^ 13) (24401180817524 / 10 ^ 14) := by
  obtain ⟨E, hl, hu, hE⟩ := kmRootBcc (N := testN) (by rw [testN_eq]; norm_num)
  obtain ⟨sc, hV⟩ := km_vals testKMb rfl rfl (fun _ => rfl) (fun _ => rfl) (fun _ => rfl) rfl
  have hH : testMatBcc.kin.updateH (fun _ => testKMb.hdnInit) (1 / 10) 0 = .ok (fun _ => testKMb.hdnInit, 1) :=
    km_rest testKMb (by norm_num [testKMb, testKM]) (by norm_num [testKMb, testKM])
      (by norm_num [KMBalD.hdnMin, testKMb, testKM]) (1 / 10) 12
  have r1 : ∀ s : Fin 12, (testKMb.evalGdot (testVals 1) s E).gdot
      = kmF testN ((E - 1 / 8000) * 250) ((E - 1 / 8000) * 50) := by
    intro s
    exact testKMb.km_point rfl rfl rfl rfl rfl rfl (km_xn testKMb 0) (by norm_num [testKMb, testKM, testVals])
      (by norm_num [testKMb, testVals]) (by norm_num [testKMb, testKM, testVals]) testN_thresholds.1
      testN_thresholds.2 (by linarith) (by linarith) (by linarith) (by linarith) (by norm_num)
  have r2 : ∀ s : Fin 12, (testKMb.evalGdot (testVals 1) s (-E)).gdot
      = -kmF testN ((E - 1 / 8000) * 250) ((E - 1 / 8000) * 50) := fun s => by
    rw [C28_odd testKMb (testVals 1) s testKMb_adm (fun _ => by norm_num [testVals]), r1]
  have r3 : ∀ s : Fin 12, (testKMb.evalGdot (testVals 1) s 0).gdot = 0 := fun s =>
    (C28_sign testKMb (testVals 1) s testKMb_adm 0).2 (by norm_num [athermal, testKMb, testVals])
  obtain ⟨X, m', h1, h2, -, -, -, -, -, h3⟩ := test_cubic (M := testMatBcc) (K := 5 / 3) rfl rfl bcc_P1 bcc_PA bcc_QA
    hH hV r1 r2 r3 hE htol T sdd
    (e2 := 23952767304669 / 10 ^ 16) (gd := 24401180817524 / 10 ^ 14) (q1 := 9996875162757 / 10 ^ 13)
    (by rw [abs_lt]; constructor <;> linarith)
    (by rw [abs_lt]; constructor <;> linarith)
    (by rw [abs_lt]; constructor <;> norm_num)
  exact ⟨X, m', h1, h2, h3⟩

/-- test/setup_kin_KMBalD_TTT_HCP_A.h with Kin_HCP_A (src/ecmech/ECMech_cases.h) -/
noncomputable def testKMh : KMBalD 24 where
  withGA := true
  pOne := true
  qOne := true
  perSS := true
  muRef := 1
  tKRef := 300
  c1 := fun _ => 20000
  tauA := 4 / 1000
  p := 1
  q := 1
  gamWo := 20
  gamRo := 1000
  wrD := 2 / 100
  go := fun _ => 10 / 10 ^ 5
  s := fun _ => 5 / 10 ^ 5
  k1 := 100
  k2o := 10
  ninv := 5 / 100
  gammaO := 1 / 10 ^ 6
  hdnInit := 25 / 100

/-- test/setup_slipGeom_HCP.h -/
noncomputable def testCA : ℝ := 159773226818 / 10 ^ 11

/-- test/test_evptn.cxx with KIN_TYPE 2: HCP with the elasticity of test/setup_elastn_HCP.h; `m` and `s` are the
    slip systems the code constructs for the ratio c/a -/
noncomputable def testMatHcp (m s : Fin 24 → Vec 3) : Material 24 1 where
  geom := slipPQ m s
  kin := testKMh.kin (probe 1) 24
  el := .hexag (1624 / 1000) (920 / 1000) (690 / 1000) (1807 / 1000) (467 / 1000) 0
  eos := testEos (Elast.kBulkMod (.hexag (1624 / 1000) (920 / 1000) (690 / 1000) (1807 / 1000) (467 / 1000) 0))

theorem testKMh_adm (j : Fin 24) : KMAdm testKMh (testVals 24) j := by
  constructor <;> norm_num [testKMh, testVals]

theorem testKMh_consts (j : Fin 24) :
    testKMh.xnn j = 400 / 3 ∧ testKMh.tMin j ≤ 1 / 2 ∧ 1 ≤ testKMh.tMax j := by
  have hx : testKMh.xm j = 3 / 400 := by unfold KMBalD.xm testKMh; norm_num
  refine ⟨by unfold KMBalD.xnn; rw [hx]; norm_num, ?_, ?_⟩
  · unfold KMBalD.tMin
    rw [hx]
    have h1 : gamRatioMin ^ (3 / 400 : ℝ) ≤ gamRatioMin ^ (1 / 150 : ℝ) :=
      Real.rpow_le_rpow_of_exponent_ge (by norm_num [gamRatioMin]) (by norm_num [gamRatioMin]) (by norm_num)
    have h2 := (root_between (a := gamRatioMin) (l := 0) (u := 1 / 2) (n := 150) (by norm_num)
      (by norm_num [gamRatioMin]) le_rfl (by norm_num) (by norm_num [gamRatioMin]) (by norm_num [gamRatioMin])).2
    exact h1.trans (by simpa using h2)
  · unfold KMBalD.tMax
    rw [hx]
    exact Real.one_le_rpow (by norm_num [gamRatioOvf]) (by norm_num)

theorem hcpP_sq : hcpP testCA * hcpP testCA = 17949012193009739816102812500000000000000000 / 73336463119216114384393682382164965654840961 := by
  have h1 := hu_sq testCA
  have h2 := hw_sq testCA
  have h3 : Real.sqrt 3 * Real.sqrt 3 = 3 := Real.mul_self_sqrt (by norm_num)
  have h4 : sqr3b2 * sqr3b2 = 3 / 2 := by sqr_unfold; sqr_ring
  have e : hcpP testCA * hcpP testCA
      = (sqr3b2 * sqr3b2) * hu testCA ^ 2 * (Real.sqrt 3 * Real.sqrt 3 / 4) * (hw testCA ^ 2 * testCA ^ 2) := by
    unfold hcpP; ring
  rw [e, h3, h4]
  unfold testCA at h1 h2 ⊢
  generalize hu (159773226818 / 10 ^ 11) ^ 2 = a at h1 ⊢
  generalize hw (159773226818 / 10 ^ 11) ^ 2 = b at h2 ⊢
  have ha : a = 1 / ((159773226818 / 10 ^ 11) ^ 2 + 3 / 4) := by rw [eq_div_iff (by norm_num)]; exact h1
  have hb : b = 1 / ((159773226818 / 10 ^ 11) ^ 2 + 1) := by rw [eq_div_iff (by norm_num)]; exact h2
  rw [ha, hb]
  norm_num

theorem hcpP_between : 494720943126266629 / 10 ^ 18 ≤ hcpP testCA ∧ hcpP testCA ≤ 494720943126266630 / 10 ^ 18 := by
  have h := hcpP_sq
  have h0 : 0 ≤ hcpP testCA := by
    unfold hcpP
    have := hu_pos testCA; have := hw_pos testCA
    have : 0 ≤ sqr3b2 := by sqr_unfold; positivity
    have : 0 ≤ testCA := by norm_num [testCA]
    positivity
  constructor
  · by_contra hc
    push Not at hc
    have := mul_self_lt_mul_self h0 hc
    rw [h] at this
    norm_num at this
  · by_contra hc
    push Not at hc
    have := mul_self_lt_mul_self (by norm_num) hc
    rw [h] at this
    norm_num at this

/-- C77 dislocation kinetics in HCP (KIN_TYPE 2). -/
theorem C77_hcp {tol : ℝ} (htol : 0 ≤ tol) (T : ℝ) (sdd : Vec 2) {m s : Fin 24 → Vec 3}
    (hms : hcpMS testCA = .ok (m, s)) :
    ∃ X m', X.solver.Sound ∧
      getResponseSngl X (testMatHcp m s) (testInp tol) (testMem (fun _ => testKMh.hdnInit) T sdd none) = .ok m' ∧
      MeetsTest m' 12 (67661223196391 / 10 ^ 16) (9996875162757 / 10 ^ 13) (15704792600045 / 10 ^ 14) := by
  rw [hcpMS_eq (by norm_num [testCA])] at hms
  cases hms
  obtain ⟨pl, pu⟩ := hcpP_between
  obtain ⟨τ, hl, hu, hE⟩ := hexRoot hcpP_sq pl pu
  set p := hcpP testCA with hp
  set M := testMatHcp (hcpMx testCA) (hcpSx testCA) with hMdef
  have hp0 : 0 < p := by linarith
  obtain ⟨sc, hV⟩ := km_vals testKMh rfl rfl (fun _ => rfl) (fun _ => rfl) (fun _ => rfl) rfl
  have hH : M.kin.updateH (fun _ => testKMh.hdnInit) (1 / 10) 0 = .ok (fun _ => testKMh.hdnInit, 1) :=
    km_rest testKMh (by norm_num [testKMh]) (by norm_num [testKMh]) (by norm_num [KMBalD.hdnMin, testKMh]) (1 / 10) 24
  have r1 : ∀ s : Fin 24, (testKMh.evalGdot (testVals 24) s τ).gdot = hexF τ := by
    intro s
    obtain ⟨c1, c2, c3⟩ := testKMh_consts (testKMh.iVal s)
    have := testKMh.hex_point rfl rfl rfl rfl rfl rfl (xn := testKMh.xn (testKMh.iVal s))
      (by unfold KMBalD.xn; rw [c1]; norm_num) c2 c3 (τ := τ) (by linarith) (by linarith)
    rw [← c1] at this
    exact this
  have r3 : ∀ s : Fin 24, (testKMh.evalGdot (testVals 24) s 0).gdot = 0 := fun s =>
    (C28_sign testKMh (testVals 24) s (testKMh_adm _) 0).2 (by norm_num [athermal, testKMh, testVals])
  have hk : M.el.kDiag 1 = 3398 / 3000 := by
    show Elast.kDiag (.hexag _ _ _ _ _ _) 1 = _
    norm_num [Elast.kDiag]
  have hEp : 10 * (τ / (3398 / 3000 * p)) + 12 * p * hexF τ = 1 := by
    have e : 10 * (τ / (3398 / 3000 * p)) + 12 * p * hexF τ
        = (10 * (τ / (3398 / 3000)) + 12 * (p * p) * hexF τ) / p := by field_simp
    rw [e, hE, div_self hp0.ne']
  have hG : M.el.getGmod = .ok M.el.kGmod := by
    unfold Elast.getGmod
    rw [if_neg]
    rw [not_le]
    show 0 < Elast.kGmod (.hexag _ _ _ _ _ _)
    simp [Elast.kGmod, Elast.kDiag, vecsssum, Fin.sum_univ_five]
    norm_num
  have hg : ∀ s, (M.kin.evalGdot (testVals 24) s (M.el.kDiag 1 * (τ / (3398 / 3000 * p)) * M.geom.P 1 s)).gdot
      = hcpA s * hexF τ := by
    intro s
    rw [show M.geom.P 1 s = p * hcpA s from hcp_P1 testCA s, hk,
      show 3398 / 3000 * (τ / (3398 / 3000 * p)) * (p * hcpA s) = τ * hcpA s by field_simp]
    have hc : hcpA s = 0 ∨ hcpA s = 1 := by fin_cases s <;> simp [hcpA]
    rcases hc with h | h
    · rw [h, mul_zero, zero_mul]; exact r3 s
    · rw [h, mul_one, one_mul]; exact r1 s
  have hP : ∀ i, ∑ s, M.geom.P i s * (hcpA s * hexF τ)
      = if i = 1 then 1 - 10 * (τ / (3398 / 3000 * p)) else 0 := by
    intro i
    rw [show ∑ s, M.geom.P i s * (hcpA s * hexF τ) = (∑ s, M.geom.P i s * hcpA s) * hexF τ by
        rw [Finset.sum_mul]; exact Finset.sum_congr rfl fun s _ => by ring,
      show ∑ s, M.geom.P i s * hcpA s = _ from hcp_PA testCA i]
    split_ifs <;> linarith
  have hQ : ∀ i, ∑ s, M.geom.Q i s * (hcpA s * hexF τ) = 0 := by
    intro i
    rw [show ∑ s, M.geom.Q i s * (hcpA s * hexF τ) = (∑ s, M.geom.Q i s * hcpA s) * hexF τ by
        rw [Finset.sum_mul]; exact Finset.sum_congr rfl fun s _ => by ring,
      show ∑ s, M.geom.Q i s * hcpA s = _ from hcp_QA testCA i, zero_mul]
  obtain ⟨x, m', h1, h2, h3, h4, h5, h6, -⟩ := test_ok (M := M) rfl hH hV hG hg hP hQ htol T sdd
  refine ⟨_, m', goTo_sound x, h1, ?_, ?_, ?_⟩
  · rw [h2]
    show |τ / (3398 / 3000 * p) - 67661223196391 / 10 ^ 16| < _
    have hq : 0 < 3398 / 3000 * p := by linarith
    rw [abs_lt, lt_sub_iff_add_lt, sub_lt_iff_lt_add, lt_div_iff₀ hq, div_lt_iff₀ hq]
    constructor
    · nlinarith
    · nlinarith
  · rw [h3]
    show |Real.cos (1 / 40) - _| < _
    have := test_cos
    rw [abs_lt] at this ⊢
    constructor <;> linarith
  · rw [h5]
    show |hcpA 12 * hexF τ - _| < _
    rw [show hcpA 12 = 1 by simp [hcpA], one_mul]
    rw [hp, hcpP_sq, ← hp] at hE
    rw [abs_lt]
    constructor <;> linarith

/-- the slip systems of the HCP test exist -/
example : ∃ m s, hcpMS testCA = .ok (m, s) := ⟨_, _, hcpMS_eq (by norm_num [testCA])⟩

/-- the tolerance of the tests, test/setup_base.h:8 -/
example : ∃ X m', X.solver.Sound ∧ getResponseSngl X testMatA (testInp (1 / 10 ^ 10))
    (testMem (fun _ => (testVoce false).hdnInit) 300 0 none) = .ok m' ∧
    MeetsTest m' 1 (9861349707681 / 10 ^ 16) (999687516276 / 10 ^ 12) (2475346625929 / 10 ^ 13) :=
  C77_voce (by norm_num) 300 0

/-- the hypotheses of C77_voce_unique are met by the update of C77_voce -/
example : ∃ X m', X.solver.Sound ∧ getResponseSngl X testMatA (testInp 0)
    (testMem (fun _ => (testVoce false).hdnInit) 300 0 none) = .ok m' ∧
    (histOf m').q = ![Real.cos (1 / 40), 0, 0, Real.sin (1 / 40)] ∧ ∀ i, |(histOf m').gdot i| < 10 ^ 45 := by
  obtain ⟨E, hl, hu, hE⟩ := testVoce_root
  obtain ⟨a, b, c⟩ := testVoce_rate (E := E) (by linarith) (by linarith)
  obtain ⟨X, m', h1, h2, h3, h4, -⟩ := test_cubic (M := testMatA) (K := 5 / 3) rfl rfl fcc_P1 fcc_PA fcc_QA
    testMatA_hard testMatA_vals (fun _ => a) (fun _ => b) (fun _ => c) hE le_rfl 300 0
    (e2 := 9861349707681 / 10 ^ 16) (gd := 2475346625929 / 10 ^ 13) (q1 := 999687516276 / 10 ^ 12)
    (by rw [abs_lt]; constructor <;> linarith)
    (by rw [show (1000 * E) ^ 100 = (1 - 10 * E) / 4 by linarith, abs_lt]; constructor <;> linarith)
    (by rw [abs_lt]; constructor <;> norm_num)
  refine ⟨X, m', h1, h2, h3, fun i => ?_⟩
  rw [h4, show (1000 * E) ^ 100 = (1 - 10 * E) / 4 by linarith]
  rcases fccA_cases i with h | h | h <;> simp only [h] <;> rw [abs_lt] <;> constructor <;> linarith

/-- the expected values of the tests differ between the materials, so no update meets two of them -/
example (m' : Mem 1 12) (h : MeetsTest m' 1 (9861349707681 / 10 ^ 16) (999687516276 / 10 ^ 12) (2475346625929 / 10 ^ 13)) :
    ¬ MeetsTest m' 1 (407276458021 / 10 ^ 14) (999687516276 / 10 ^ 12) (2398180885495 / 10 ^ 13) := by
  intro h'
  have h1 := abs_lt.1 h.strain
  have h2 := abs_lt.1 h'.strain
  linarith [h1.1, h2.2]

end Ecm.Props
