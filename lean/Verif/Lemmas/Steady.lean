/- Histories of every length and every step length of a crystal that flows steadily at the saturation
   strength, used to show that hypotheses can be met. -/
import Verif.Lemmas.LongRun
import Verif.Props.Stability

namespace Ecm
open Spec Props

/-- elastic strain of the steady flow -/
noncomputable def flowE : Vec 5 := ![1 / 10, 0, 0, 0, 0]

/-- resolved shear stresses of the steady flow -/
noncomputable def flowTau (i : Fin 12) : ℝ := 1 / 5 * (sqr2i * (fccS i 0 * fccM i 0 - fccS i 1 * fccM i 1))

/-- slip rates of the steady flow: power law with unit exponent at strength two -/
noncomputable def flowRate (i : Fin 12) : ℝ := flowTau i / 2

/-- velocity gradient of the steady flow -/
noncomputable def flowL : T3 := slipGrad flowRate fccS fccM

/-- inputs of a step of length `dt` -/
noncomputable def flowInp (dt : ℝ) : Inputs where
  dt := dt
  tol := 1 / 10 ^ 10
  d := svecP (sym flowL)
  w := axial flowL
  vr := ![1, 1, 0, 0]

/-- memory of a crystal in steady flow -/
structure FlowInv (m : Mem 1 12) : Prop where
  e : (histOf m).e = flowE
  q : (histOf m).q = ![1, 0, 0, 0]
  h : (histOf m).h = fun _ => 2
  gdot : (histOf m).gdot = flowRate
  mtan : m.mtan = none

theorem flowTau_cases (i : Fin 12) : flowTau i = 0 ∨ (1 / 100 ≤ |flowTau i| ∧ |flowTau i| ≤ 1) := by
  have h2 := sqr2i_sq
  have h3 := sqr3i_sq
  have p2 : 0 < sqr2i := by unfold sqr2i; positivity
  have p3 : 0 < sqr3i := by unfold sqr3i; positivity
  have b3 : 1 / 2 ≤ sqr3i := by nlinarith
  have b3' : sqr3i ≤ 1 := by nlinarith
  have key : ∀ c : ℝ, |c| = 1 ∨ |c| = 2 → flowTau i = c * (1 / 10 * sqr3i) →
      (1 / 100 ≤ |flowTau i| ∧ |flowTau i| ≤ 1) := by
    intro c hc e
    rw [e, abs_mul, abs_of_pos (by positivity : 0 < 1 / 10 * sqr3i)]
    rcases hc with h | h <;> rw [h] <;> constructor <;> linarith
  have hf : ∃ c : ℝ, (c = 0 ∨ |c| = 1 ∨ |c| = 2) ∧ flowTau i = c * (1 / 10 * sqr3i) := by
    fin_cases i
    · exact ⟨-1, by norm_num, by simp [flowTau, fccS, fccM]; nlinarith⟩
    · exact ⟨-1, by norm_num, by simp [flowTau, fccS, fccM]; nlinarith⟩
    · exact ⟨2, by norm_num, by simp [flowTau, fccS, fccM]; nlinarith⟩
    · exact ⟨1, by norm_num, by simp [flowTau, fccS, fccM]; nlinarith⟩
    · exact ⟨1, by norm_num, by simp [flowTau, fccS, fccM]; nlinarith⟩
    · exact ⟨-2, by norm_num, by simp [flowTau, fccS, fccM]; nlinarith⟩
    · exact ⟨-1, by norm_num, by simp [flowTau, fccS, fccM]; nlinarith⟩
    · exact ⟨-1, by norm_num, by simp [flowTau, fccS, fccM]; nlinarith⟩
    · exact ⟨2, by norm_num, by simp [flowTau, fccS, fccM]; nlinarith⟩
    · exact ⟨1, by norm_num, by simp [flowTau, fccS, fccM]; nlinarith⟩
    · exact ⟨1, by norm_num, by simp [flowTau, fccS, fccM]; nlinarith⟩
    · exact ⟨-2, by norm_num, by simp [flowTau, fccS, fccM]; nlinarith⟩
  obtain ⟨c, hc, e⟩ := hf
  rcases hc with h | h
  · left; rw [e, h, zero_mul]
  · right; exact key c h e

/-- the slip rates of the code at these stresses -/
theorem flow_gdot (i : Fin 12) : (voceExample.evalGdot 2 (flowTau i)).gdot = flowRate i := by
  rcases flowTau_cases i with h | ⟨h1, h2⟩
  · rw [(C24_sign voceExample (by norm_num [voceExample]) (by norm_num [voceExample]) 2 _ two_pos).1.2]
    · rw [flowRate, h, zero_div]
    · rw [h]; simp [voceExample]
  · rw [C24_value voceExample 2 _ two_pos (by
      simp only [voceExample, Real.rpow_one]
      have : (1:ℝ) / 10 ^ 60 < 1 / 100 / 2 := by norm_num
      linarith) (by
      simp only [voceExample, Real.rpow_one]
      have : (1:ℝ) / 2 ≤ 10 ^ 60 := by norm_num
      linarith)]
    simp only [voceExample, div_one, Real.rpow_one, one_mul, flowRate]
    have : flowTau i ≠ 0 := by
      intro h0; rw [h0, abs_zero] at h1; norm_num at h1
    rcases lt_or_gt_of_ne this with h | h
    · rw [if_neg (not_lt.2 h.le), abs_of_neg h]; ring
    · rw [if_pos h, abs_of_pos h]; ring

/-- at the saturation strength the hardening update keeps the strength -/
theorem flow_updateH (dt : ℝ) (γ : Vec 12) :
    (exMat exEl).kin.updateH (fun _ => 2) dt γ = .ok ((fun _ => 2), 1) := by
  have hev : (voceExample.getEvolVals γ).2 = 2 := by
    unfold Voce.getEvolVals
    simp only
    split_ifs <;> simp [voceExample]
  have hlaw : ∃ d, voceExample.getSdot1 (voceExample.getEvolVals γ) 2 = some (0, d) := by
    simp [Voce.getSdot1, voceExample]
    have := hev
    simp only [voceExample] at this
    simp [this]
  show voceExample.updateH (probe 1) (fun _ => 2) dt γ = _
  unfold Voce.updateH
  rw [if_neg (by norm_num [voceExample])]
  obtain ⟨d, hd⟩ := hlaw
  have hp : ∃ J, ({ law := voceExample.getSdot1 (voceExample.getEvolVals γ), hO := 2, dt := dt } : H1Problem).problem
      (fun _ => 0) = some ((0 : Vec 1), J) := by
    unfold H1Problem.problem
    rw [H1Problem.computeRJ_some (s := 0) (d := d)]
    · simp only [Option.map_some]
      refine ⟨_, congrArg some (Prod.ext ?_ rfl)⟩
      funext i
      simp
    · simp only [zero_mul, add_zero]
      exact hd
  obtain ⟨J, hJ⟩ := hp
  simp only [updateH1, probe_zero hJ (by norm_num : (0 : ℝ) ≤ 1 / 10 ^ 10), Out.bind, if_true,
    H1Problem.getHn, zero_mul, add_zero]

theorem quatToTensor_one : quatToTensor ![1, 0, 0, 0] = 1 := by
  ext i j; fin_cases i <;> fin_cases j <;> simp [quatToTensor]

/-- a step of any length keeps the steady flow -/
theorem flow_step (dt : ℝ) (hdt : 0 < dt) (m : Mem 1 12) (hm : FlowInv m) :
    ∃ m', getResponseSngl exExt (exMat exEl) (flowInp dt) m = .ok m' ∧ FlowInv m' := by
  have hq1 : vecNorm (![1, 0, 0, 0] : Vec 4) = 1 := by
    simp [vecNorm, Fin.sum_univ_four]
  have hqn : Step.quatN m = ![1, 0, 0, 0] := by
    unfold Step.quatN vecsVNormalize
    show vecsVsa (histOf m).q (1 / vecNorm (histOf m).q) = _
    rw [hm.q, hq1]
    ext i; fin_cases i <;> simp [vecsVsa]
  let P : Updst 12 :=
    { geom := slipPQ fccM fccS, el := exEl, gd := fun _ τ => voceExample.evalGdot 2 τ
      adotsRef := 1, hdnScale := 2, dt := dt, detV := 1
      eVref := (Step.eosUpdate (exMat exEl) (flowInp dt) m).eNew
      pEos := (Step.eosUpdate (exMat exEl) (flowInp dt) m).press
      tK := Step.tK (exMat exEl) (flowInp dt) m, eN := flowE, cN := ![1, 0, 0, 0]
      dSm := symmToVecd (dev (sym flowL)), wSm := axial flowL }
  have hset : Step.setup (exMat exEl) (flowInp dt) m = .ok ((fun _ => 2), P) := by
    have := Step.setup_eq_ok (M := exMat exEl) (inp := flowInp dt) (m := m) (hU := fun _ => 2) (kU := 1)
      (v := (2 : ℝ)) (scale := 2) (by
        show (histOf m).q ≠ 0
        rw [hm.q]; intro h; have := congrFun h 0; simp at this) (by norm_num [exMat]) hdt.ne'
      (by norm_num [flowInp]) (by
        show (exMat exEl).kin.updateH (histOf m).h dt (histOf m).gdot = _
        rw [hm.h]; exact flow_updateH dt _) (by
        show (if (0 : ℝ) < 2 then (Out.ok ((2 : ℝ), (2 : ℝ)) : Out (ℝ × ℝ)) else _) = _
        rw [if_pos two_pos]
        rfl)
    have hd : svecToVecd (flowInp dt).d = symmToVecd (dev (sym flowL)) := by
      rw [symmToVecd_dev]
      exact (C01_tensor_round_trip _ (sym_isSymm _)).2.2.2
    have he : (Hist.ofArray m.hist).e = flowE := hm.e
    rw [this, hd, hqn, he]
    rfl
  have haV : P.aVri = 1 := by
    show 1 / ((1 : ℝ) ^ (1 / 3 : ℝ)) = 1
    rw [Real.one_rpow, div_one]
  have hτ : ∀ i, P.taua 0 i = flowTau i := fun i => by
    have he : P.eF 0 = flowE := P.eF_zero
    rw [P.taua_cubic (c11 := 3) (c12 := 1) (c44 := 1) rfl, he, haV, one_mul]
    simp [Fin.sum_univ_five, flowE, P, exEl, Elast.kDiag, slipPQ, matToP, vecsMaTb, symmToVecd,
      vecsMsymm, flowTau]
    ring
  have hgd : P.gdot 0 = flowRate := by
    funext i
    show (voceExample.evalGdot 2 (P.taua 0 i)).gdot = _
    rw [hτ, flow_gdot]
  obtain ⟨hstat, he, hq⟩ := C59_stationary P fccM fccS rfl (by simp [P, dot, Fin.sum_univ_four]) hdt one_pos
    flowRate (fun i => by
      show _ = (voceExample.evalGdot 2 (P.taua 0 i)).gdot
      rw [hτ, flow_gdot]) flowL (by
      show flowL = ∑ i, flowRate i • dyad ((quatToTensor ![1, 0, 0, 0]).mulVec (fccS i)) ((quatToTensor ![1, 0, 0, 0]).mulVec (fccM i))
      rw [quatToTensor_one]
      simp [flowL, slipGrad])
  have hres : P.resid 0 = 0 := hstat.2 ⟨rfl, rfl⟩
  have hsol : Step.solve exExt (flowInp dt) P = { converged := true, x := 0, xLast := 0, nFEvals := 1 } := by
    show probe 8 P.problem (flowInp dt).tol 200 0 = _
    refine probe_zero (J := P.jac 0) ?_ (by norm_num [flowInp]) 200
    show some (P.resid 0, _) = some _
    rw [hres]
  have hgm : (exMat exEl).el.getGmod = .ok exEl.kGmod := by
    show exEl.getGmod = _
    unfold Elast.getGmod
    rw [if_neg (not_le.2 exEl_pos)]
  have hok : ∃ m', getResponseSngl exExt (exMat exEl) (flowInp dt) m = .ok m' ∧ m'.mtan = none ∧
      m'.hist = (Step.newHist exExt (flowInp dt) (histOf m) (fun _ => 2) P
        { converged := true, x := 0, xLast := 0, nFEvals := 1 } false).toArray := by
    unfold getResponseSngl
    rw [hset]
    simp only [Step.run, hsol, hgm, hm.mtan]
    exact ⟨_, rfl, rfl, rfl⟩
  obtain ⟨m', h1, h2, h3⟩ := hok
  have h4 : histOf m' = Step.newHist exExt (flowInp dt) (histOf m) (fun _ => 2) P
        { converged := true, x := 0, xLast := 0, nFEvals := 1 } false := by
    unfold histOf; rw [h3, Hist.ofArray_toArray]
  refine ⟨m', h1, ⟨?_, ?_, ?_, ?_, h2⟩⟩
  · rw [h4]; exact he
  · rw [h4]
    show Step.flipQuat (P.cQuat 0) P.cN = _
    rw [hq]
    unfold Step.flipQuat
    rw [if_neg (by simp [P, vecsyadotb, Fin.sum_univ_four])]
  · rw [h4]; rfl
  · rw [h4]; exact hgd

/-- history at the start -/
noncomputable def flowHist : Hist 1 12 where
  shrateEff := 0
  shrEff := 0
  flowStr := 0
  nFEval := 0
  e := flowE
  q := ![1, 0, 0, 0]
  h := fun _ => 2
  gdot := flowRate

/-- memory at the start -/
noncomputable def flowMem : Mem 1 12 where
  eInt := 4
  stress := ![1, 1, -2, 0, 3, 0, 3]
  hist := flowHist.toArray
  tkelv := 17
  sdd := ![19, 23]
  mtan := none

theorem flowMem_inv : FlowInv flowMem := by
  have h : histOf flowMem = flowHist := Hist.ofArray_toArray _
  refine ⟨?_, ?_, ?_, ?_, rfl⟩ <;> rw [h] <;> rfl

/-- the memory before step `k` -/
noncomputable def flowState (dt : ℝ) (hdt : 0 < dt) : ℕ → { m : Mem 1 12 // FlowInv m }
  | 0 => ⟨flowMem, flowMem_inv⟩
  | k + 1 => ⟨(flow_step dt hdt _ (flowState dt hdt k).2).choose,
      (flow_step dt hdt _ (flowState dt hdt k).2).choose_spec.2⟩

/-- `N` steps of length `dt` -/
noncomputable def flowTraj (dt : ℝ) (hdt : 0 < dt) (N : ℕ) : Trajectory (exMat exEl) N where
  X := fun _ => exExt
  inp := fun _ => flowInp dt
  m := fun k => (flowState dt hdt k).1
  m' := fun k => (flowState dt hdt (k + 1)).1
  ok := fun k _ => (flow_step dt hdt _ (flowState dt hdt k).2).choose_spec.1
  link := fun _ _ => rfl

end Ecm
