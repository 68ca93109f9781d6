/-
  C97, third part: a setup that fails, and concrete cases for the theorems of C97.
-/
import Verif.Props.DevScript

namespace Ecm.Props
open Ecm Spec Classical

variable {n nH : ℕ}

/-! ### A setup that fails -/

/-- **C97, a failed setup.** After a setup that failed, the object goes on with a problem of which a part belongs to the
    failed call (strain, orientation, deformation rate and spin) and the rest to the last successful one. -/
theorem C97_failed (M : Material n nH) (D : DevProb n nH) (a b : ℝ) (inp : Inputs) (m : Mem nH n) (msg : String)
    (o : DevObj n nH) (h : (holding D a b).setup M inp m = .fail msg o) (x : Vec 8) :
    (¬∃ D', devSetup M inp m = .ok D') ∧ o.hardU = some D.hardU ∧
    ∃ J o', o.computeRJ x = .ok ((block8
      (fun i => D.prob.epsdotScaleInv * Updst.residE { D.prob with
        eN := (histOf m).e, cN := vecsVNormalize (histOf m).q, dSm := svecToVecd inp.d, wSm := inp.w } x i)
      (fun i => D.prob.rotincrScaleInv * Updst.residR { D.prob with
        eN := (histOf m).e, cN := vecsVNormalize (histOf m).q, dSm := svecToVecd inp.d, wSm := inp.w } x i), J), o') := by
  obtain ⟨h1, h2, -, h4⟩ := setup_prob h
  refine ⟨h4, h2, ?_⟩
  unfold DevObj.computeRJ
  rw [h1]
  exact ⟨_, _, rfl⟩

/-- **C97, slip rates after a failed setup.** The slip rates, shear rate and dissipation that an evaluation leaves behind
    for getState are those of the same mixture. -/
theorem C97_failed_rates (M : Material n nH) (D : DevProb n nH) (a b : ℝ) (inp : Inputs) (m : Mem nH n) (msg : String)
    (o o' : DevObj n nH) (h : (holding D a b).setup M inp m = .fail msg o) (x : Vec 8) (r : Vec 8 × Mat 8 8)
    (hr : o.computeRJ x = .ok (r, o')) (Q : Updst n)
    (hQ : Q = { D.prob with
      eN := (histOf m).e, cN := vecsVNormalize (histOf m).q, dSm := svecToVecd inp.d, wSm := inp.w }) :
    ∃ p, o'.prob = some p ∧ p.last = some ⟨Q.gdot x, Q.shrateEff x, Q.disRate x⟩ := by
  obtain ⟨h1, -⟩ := setup_prob h
  unfold DevObj.computeRJ at hr
  rw [h1] at hr
  cases hr
  subst hQ
  exact ⟨_, rfl, rfl⟩

theorem vecsVMTa_inj {A : Mat 3 3} (hA : IsRot A) {u v : Vec 3} (h : vecsVMTa A u = vecsVMTa A v) : u = v := by
  have e : ∀ w : Vec 3, A.mulVec (vecsVMTa A w) = w := by
    intro w
    have : vecsVMTa A w = A.transpose.mulVec w := by
      funext i
      simp [vecsVMTa, Matrix.mulVec, dotProduct]
    rw [this, Matrix.mulVec_mulVec, hA.1, Matrix.one_mulVec]
  rw [← e u, h, e v]

/-- **C97, the residual after a failed setup.** When the arguments of the failed call differ from those of the successful
    one only in the spin (and in the slip rates that made the hardening fail), the residual is at every point another one
    than that of the only problem that was ever set up. -/
theorem C97_refuted_mixture (M : Material n nH) (inp : Inputs) (m : Mem nH n) (D : DevProb n nH)
    (hD : devSetup M inp m = .ok D) (hdt : 0 < inp.dt) (ha : 0 < D.prob.adotsRef) (a b : ℝ) (inp2 : Inputs) (m2 : Mem nH n)
    (he : (histOf m2).e = (histOf m).e) (hq : (histOf m2).q = (histOf m).q) (hd : inp2.d = inp.d) (hw : inp2.w ≠ inp.w)
    (msg : String) (o : DevObj n nH) (h : (holding D a b).setup M inp2 m2 = .fail msg o) (x : Vec 8) :
    ∃ r J o', o.computeRJ x = .ok ((r, J), o') ∧ r ≠ D.prob.resid x := by
  obtain ⟨-, -, J, o', h1⟩ := C97_failed M D a b inp2 m2 msg o h x
  refine ⟨_, J, o', h1, ?_⟩
  obtain ⟨-, -, hDdt, -, -, hs⟩ := devSetup_fields hD
  obtain ⟨kU, v, scale, hq0, hcv, hdt0, hV, hH, hg, hP⟩ := Step.setup_ok hs
  have hPdt : D.prob.dt = inp.dt := by rw [hP]
  have hPe : D.prob.eN = (histOf m).e := by rw [hP]
  have hPc : D.prob.cN = vecsVNormalize (histOf m).q := by rw [hP]; rfl
  have hPd : D.prob.dSm = svecToVecd inp.d := by rw [hP]
  have hPw : D.prob.wSm = inp.w := by rw [hP]
  have hcn : qn D.prob.cN = 1 := by rw [hP]; exact qn_quatN hq0
  have hR := isRot_of_unit (D.prob.qn_cQuat hcn x)
  have hsc := D.prob.rotincrScaleInv_pos (by rw [hPdt]; exact hdt) ha
  rw [he, hq, hd, ← hPe, ← hPc, ← hPd]
  intro hc
  apply hw
  rw [← hPw]
  refine vecsVMTa_inj hR (funext fun i => ?_)
  have hi := congrFun hc (iR i)
  unfold Updst.resid at hi
  rw [block8_iR, block8_iR] at hi
  have hi' := mul_left_cancel₀ hsc.ne' hi
  have hp : 0 < D.prob.dt := by rw [hPdt]; exact hdt
  unfold Updst.residR at hi'
  change Updst.xiF x i - D.prob.dt * (vecsVMTa (D.prob.cMatx x) inp2.w i - vecsVMa D.prob.geom.Q (D.prob.gdot x) i
      + D.prob.eeFac * vecsVMa (m35 (D.prob.eF x)) (D.prob.edot x) i)
    = Updst.xiF x i - D.prob.dt * (vecsVMTa (D.prob.cMatx x) D.prob.wSm i - vecsVMa D.prob.geom.Q (D.prob.gdot x) i
      + D.prob.eeFac * vecsVMa (m35 (D.prob.eF x)) (D.prob.edot x) i) at hi'
  have h3 := mul_left_cancel₀ hp.ne' (sub_right_injective hi')
  show vecsVMTa (D.prob.cMatx x) inp2.w i = vecsVMTa (D.prob.cMatx x) D.prob.wSm i
  linarith

/-! ### Arrays that are not what setup takes them for -/

/-- the elements of a one-dimensional array of length `k` -/
def itemsOf (k : ℕ) (a : PyArr) : Vec k := fun j => item a [j]

theorem raw_of_legal {k : ℕ} {a : PyArr} (hs : a.shape = [k]) (ht : a.strides = [1]) (hv : Valid a) :
    a.raw k = .ok (itemsOf k a) := by
  have hb : ∀ i < k, a.off + i < a.mem.len := by
    intro i hi
    have := (hv.2 [i] (by rw [hs]; exact List.Forall₂.cons hi .nil)).2
    simp [pos, ht] at this
    exact_mod_cast this
  unfold PyArr.raw
  rw [if_neg]
  · congr 1
    funext j
    simp only [PyArr.ptr, itemsOf, item, pos, ht]
    congr 1
    simp
    omega
  · show ¬a.mem.len - a.off < k
    intro hlt
    rcases Nat.eq_zero_or_pos k with rfl | hk
    · omega
    · have := hb (k - 1) (by omega)
      omega

/-- the arrays have the lengths that setup assumes and lie in memory element by element -/
structure FitArrs (nHist : ℕ) (a : DevArrs) : Prop where
  d : a.d.shape = [7] ∧ a.d.strides = [1] ∧ Valid a.d
  w : a.w.shape = [3] ∧ a.w.strides = [1] ∧ Valid a.w
  vr : a.vr.shape = [4] ∧ a.vr.strides = [1] ∧ Valid a.vr
  eInt : a.eInt.shape = [1] ∧ a.eInt.strides = [1] ∧ Valid a.eInt
  stress : a.stress.shape = [7] ∧ a.stress.strides = [1] ∧ Valid a.stress
  hist : a.hist.shape = [nHist] ∧ a.hist.strides = [1] ∧ Valid a.hist

/-- **C97, arrays.** With contiguous arrays of the right lengths, setup works with their elements. -/
theorem C97_arrays (M : Material n nH) (o : DevObj n nH) (dt tol tkelv : ℝ) (a : DevArrs) (h : FitArrs (numHist nH n) a) :
    o.setupPy M dt tol a tkelv = o.setup M
      { dt := dt, tol := tol, d := itemsOf 7 a.d, w := itemsOf 3 a.w, vr := itemsOf 4 a.vr }
      { eInt := item a.eInt [0], stress := itemsOf 7 a.stress, hist := itemsOf _ a.hist, tkelv := tkelv, sdd := 0
        mtan := none } := by
  unfold DevObj.setupPy
  rw [raw_of_legal h.d.1 h.d.2.1 h.d.2.2, raw_of_legal h.w.1 h.w.2.1 h.w.2.2, raw_of_legal h.vr.1 h.vr.2.1 h.vr.2.2,
    raw_of_legal h.eInt.1 h.eInt.2.1 h.eInt.2.2, raw_of_legal h.stress.1 h.stress.2.1 h.stress.2.2,
    raw_of_legal h.hist.1 h.hist.2.1 h.hist.2.2]
  rfl

/-- **C97, short arrays.** A history array that is too short (as for a model with fewer slip systems) is not refused: setup
    reads beyond its end. -/
theorem C97_refuted_short (M : Material n nH) (o : DevObj n nH) (dt tol tkelv : ℝ) (a : DevArrs)
    (h : a.hist.mem.len < numHist nH n) : ∃ w, o.setupPy M dt tol a tkelv = .undef w := by
  have hr : a.hist.raw (numHist nH n) = .undef "read beyond the end of an array" := by
    unfold PyArr.raw
    exact if_pos (lt_of_le_of_lt (Nat.sub_le _ _) h)
  unfold DevObj.setupPy
  rw [hr]
  split
  · rename_i h6
    cases h6
  · exact ⟨_, rfl⟩

/-- **C97, strided arrays.** For a column of a larger array (every second element, say) setup works with the elements that
    come first in memory, not with those of the array: the spin taken is not the one given. -/
theorem C97_refuted_strided (M : Material n nH) (o : DevObj n nH) (dt tol tkelv : ℝ) (a : DevArrs)
    (h : FitArrs (numHist nH n) a) (u v : Vec 3) :
    ∃ b : PyArr, b.shape = [3] ∧ Valid b ∧ itemsOf 3 b = ![u 0, u 1, u 2] ∧
      o.setupPy M dt tol { a with w := b } tkelv = o.setup M
        { dt := dt, tol := tol, d := itemsOf 7 a.d, w := ![u 0, v 0, u 1], vr := itemsOf 4 a.vr }
        { eInt := item a.eInt [0], stress := itemsOf 7 a.stress, hist := itemsOf _ a.hist, tkelv := tkelv, sdd := 0
          mtan := none } := by
  refine ⟨{ shape := [3], strides := [2], off := 0
            mem := { len := 6, val := fun k => [u 0, v 0, u 1, v 1, u 2, v 2].getD k 0 } }, rfl, ⟨rfl, ?_⟩, ?_, ?_⟩
  · intro idx h
    obtain ⟨i, rfl, hi⟩ := forall2_one h
    simp [pos]
    omega
  · funext j
    fin_cases j <;> simp [itemsOf, item, pos]
  · unfold DevObj.setupPy
    rw [raw_of_legal h.d.1 h.d.2.1 h.d.2.2, raw_of_legal h.vr.1 h.vr.2.1 h.vr.2.2,
      raw_of_legal h.eInt.1 h.eInt.2.1 h.eInt.2.2, raw_of_legal h.stress.1 h.stress.2.1 h.stress.2.2,
      raw_of_legal h.hist.1 h.hist.2.1 h.hist.2.2]
    have hw : PyArr.raw 3 { shape := [3], strides := [2], off := 0
                            mem := { len := 6, val := fun k => [u 0, v 0, u 1, v 1, u 2, v 2].getD k 0 } }
        = .ok ![u 0, v 0, u 1] := by
      unfold PyArr.raw
      rw [if_neg (by simp [PyArr.ptr])]
      congr 1
      funext j
      fin_cases j <;> simp [PyArr.ptr]
    simp only [hw]
    rfl

/-! ### Concrete cases -/

/-- a setup of the script's material that succeeds -/
theorem script_setup (S : Solver 1) (hS : Finds S) : ∃ D, devSetup (scriptMat S) (scriptInp 1) scriptStart = .ok D := by
  obtain ⟨hgo, hok⟩ := runOf_ok S hS (fun _ _ x0 => (x0, x0)) 0 (by norm_num)
  have h := hok (by norm_num)
  simp only [Nat.cast_zero, zero_div, Real.exp_zero] at h
  obtain ⟨D, _, h1, _⟩ := C60_state _ _ _ _ _ h
  exact ⟨D, h1⟩

theorem script_state (S : Solver 1) (D : DevProb 12 1) (xl x : Vec 8) (v : Mem 1 12) :
    ∃ r, devGetState (scriptMat S).el D xl x v.hist = .ok r := by
  have hg : (scriptMat S).el.getGmod = .ok (Elast.cubic 168.4 121.4 75.2).kGmod := if_neg (by
    show ¬(Elast.cubic 168.4 121.4 75.2).kGmod ≤ 0
    unfold Elast.kGmod
    norm_num)
  unfold devGetState
  rw [hg]
  exact ⟨_, rfl⟩

theorem protocol_runs {M : Material n nH} {inp : Inputs} {m : Mem nH n} {D : DevProb n nH}
    (hD : devSetup M inp m = .ok D) (xs : List (Vec 8)) (xl : Vec 8) (o : DevObj n nH) :
    DevObj.calls M (.setup inp m :: (xs ++ [xl]).map .computeRJ) o = .ok (evald D xl o.eDevTot o.halfVMidDt) := by
  have hs := (C97_setup M o _ inp m).2 ⟨D, hD, rfl⟩
  simp only [DevObj.calls, DevObj.call, hs, Out.bind]
  cases xs with
  | nil => simp only [List.nil_append, List.map_cons, List.map_nil, DevObj.calls, DevObj.call, holding_rj, Out.bind]
  | cons y ys =>
    simp only [List.cons_append, List.map_cons, DevObj.calls, DevObj.call, holding_rj, Out.bind]
    exact calls_rj _ _ _ _ _ _ _

/-- the hypotheses of the theorems about the protocol can be met, with other calls before (C97_residual, C97_results,
    C97_batch, C97_refuted_energy, C97_refuted_work, C97_refuted_twice, C97_last) -/
example (xs : List (Vec 8)) (xl x : Vec 8) (a b : ℝ) : ∃ (D : DevProb 12 1) (o : DevObj 12 1) (r : DevOut 1 12),
    devSetup (scriptMat (idealSolver 1)) (scriptInp 1) scriptStart = .ok D ∧
    DevObj.calls (scriptMat (idealSolver 1)) ([.setup (scriptInp 1) scriptStart, .computeRJ x, .getState x scriptStart] ++
      .setup (scriptInp 1) scriptStart :: (xs ++ [xl]).map .computeRJ) (DevObj.new a b) = .ok o ∧
    devGetState (scriptMat (idealSolver 1)).el D xl x scriptStart.hist = .ok r := by
  obtain ⟨D, hD⟩ := script_setup _ (idealSolver_finds 1)
  obtain ⟨r, hr⟩ := script_state (idealSolver 1) D xl x scriptStart
  obtain ⟨r', hr'⟩ := script_state (idealSolver 1) D x x scriptStart
  have hg := evald_getState (scriptMat (idealSolver 1)).el D (devSetup_fields hD).1 x x a b scriptStart r' hr'
  have h1 := protocol_runs hD [] x (DevObj.new a b)
  have h2 : ∃ o, DevObj.calls (scriptMat (idealSolver 1)) [.setup (scriptInp 1) scriptStart, .computeRJ x,
      .getState x scriptStart] (DevObj.new a b) = .ok o := by
    change ∃ o, DevObj.calls _ ((.setup (scriptInp 1) scriptStart :: ([] ++ [x]).map .computeRJ) ++
      [.getState x scriptStart]) _ = .ok o
    rw [calls_append, h1]
    have hg' : (evald D x (DevObj.new (n := 12) (nH := 1) a b).eDevTot (DevObj.new (n := 12) (nH := 1) a b).halfVMidDt).getState
      (scriptMat (idealSolver 1)).el x scriptStart = _ := hg
    simp only [Out.bind, DevObj.calls, DevObj.call, hg']
    exact ⟨_, rfl⟩
  obtain ⟨o, h2⟩ := h2
  have h3 := protocol_runs hD xs xl o
  refine ⟨D, evald D xl o.eDevTot o.halfVMidDt, r, hD, ?_, hr⟩
  rw [calls_append, h2]
  exact h3

/-- a solver that looks at its starting point and no further -/
noncomputable def lazySolver : Solver 1 := fun P tol _ x0 =>
  { converged := decide (∃ r J, P x0 = some (r, J) ∧ vecNorm r ≤ tol), x := x0, xLast := x0, nFEvals := 1 }

theorem lazySolver_sound : lazySolver.Sound := by
  intro P tol k x0 h
  exact ⟨by simpa [lazySolver] using h, rfl⟩

/-- the variables of the script with slip rates from an earlier step -/
noncomputable def slippedStart : Mem 1 12 where
  eInt := 0
  stress := 0
  hist := ({ shrateEff := 0, shrEff := 0, flowStr := 0, nFEval := 0, e := 0, q := ![1, 0, 0, 0], h := fun _ => 17e-3
             gdot := fun _ => 1 } : Hist 1 12).toArray
  tkelv := 300
  sdd := 0
  mtan := none

/-- the inputs of the script with a spin -/
noncomputable def spunInp : Inputs := { scriptInp 1 with w := ![1, 0, 0] }

theorem hist_script : histOf scriptStart = { shrateEff := 0, shrEff := 0, flowStr := 0, nFEval := 0, e := 0
                                             q := ![1, 0, 0, 0], h := fun _ => 17e-3, gdot := 0 } := Hist.ofArray_toArray _

theorem hist_slipped : histOf slippedStart = { shrateEff := 0, shrEff := 0, flowStr := 0, nFEval := 0, e := 0
                                               q := ![1, 0, 0, 0], h := fun _ => 17e-3, gdot := fun _ => 1 } :=
  Hist.ofArray_toArray _

theorem lazy_rest : copperVoce.updateH lazySolver (fun _ => 17e-3) (1 / 10) (0 : Vec 12) = .ok (fun _ => 17e-3, 1) := by
  unfold Voce.updateH
  rw [if_neg (by norm_num [copperVoce])]
  have h0 : vecsssumabs (0 : Vec 12) = 0 := by simp [vecsssumabs]
  unfold updateH1 lazySolver
  simp only
  rw [if_pos]
  · simp [Out.bind, H1Problem.getHn]
  · rw [decide_eq_true_iff]
    refine ⟨fun _ => 0, fun _ _ => 1, ?_, by simp [vecNorm]⟩
    simp [H1Problem.problem, H1Problem.computeRJ, Voce.getSdot1, Voce.getEvolVals, h0, copperVoce]

theorem lazy_fails : copperVoce.updateH lazySolver (fun _ => 17e-3) (1 / 10) (fun _ : Fin 12 => 1)
    = .fail "Solver failed to converge!" := by
  unfold Voce.updateH
  rw [if_neg (by norm_num [copperVoce])]
  have h0 : vecsssumabs (fun _ : Fin 12 => (1 : ℝ)) = 12 := by simp [vecsssumabs]
  have h1 : idpTinySqrt < 12 := by unfold idpTinySqrt; norm_num
  unfold updateH1 lazySolver
  simp only
  rw [if_neg]
  · rfl
  · rw [decide_eq_true_iff]
    rintro ⟨r, J, h, hr⟩
    have hr0 : r 0 = -(12 / 25) := by
      simp [H1Problem.problem, H1Problem.computeRJ, Voce.getSdot1, Voce.getEvolVals, h0, h1, copperVoce, H1Problem.xScale,
        H1Problem.resScale] at h
      have h2 := congrFun (congrArg Prod.fst h) 0
      norm_num at h2
      rw [← h2]
    have h3 : |r 0| ≤ vecNorm r := Real.abs_le_sqrt (by simp [pow_two])
    have := h3.trans hr
    rw [hr0] at this
    norm_num at this

/-- the hypotheses of C97_failed and C97_refuted_mixture can be met -/
example (a b : ℝ) : ∃ (D : DevProb 12 1) (msg : String) (o : DevObj 12 1),
    devSetup (scriptMat lazySolver) (scriptInp 1) scriptStart = .ok D ∧ 0 < (scriptInp 1).dt ∧ 0 < D.prob.adotsRef ∧
    (histOf slippedStart).e = (histOf scriptStart).e ∧ (histOf slippedStart).q = (histOf scriptStart).q ∧
    spunInp.d = (scriptInp 1).d ∧ spunInp.w ≠ (scriptInp 1).w ∧
    (holding D a b).setup (scriptMat lazySolver) spunInp slippedStart = .fail msg o := by
  have hvr : 0 < (scriptInp 1).vr 1 := mul_pos one_pos (Real.exp_pos _)
  have hq : (Hist.ofArray scriptStart.hist).q ≠ 0 := by
    change (histOf scriptStart).q ≠ 0
    rw [hist_script]
    exact fun h => by simpa using congrFun h 0
  have hset := Step.setup_eq_ok (M := scriptMat lazySolver) (inp := scriptInp 1) (m := scriptStart) (hU := fun _ => 17e-3)
    (kU := 1) (v := (17e-3 : ℝ)) (scale := 17e-3) hq (by norm_num [scriptMat]) (by norm_num [scriptInp]) hvr
    (by
      change copperVoce.updateH lazySolver (histOf scriptStart).h (1 / 10) (histOf scriptStart).gdot = _
      rw [hist_script]
      exact lazy_rest)
    (if_pos (by norm_num))
  have hD : ∃ D, devSetup (scriptMat lazySolver) (scriptInp 1) scriptStart = .ok D := by
    rw [C60_problem, hset]
    exact ⟨_, rfl⟩
  obtain ⟨D, hD⟩ := hD
  have hs := (devSetup_fields hD).2.2.2.2.2
  rw [hset] at hs
  have hP := (Prod.ext_iff.1 (Out.ok.inj hs)).2
  have hf : ∃ o, (holding D a b).setup (scriptMat lazySolver) spunInp slippedStart = .fail "Solver failed to converge!" o := by
    have hU : (scriptMat lazySolver).kin.updateH (Hist.ofArray slippedStart.hist).h spunInp.dt
        (Hist.ofArray slippedStart.hist).gdot = .fail "Solver failed to converge!" := by
      change copperVoce.updateH lazySolver (histOf slippedStart).h (1 / 10) (histOf slippedStart).gdot = _
      rw [hist_slipped]
      exact lazy_fails
    have hq2 : (Hist.ofArray slippedStart.hist).q ≠ 0 := by
      change (histOf slippedStart).q ≠ 0
      rw [hist_slipped]
      exact fun h => by simpa using congrFun h 0
    have hc : (scriptMat lazySolver).eos.cvav ≠ 0 := by norm_num [scriptMat]
    unfold DevObj.setup
    simp only [if_neg hq2, if_neg hc, hU]
    exact ⟨_, rfl⟩
  obtain ⟨o, hf⟩ := hf
  refine ⟨D, _, o, hD, by norm_num [scriptInp], ?_, by rw [hist_slipped, hist_script],
    by rw [hist_slipped, hist_script], rfl, fun h => by simpa [spunInp, scriptInp] using congrFun h 0, hf⟩
  change 0 < (D.hardU, D.prob).2.adotsRef
  rw [← hP]
  exact one_pos

/-- the hypotheses of C97_solve, C97_refuted_other and C97_refuted_stale can be met -/
example : ∃ D, devSetup (scriptMat (idealSolver 1)) (scriptInp 1) scriptStart = .ok D :=
  script_setup _ (idealSolver_finds 1)

/-- the hypotheses of C97_script can be met -/
example (a b : ℝ) : ∃ (R : Root) (out : List ℝ), devScript (idealSolver 1) R a b = .ok out ∧
    pyScript (idealSolver 1) ⟨idealSolver 8, fun _ B => some B, 1⟩ = .ok out := by
  obtain ⟨out, h, -⟩ := C86_script_runs _ (idealSolver_finds 1) ⟨idealSolver 8, fun _ B => some B, 1⟩ (idealSolver_finds 8)
    fun _ _ => rfl
  exact ⟨fun P tol x0 => ((idealSolver 8 P tol 200 x0).x, (idealSolver 8 P tol 200 x0).xLast), out,
    C97_script _ _ _ (fun _ => rfl) out h a b, h⟩

/-- the hypotheses of C97_refuted_unchecked and C97_refuted_idle can be met -/
example (a b : ℝ) : devScript (idealSolver 1) (fun _ _ x0 => (x0, x0)) a b = .ok (List.replicate 41 0) :=
  C97_refuted_idle _ (idealSolver_finds 1) a b

/-- a one-dimensional array of `k` numbers `v` -/
def constArr (k : ℕ) (v : ℝ) : PyArr where
  shape := [k]
  strides := [1]
  mem := { len := k, val := fun _ => v }
  off := 0

theorem constArr_valid (k : ℕ) (v : ℝ) : Valid (constArr k v) := by
  refine ⟨rfl, ?_⟩
  intro idx h
  obtain ⟨i, rfl, hi⟩ := forall2_one h
  simp [pos, constArr]
  omega

/-- the hypotheses of C97_arrays, C97_refuted_strided and C97_refuted_short can be met -/
example : FitArrs 26 { d := constArr 7 0, w := constArr 3 0, vr := constArr 4 1, eInt := constArr 1 0
                       stress := constArr 7 0, hist := constArr 26 1 } ∧
    (constArr 20 1).mem.len < numHist 1 12 :=
  ⟨⟨⟨rfl, rfl, constArr_valid _ _⟩, ⟨rfl, rfl, constArr_valid _ _⟩, ⟨rfl, rfl, constArr_valid _ _⟩,
    ⟨rfl, rfl, constArr_valid _ _⟩, ⟨rfl, rfl, constArr_valid _ _⟩, ⟨rfl, rfl, constArr_valid _ _⟩⟩,
    by norm_num [constArr, numHist]⟩

end Ecm.Props
