/-
  C50, C51: the example driver.
-/
import Verif.Lemmas.Miniapp
import Verif.Lemmas.Example
import Verif.SpecApi

namespace Ecm.Props
open Ecm Ecm.Spec Classical

variable {n nH : ℕ}

/-! ### C50: kinematics and stress -/

/-- **C50.** The seven numbers and the spin passed to the library are the documented ones (deviatoric
    part of the symmetric part, trace, axial vector of the skew part), and together they give back the
    velocity gradient. -/
theorem C50_kinematics (L : T3) :
    devOfSvecP (drvRate L) = dev (sym L) ∧ drvRate L 6 = L.trace ∧ drvSpin L = axial L ∧
    crossMat (drvSpin L) = skw L ∧
    devOfSvecP (drvRate L) + (drvRate L 6 / 3) • (1 : T3) + crossMat (drvSpin L) = L := by
  have h1 : devOfSvecP (drvRate L) = dev (sym L) := by
    ext i j
    fin_cases i <;> fin_cases j <;>
      simp [devOfSvecP, drvRate, dev, sym, Matrix.trace, Fin.sum_univ_three] <;> ring
  have h2 : drvRate L 6 = L.trace := by
    simp [drvRate, Matrix.trace, Fin.sum_univ_three]
  have h3 : drvSpin L = axial L := by
    ext i
    fin_cases i <;> simp [drvSpin, axial] <;> ring
  have h4 : crossMat (drvSpin L) = skw L := by
    ext i j
    fin_cases i <;> fin_cases j <;> simp [crossMat, drvSpin, skw] <;>
      first
      | exact Or.inl (by norm_num)
      | ring
  refine ⟨h1, h2, h3, h4, ?_⟩
  rw [h1, h2, h4]
  ext i j
  fin_cases i <;> fin_cases j <;>
    simp [dev, sym, skw, Matrix.trace, Fin.sum_univ_three] <;> ring

/-- **C50.** The volume ratios passed to the library are the documented ones; the new volume is what
    the constant volumetric rate makes of the old one during the time step, and stays positive. -/
theorem C50_volume (dt rate vol : ℝ) (hdt : dt ≠ 0) (hv : 0 < vol) :
    ∃ vr, drvVol dt rate vol = .ok vr ∧ vr 0 = vol ∧ 0 < vr 1 ∧ vr 3 = vr 1 - vr 0 ∧
      vr 2 = vr 3 / (dt * (1 / 2) * (vr 1 + vr 0)) ∧
      ∃ v : ℝ → ℝ, v 0 = vr 0 ∧ v dt = vr 1 ∧ ∀ t, HasDerivAt v (rate * v t) t := by
  have hE := Real.exp_pos (rate * dt)
  have hd : ¬ dt * 0.5 * (vol + vol * Real.exp (rate * dt)) = 0 := by
    have : 0 < vol + vol * Real.exp (rate * dt) := by positivity
    have h5 : (0.5 : ℝ) ≠ 0 := by norm_num
    exact mul_ne_zero (mul_ne_zero hdt h5) this.ne'
  refine ⟨_, by simp only [drvVol]; rw [if_neg hd], by simp, ?_, by simp, ?_, ?_⟩
  · simp; positivity
  · simp only [Matrix.cons_val_zero, Matrix.cons_val_one, Matrix.cons_val]
    congr 1
    rw [add_comm]; norm_num
  · refine ⟨fun t => vol * Real.exp (rate * t), by simp, by simp, fun t => ?_⟩
    have := ((hasDerivAt_id t).const_mul rate).exp.const_mul vol
    refine this.congr_deriv ?_
    simp; ring

/-- **C50.** The stress conversions are the documented ones and undo each other. -/
theorem C50_stress :
    (∀ A : T3, A.IsSymm → drvStress (voigt A) = svecP A) ∧
    (∀ v : Vec 7, ofVoigt (drvRetrieve v) = ofSvecP v) ∧
    (∀ s : Vec 6, drvRetrieve (drvStress s) = s) ∧
    (∀ v : Vec 7, v 0 + v 1 + v 2 = 0 → drvStress (drvRetrieve v) = v) := by
  refine ⟨?_, ?_, ?_, ?_⟩
  · intro A hA
    ext i
    fin_cases i <;> simp [drvStress, voigt, svecP, dev, Matrix.trace, Fin.sum_univ_three] <;> ring
  · intro v
    ext i j
    fin_cases i <;> fin_cases j <;> simp [drvRetrieve, ofVoigt, ofSvecP] <;> ring
  · intro s
    ext i
    fin_cases i <;> simp [drvStress, drvRetrieve]
  · intro v h
    ext i
    fin_cases i <;> simp [drvStress, drvRetrieve]
    · linear_combination (-(1 / 3 : ℝ)) * h
    · linear_combination (-(1 / 3 : ℝ)) * h
    · linear_combination (-(1 / 3 : ℝ)) * h
    · linear_combination (-(1 / 3 : ℝ)) * h

/-- what a step of the driver asks of the library -/
noncomputable def libInp (tol dt : ℝ) (L : T3) (vr : Vec 4) : Inputs where
  dt := dt
  tol := tol
  d := drvRate L
  w := drvSpin L
  vr := vr

/-- the library's view of what the driver keeps -/
noncomputable def libMem (s : DrvState nH n) : Mem nH n where
  eInt := s.eng
  stress := drvStress s.stress
  hist := s.hist
  tkelv := 300
  sdd := s.sdd
  mtan := some 0

/-- **C50.** A step of the driver is a step of the library with the decomposed velocity gradient; the
    driver keeps exactly what the library returned (history, energy, stress, moduli) and the new
    volume, so that the stress and energy passed to the library at the next step are those it
    returned. -/
theorem C50_step (X : Ext) (M : Material n nH) (tol dt : ℝ) (L : T3) (s s' : DrvState nH n)
    (h : drvStep X M tol dt L s = .ok s') :
    ∃ vr m', drvVol dt L.trace s.vol = .ok vr ∧
      getResponseSngl X M (libInp tol dt L vr) (libMem s) = .ok m' ∧
      s'.vol = s.vol * Real.exp (L.trace * dt) ∧ s'.vol = vr 1 ∧
      (libMem s').stress = m'.stress ∧ (libMem s').eInt = m'.eInt ∧ (libMem s').hist = m'.hist ∧
      (libMem s').sdd = m'.sdd := by
  have hr := (C50_kinematics L).2.1
  unfold drvStep drvSetup at h
  rw [hr] at h
  cases hv : drvVol dt L.trace s.vol with
  | fail e => rw [hv] at h; cases h
  | undef e => rw [hv] at h; cases h
  | ok vr =>
    rw [hv] at h
    simp only [Out.bind] at h
    cases hg : getResponseSngl X M (libInp tol dt L vr) (libMem s) with
    | fail e m =>
      unfold libInp libMem at hg
      rw [hg] at h; cases h
    | undef w =>
      unfold libInp libMem at hg
      rw [hg] at h; cases h
    | ok m' =>
      have hg0 := hg
      unfold libInp libMem at hg
      rw [hg] at h
      cases h
      refine ⟨vr, m', rfl, hg0, ?_, rfl, ?_, rfl, rfl, rfl⟩
      · simp only [drvVol] at hv
        split_ifs at hv
        cases hv
        simp
      · exact C50_stress.2.2.2 _ (stress_tr hg0)

/-- **C50.** Over any sequence of steps the relative volume is the exponential of the accumulated
    volumetric strain. -/
theorem C50_run_volume (X : Ext) (M : Material n nH) (tol : ℝ) (l : List (ℝ × T3)) :
    ∀ (s s' : DrvState nH n), drvRun X M tol l s = .ok s' →
      s'.vol = s.vol * Real.exp ((l.map fun p => p.2.trace * p.1).sum) := by
  induction l with
  | nil => intro s s' h; cases h; simp
  | cons p l ih =>
    obtain ⟨dt, L⟩ := p
    intro s s' h
    unfold drvRun at h
    cases hs : drvStep X M tol dt L s with
    | fail e m => rw [hs] at h; cases h
    | undef w => rw [hs] at h; cases h
    | ok s1 =>
      rw [hs] at h
      obtain ⟨vr, m', _, _, h1, _⟩ := C50_step X M tol dt L s s1 hs
      rw [ih s1 s' h, h1, List.map_cons, List.sum_cons, Real.exp_add]
      ring

/-- **C50.** The velocity gradient of the driver keeps the volume. -/
theorem C50_isochoric (X : Ext) (M : Material n nH) (tol : ℝ) (dts : List ℝ) (s s' : DrvState nH n)
    (h : drvRun X M tol (dts.map fun dt => (dt, driverL)) s = .ok s') : s'.vol = s.vol := by
  rw [C50_run_volume X M tol _ s s' h]
  have : driverL.trace = 0 := by
    simp [driverL, Matrix.trace, Fin.sum_univ_three]; norm_num
  simp [List.map_map, Function.comp_def, this]

/-! ### C51: initialisation of the history -/

/-- slot `k` of point `i` in the state array of the driver, which holds the history, the volume and the
    energy of each point -/
def stateSlot (nH n i k : ℕ) (s : Raw) : Option ℝ := s (i * (13 + nH + n + 2) + k)

/-- the state array after init_data, as the driver calls it (orientation_evolution.cxx:363-364) -/
def afterInit (ori hist : ℕ → ℝ) (nq nH n : ℕ) (s : Raw) : Raw :=
  initData ori hist nq nH (13 + nH) n (13 + nH + n + 2) s

/-- **C51 (part that holds).** For every number of points, hardness variables and slip systems, each
    point gets its own orientation, the described initial value in every slot except the flow strength
    (2) and the hardness slots, a unit volume and no energy. -/
theorem C51_slots (ori hist : ℕ → ℝ) (nq nH n i : ℕ) (hi : i < nq) (s : Raw) :
    (∀ k, k = 0 ∨ k = 1 ∨ k = 3 ∨ (4 ≤ k ∧ k < 9) ∨ (13 + nH ≤ k ∧ k < 13 + nH + n) →
      stateSlot nH n i k (afterInit ori hist nq nH n s) = some (hist k)) ∧
    (∀ j < 4, stateSlot nH n i (9 + j) (afterInit ori hist nq nH n s) = some (ori (4 * i + j))) ∧
    stateSlot nH n i (13 + nH + n) (afterInit ori hist nq nH n s) = some 1 ∧
    stateSlot nH n i (13 + nH + n + 1) (afterInit ori hist nq nH n s) = some 0 := by
  unfold stateSlot afterInit
  refine ⟨?_, ?_, ?_, ?_⟩
  · intro k hk
    rw [initData_spec _ _ _ _ _ _ _ _ (by omega), if_pos hi]
    unfold slotVal
    rw [if_neg (by omega), if_neg (by omega), if_neg (by omega)]
    by_cases a : 13 + nH ≤ k ∧ k < 13 + nH + n
    · rw [if_pos a]
    rw [if_neg a]
    by_cases b : 4 ≤ k ∧ k < 9
    · rw [if_pos b]
    rw [if_neg b, if_neg (by omega), if_pos (by omega)]
  · intro j hj
    rw [initData_spec _ _ _ _ _ _ _ _ (by omega), if_pos hi]
    unfold slotVal
    rw [if_neg (by omega), if_neg (by omega), if_neg (by omega), if_neg (by omega),
      if_neg (by omega), if_pos (by omega)]
    congr 2; omega
  · rw [initData_spec _ _ _ _ _ _ _ _ (by omega), if_pos hi]
    unfold slotVal
    rw [if_neg (by omega), if_pos rfl]
  · rw [initData_spec _ _ _ _ _ _ _ _ (by omega), if_pos hi]
    unfold slotVal
    rw [if_pos (by omega)]

/-- **C51 (part that holds).** With a single hardness variable that one is initialised too. -/
theorem C51_one_hardness (ori hist : ℕ → ℝ) (nq n i : ℕ) (hi : i < nq) (s : Raw) :
    stateSlot 1 n i 13 (afterInit ori hist nq 1 n s) = some (hist 13) := by
  unfold stateSlot afterInit
  rw [initData_spec _ _ _ _ _ _ _ _ (by omega), if_pos hi]
  unfold slotVal
  rw [if_neg (by omega), if_neg (by omega), if_pos (by omega)]

/-- **C51, refuted.** The flow strength is never initialised, for any model. -/
theorem C51_refuted_flow_strength (ori hist : ℕ → ℝ) (nq nH n i : ℕ) :
    stateSlot nH n i 2 (afterInit ori hist nq nH n fun _ => none) = none := by
  unfold stateSlot afterInit
  rw [initData_spec _ _ _ _ _ _ _ _ (by omega)]
  split_ifs
  · unfold slotVal
    rw [if_neg (by omega), if_neg (by omega), if_neg (by omega), if_neg (by omega), if_neg (by omega),
      if_neg (by omega), if_neg (by omega)]
  · rfl

/-- **C51, refuted.** With two or more hardness variables (setup_kernels.cxx:52-54 drops the index)
    the first one gets the initial value of the last one, and the others are not initialised. -/
theorem C51_refuted_hardness (ori hist : ℕ → ℝ) (nq nH n i : ℕ) (hi : i < nq) (hH : 2 ≤ nH) :
    stateSlot nH n i 13 (afterInit ori hist nq nH n fun _ => none) = some (hist (13 + (nH - 1))) ∧
    ∀ j, 0 < j → j < nH → stateSlot nH n i (13 + j) (afterInit ori hist nq nH n fun _ => none) = none := by
  unfold stateSlot afterInit
  constructor
  · rw [initData_spec _ _ _ _ _ _ _ _ (by omega), if_pos hi]
    unfold slotVal
    rw [if_neg (by omega), if_neg (by omega), if_pos (by omega)]
  · intro j h0 hj
    rw [initData_spec _ _ _ _ _ _ _ _ (by omega), if_pos hi]
    unfold slotVal
    rw [if_neg (by omega), if_neg (by omega), if_neg (by omega), if_neg (by omega), if_neg (by omega),
      if_neg (by omega), if_neg (by omega)]

/-- **C51.** The missing flow strength does no harm: the result of an update does not depend on it
    (nor on the old rate and evaluation count). -/
theorem C51_flow_strength_unused (X : Ext) (M : Material n nH) (inp : Inputs) (m m' : Mem nH n)
    (a b c : ℝ) (h : getResponseSngl X M inp m = .ok m') :
    getResponseSngl X M inp { m with hist := ({ Hist.ofArray m.hist with
      shrateEff := a, flowStr := b, nFEval := c } : Hist nH n).toArray } = .ok m' := by
  obtain ⟨W⟩ := getResponseSngl_ok h
  have hs := Step.setup_eq_ok W.hq W.hcv W.hdt W.hv W.hH W.hV
  rw [← W.hP] at hs
  have hs' : Step.setup M inp { m with hist := ({ Hist.ofArray m.hist with
      shrateEff := a, flowStr := b, nFEval := c } : Hist nH n).toArray } = Step.setup M inp m := by
    unfold Step.setup Step.quatN Step.eosUpdate Step.tK
    simp only [Hist.ofArray_toArray]
  unfold getResponseSngl at h ⊢
  rw [hs', hs]
  rw [hs] at h
  simp only [Step.run, Step.eosUpdate, Step.tK] at h ⊢
  rw [← h]
  by_cases h2 : (Step.solve X inp W.P).converged = false
  · rw [if_pos h2] at h; cases h
  rw [if_neg h2, if_neg h2]
  rw [if_neg h2] at h
  cases h3 : Step.tangent X (M.eos.updateSimple (inp.vr 1) (inp.vr 3) m.eInt (m.stress 6)).bulkNew W.P
      (Step.solve X inp W.P).x m.mtan.isSome with
  | none => rw [h3] at h; cases h
  | some t =>
    simp only [W.hg, Step.newHist, Hist.ofArray_toArray]

/-! ### Concrete cases -/

/-- velocity gradient of the example step with the volumetric rate that doubles the volume -/
noncomputable def exDrvL (el : Elast) (e : Vec 5) : T3 :=
  exL el e + ((Real.log 2 - (exL el e).trace) / 3) • (1 : T3)

/-- driver state before the example step -/
noncomputable def exDrv (e : Vec 5) : DrvState 1 12 where
  hist := (exHist e).toArray
  vol := 1
  eng := 4
  stress := drvRetrieve ![1, 1, -2, 0, 3, 0, 3]
  sdd := ![19, 23]

theorem exDrv_trace (el : Elast) (e : Vec 5) : (exDrvL el e).trace = Real.log 2 := by
  unfold exDrvL
  rw [Matrix.trace_add, Matrix.trace_smul, Matrix.trace_one]
  simp

theorem exDrv_ok (el : Elast) (hg : 0 < el.kGmod) (e : Vec 5) :
    ∃ s', drvStep exExt (exMat el) (1 / 10 ^ 10) 1 (exDrvL el e) (exDrv e) = .ok s' := by
  have hg : (exMat el).el.getGmod = .ok el.kGmod := by
    show el.getGmod = _
    unfold Elast.getGmod
    rw [if_neg (not_le.2 hg)]
  have hrate : drvRate (exDrvL el e) 6 = Real.log 2 := by
    rw [(C50_kinematics _).2.1, exDrv_trace]
  obtain ⟨vr, hvr, h0, _, h3, _⟩ := C50_volume 1 (Real.log 2) 1 (by norm_num) (by norm_num)
  have h1 : vr 1 = 2 := by
    simp only [drvVol] at hvr
    split_ifs at hvr
    cases hvr
    simp [Real.exp_log]
  rw [h1, h0] at h3
  have hd : svecToVecd (drvRate (exDrvL el e)) = svecToVecd (exInp el e).d := by
    ext i
    fin_cases i <;>
      simp [svecToVecd, drvRate, exDrvL, exInp, svecP, dev, sym, Matrix.trace, Fin.sum_univ_three] <;>
      first
      | exact Or.inl (by ring)
      | ring
  have hw : drvSpin (exDrvL el e) = (exInp el e).w := by
    rw [(C50_kinematics _).2.2.1]
    ext i
    fin_cases i <;> simp [exDrvL, exInp, axial]
  have hs : drvStress (drvRetrieve ![1, 1, -2, 0, 3, 0, 3]) = ![1, 1, -2, 0, 3, 0, 3] :=
    C50_stress.2.2.2 _ (by simp; norm_num)
  have hset : Step.setup (exMat el)
      { dt := 1, tol := 1 / 10 ^ 10, d := drvRate (exDrvL el e), w := drvSpin (exDrvL el e), vr := vr }
      { eInt := 4, stress := ![1, 1, -2, 0, 3, 0, 3], hist := (exHist e).toArray, tkelv := 300
        sdd := ![19, 23], mtan := some 0 } = Step.setup (exMat el) (exInp el e) (exMem e (some 0)) := by
    unfold Step.setup Step.quatN Step.eosUpdate Step.tK
    simp only [hd, hw, h0, h1, h3]
    have : (2 : ℝ) - 1 = 1 := by norm_num
    rw [this]
    rfl
  unfold drvStep drvSetup
  rw [hrate]
  simp only [exDrv, hvr, Out.bind, hs]
  unfold getResponseSngl
  rw [hset, ex_setup]
  have hsol : Step.solve exExt
      { dt := 1, tol := 1 / 10 ^ 10, d := drvRate (exDrvL el e), w := drvSpin (exDrvL el e), vr := vr }
      (exProb el e (symmToVecd (dev (sym (exL el e)))) (axial (exL el e)))
      = { converged := true, x := 0, xLast := 0, nFEvals := 1 } := ex_solve el e
  simp only [Step.run, hsol, hg]
  exact ⟨_, rfl⟩

example : ∃ s', drvRun exExt (exMat exEl) (1 / 10 ^ 10) [(1, exDrvL exEl 0)] (exDrv 0) = .ok s' ∧
    s'.vol = 2 := by
  obtain ⟨s', h⟩ := exDrv_ok exEl exEl_pos 0
  have hr : drvRun exExt (exMat exEl) (1 / 10 ^ 10) [(1, exDrvL exEl 0)] (exDrv 0) = .ok s' := by
    unfold drvRun
    rw [h]
    rfl
  refine ⟨s', hr, ?_⟩
  rw [C50_run_volume _ _ _ _ _ _ hr]
  simp [exDrv_trace, exDrv, Real.exp_log]

example : drvStress ![1, 2, 6, 4, 5, 7] = ![-2, -1, 3, 4, 5, 7, -3] := by
  ext i
  fin_cases i <;> simp [drvStress] <;> norm_num

example (hist : ℕ → ℝ) (n : ℕ) :
    stateSlot 2 n 0 14 (afterInit (fun _ => 0) hist 1 2 n fun _ => none) = none :=
  (C51_refuted_hardness (fun _ => 0) hist 1 2 n 0 (by norm_num) (by norm_num)).2 1 (by norm_num) (by norm_num)

example : ∃ m', getResponseSngl exExt (exMat exEl) (exInp exEl 0)
    { exMem 0 none with hist := ({ Hist.ofArray (exMem 0 none).hist with
      shrateEff := 1, flowStr := 2, nFEval := 3 } : Hist 1 12).toArray } = .ok m' := by
  obtain ⟨m', h⟩ := ex_ok exEl exEl_pos 0 none
  exact ⟨m', C51_flow_strength_unused _ _ _ _ _ 1 2 3 h⟩

end Ecm.Props
