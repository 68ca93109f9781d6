/- Property theorem C78: with dislocation kinetics in the cold a steady loading at small time steps comes to
   a step that has no solution. -/
import Verif.Lemmas.JumpStep
import Verif.Lemmas.SlipTables
import Verif.Props.KMLaw
import Verif.Props.TestStep
import Verif.Props.Solvable

namespace Ecm.Props
open Ecm Spec KMBalD

/-! ### The law in the cold jumps from zero to a fifth of the reference rate -/

theorem cold_mag (i : Fin 12) (τ : ℝ) (hτ : τ ≠ 0) : |(kmCold.evalGdot kmColdVals i τ).gdot| =
    kmCold.mag 1 1 1000 (1 / 4) 1 (kmCold.xn 0) (kmCold.tMin 0) (kmCold.tMax 0) |τ| := by
  rw [← kmCold_mag τ hτ]
  have e : kmCold.iVal i = kmCold.iVal (0 : Fin 12) := Subsingleton.elim _ _
  unfold KMBalD.evalGdot
  simp only [e]

theorem cold_adm (i : Fin 12) : KMAdm kmCold kmColdVals (kmCold.iVal i) := by
  constructor <;> norm_num [kmCold, kmColdVals]

/-- the stress at which the law jumps -/
noncomputable def coldTau : ℝ := 444736 / 100000

theorem cold_bound (i : Fin 12) (τ : ℝ) : |(kmCold.evalGdot kmColdVals i τ).gdot| ≤ 1 :=
  (C29_drag_bound kmCold kmColdVals i (cold_adm i) τ).1

theorem cold_tMax {t : ℝ} (h : t ≤ 1) : ¬ kmCold.tMax 0 < t := by
  unfold KMBalD.tMax
  rw [kmXm, kmCold_N, not_lt]
  exact h.trans (Real.one_le_rpow (x := gamRatioOvf) (by unfold gamRatioOvf; norm_num) (by norm_num))

theorem cold_off (i : Fin 12) (τ : ℝ) (h : |τ| < coldTau) : (kmCold.evalGdot kmColdVals i τ).gdot = 0 := by
  rcases le_or_gt |τ| 1 with h1 | h1
  · refine (C28_sign kmCold kmColdVals i (cold_adm i) τ).2 ?_
    have : athermal kmCold kmColdVals (kmCold.iVal i) = 1 := by simp [athermal, kmCold, kmColdVals]
    rw [this]; exact h1
  · have h0 : τ ≠ 0 := by rintro rfl; norm_num at h1
    unfold coldTau at h
    rw [← abs_eq_zero, cold_mag i τ h0]
    unfold KMBalD.mag
    have ht : kmCold.thermal 1 1000 (1 / 4) 1 |τ| = none := by
      unfold KMBalD.thermal
      rw [if_pos]
      have e : (1 : ℝ) / 10 ^ 90 ≤ 1 / 10 := by norm_num
      rw [kmCold_dg _ _ (by rw [abs_abs]; linarith), abs_abs]
      unfold lnGamRatioMin; linarith
    rw [ht]
    split_ifs with h2 h3
    · rfl
    · exact absurd h3 (cold_tMax (by rw [max_eq_right (by linarith)]; linarith))
    · rfl

theorem cold_at (i : Fin 12) : 1 / 5 ≤ |(kmCold.evalGdot kmColdVals i coldTau).gdot| := by
  have hτ : (0 : ℝ) < coldTau := by norm_num [coldTau]
  rw [cold_mag i _ hτ.ne', abs_of_pos hτ]
  have ht : ∃ w, kmCold.thermal 1 1000 (1 / 4) 1 coldTau = some w := by
    unfold KMBalD.thermal
    rw [if_neg, if_neg]
    · exact ⟨_, rfl⟩
    · rw [kmCold_dg _ _ (by norm_num [coldTau])]
      unfold lnGamRatioMin coldTau; norm_num
    · rw [kmCold_dg _ _ (by norm_num [coldTau])]
      unfold lnGamRatioMin coldTau; norm_num
  obtain ⟨w, hw⟩ := ht
  have hw0 : 0 < w.1 := by
    obtain ⟨w1, d, e⟩ := w
    exact kmCold.thermal_pos (by norm_num) (by norm_num) (by norm_num) (by norm_num [kmCold])
      (by norm_num [kmCold]) hw
  have hz : kmCold.mag 1 1 1000 (1 / 4) 1 (kmCold.xn 0) (kmCold.tMin 0) (kmCold.tMax 0) coldTau
      = harm (addPower 1 (1 / 4) 1 (kmCold.xn 0) (kmCold.tMin 0) coldTau w.1)
        (dragRate 1 ((coldTau - 1) / kmCold.wrD)) := by
    unfold KMBalD.mag
    rw [hw, if_neg, if_neg]
    · rfl
    · exact cold_tMax (by norm_num [coldTau])
    · unfold gamRatioMin coldTau
      norm_num [kmCold]
  rw [hz]
  have hP : 3 / 10 ≤ addPower 1 (1 / 4) 1 (kmCold.xn 0) (kmCold.tMin 0) coldTau w.1 := by
    rw [addPower_eq (by norm_num [coldTau]) (by norm_num [coldTau]), kmXnn, kmCold_N, if_pos]
    · have h3 : ((coldTau - 1 : ℝ) * (1 / 4)) ^ (20 : ℝ) = ((coldTau - 1) * (1 / 4)) ^ (20 : ℕ) := by
        rw [← Real.rpow_natCast]; norm_num
      rw [h3]
      have h4 : (3 / 10 : ℝ) ≤ 1 * 10 * ((coldTau - 1) * (1 / 4)) ^ (20 : ℕ) := by norm_num [coldTau]
      linarith
    · unfold KMBalD.tMin
      rw [kmXm, kmCold_N]
      have e : gamRatioMin = (1 / 1000 : ℝ) ^ (20 : ℝ) := by
        rw [show (20 : ℝ) = ((20 : ℕ) : ℝ) by norm_num, Real.rpow_natCast]
        unfold gamRatioMin; norm_num
      rw [e, ← Real.rpow_mul (by norm_num)]
      norm_num [coldTau]
  have hD : 7 / 10 ≤ dragRate 1 ((coldTau - 1) / kmCold.wrD) := by
    refine le_trans ?_ (dragRate_bounds (gamR := 1) (by norm_num) (by norm_num [kmCold, coldTau])).1
    have h1 : Real.exp (-((coldTau - 1) / kmCold.wrD)) ≤ 3 / 10 := by
      rw [Real.exp_neg, inv_le_comm₀ (Real.exp_pos _) (by norm_num)]
      have := Real.add_one_le_exp ((coldTau - 1) / kmCold.wrD)
      refine le_trans ?_ this
      norm_num [kmCold, coldTau]
    linarith
  have h1 := harm_mono (w := 3 / 10) (r := 7 / 10) (by norm_num) (by norm_num) hP hD
  refine le_trans ?_ h1
  unfold harm; norm_num

theorem cold_on (i : Fin 12) (τ : ℝ) (h : coldTau ≤ τ) : 18 / 100 ≤ (kmCold.evalGdot kmColdVals i τ).gdot := by
  have h0 : (0 : ℝ) < coldTau := by norm_num [coldTau]
  have hτ := h0.trans_le h
  have h1 := C65_monotone kmCold kmColdVals i (cold_adm i) (by norm_num [KMBalD.xnn, KMBalD.xm, kmCold])
    coldTau τ (by rw [abs_of_pos h0, abs_of_pos hτ]; exact h)
  have h2 := (C28_sign kmCold kmColdVals i (cold_adm i) τ).1
  have h3 : 0 ≤ (kmCold.evalGdot kmColdVals i τ).gdot := nonneg_of_mul_nonneg_right h2 hτ
  rw [abs_of_nonneg h3] at h1
  have := cold_at i
  norm_num at h1
  linarith

/-! ### The slip systems -/

/-- products of the first FCC slip system with the others, times 12 -/
def fccOverlap : Vec 12 := ![6, -3, -3, 1, -2, 1, 4, -3, -1, 1, -4, 3]

theorem fcc_overlap (s : Fin 12) :
    ∑ i, (slipPQ fccM fccS).P i 0 * (slipPQ fccM fccS).P i s = fccOverlap s / 12 := by
  fin_cases s <;> simp [Fin.sum_univ_five, slipPQ, fccM, fccS, matToP, vecsMsymm, vecsMaTb, symmToVecd, fccOverlap] <;> sqr_ring

theorem fcc_overlap_le (s : Fin 12) (hs : s ≠ 0) :
    |∑ i, (slipPQ fccM fccS).P i 0 * (slipPQ fccM fccS).P i s| ≤ 1 / 3 := by
  rw [fcc_overlap]
  fin_cases s <;> first | exact absurd rfl hs | (simp [fccOverlap, abs_div]; try norm_num)

/-! ### The loading -/

/-- an FCC crystal with dislocation kinetics, isotropic elasticity with shear modulus 50000 (athermal
    strength 1) and a constant temperature of a hundredth of the reference temperature -/
noncomputable def coldMat (S : Solver 1) : Material 12 1 where
  geom := slipPQ fccM fccS
  kin := kmCold.kin S 12
  el := .cubic (2 * 10 ^ 5) (10 ^ 5) (10 ^ 5 / 2)
  eos := { isothermal := true, rho0 := 1, bulkMod := 10 ^ 5, cvav := 1, gamma := 0, ec0 := -(1 / 100) }

/-- steady straining without rotation, at constant volume, that shears the first slip system at a tenth of
    the reference rate of slip -/
structure ColdLoad (dt : ℝ) (inp : Inputs) : Prop where
  step : inp.dt = dt
  tol : inp.tol * (3 + 1 / 10 ^ 6 / dt) ≤ 1 / 10 ^ 4
  d : svecToVecd inp.d = symmToVecd ((1 / 10 : ℝ) • sym (slipGrad (fun i => if i = 0 then 1 else 0) fccS fccM))
  w : inp.w = 0
  vr : inp.vr 1 = 1

/-- no stress, no slip, the lattice along the sample axes, unit dislocation density -/
structure ColdStart (m : Mem 1 12) : Prop where
  e : (histOf m).e = 0
  q : (histOf m).q = ![1, 0, 0, 0]
  h : (histOf m).h = fun _ => 1
  gdot : (histOf m).gdot = 0

theorem cold_d : symmToVecd ((1 / 10 : ℝ) • sym (slipGrad (fun i => if i = 0 then 1 else 0) fccS fccM))
    = fun i => 1 / 10 * (slipPQ fccM fccS).P i 0 := by
  have h : symmToVecd (sym (slipGrad (fun i => if i = 0 then 1 else 0) fccS fccM))
      = vecsVMa (slipPQ fccM fccS).P (fun i => if i = 0 then 1 else 0) := by
    rw [C18_plastic_rate]; rfl
  rw [symmToVecd_smul, h]
  funext i
  simp [vecsVMa]

theorem coldMat_K (S : Solver 1) (i : Fin 5) : (coldMat S).el.kDiag i = 10 ^ 5 := by
  fin_cases i <;> simp [coldMat, Elast.kDiag] <;> norm_num

/-- the state during the loading -/
structure ColdState (t : ℝ) (m : Mem 1 12) : Prop where
  unit : qn (histOf m).q = 1
  h : (histOf m).h = fun _ => 1
  gdot : (histOf m).gdot = 0
  rest : Updst.RestAt (fun i => (slipPQ fccM fccS).P i 0) 1 coldTau t (quatToTensor (histOf m).q) (histOf m).e

theorem cold_step {S : Solver 1} {X : Ext} (hX : X.solver.Sound) {dt : ℝ} (hdt0 : 1 / 10 ^ 20 ≤ dt)
    (hdt1 : dt ≤ 1 / 10 ^ 8) {k : ℕ} (hS : kmCold.updateH S (fun _ => 1) dt (0 : Vec 12) = .ok (fun _ => 1, k))
    {inp : Inputs} (hin : ColdLoad dt inp) {t : ℝ} (ht : 0 ≤ t) {m m' : Mem 1 12} (hm : ColdState t m)
    (hok : getResponseSngl X (coldMat S) inp m = .ok m') : ColdState (t + dt) m' := by
  obtain ⟨s⟩ := getResponseSngl_ok hok
  have hH := s.hH
  have e1 : (coldMat S).kin.updateH (Hist.ofArray m.hist).h inp.dt (Hist.ofArray m.hist).gdot
      = .ok (fun _ => 1, k) := by
    rw [show (Hist.ofArray m.hist).h = fun _ => 1 from hm.h, show (Hist.ofArray m.hist).gdot = 0 from hm.gdot,
      hin.step]
    exact hS
  have hU : s.hU = fun _ => 1 := by
    rw [e1] at hH
    exact (Prod.mk.inj (Out.ok.inj hH)).1.symm
  have hT : Step.tK (coldMat S) inp m = 1 / 100 := by
    simp [Step.tK, coldMat, Eos.evalPT, Eos.tK0, Eos.dtde0]
  have hV := s.hV
  have e2 : (coldMat S).kin.getVals (Step.eosUpdate (coldMat S) inp m).press
      (Step.tK (coldMat S) inp m) s.hU = .ok (kmColdVals, 1) := by
    rw [hU, hT]; exact kmCold_vals
  have hv : s.v = kmColdVals := by
    rw [e2] at hV
    exact (Prod.mk.inj (Out.ok.inj hV)).1.symm
  set x := (Step.solve X inp s.P).x with hx
  obtain ⟨⟨r, J, hr, hrt⟩, hlast⟩ := hX _ _ _ _ s.hc
  have hr' : r = s.P.resid x := by
    have : some (s.P.resid (Step.solve X inp s.P).x, _) = some (r, J) := hr
    exact (Prod.mk.inj (Option.some.inj this)).1.symm
  rw [hr'] at hrt
  have hxl : Step.lastX (Step.solve X inp s.P) m.mtan.isSome = x := by
    have : (Step.solve X inp s.P).xLast = x := hlast
    unfold Step.lastX; split_ifs <;> simp [this, hx]
  have hPel : s.P.el = (coldMat S).el := by rw [s.hP]
  have hPdt : s.P.dt = dt := by rw [s.hP]; exact hin.step
  have hPv : s.P.detV = 1 := by rw [s.hP]; exact hin.vr
  have hPd : s.P.dSm = fun i => 1 / 10 * (slipPQ fccM fccS).P i 0 := by
    rw [s.hP]; exact hin.d.trans cold_d
  have hPw : s.P.wSm = 0 := by rw [s.hP]; exact hin.w
  have hPg : s.P.geom = slipPQ fccM fccS := by rw [s.hP]; rfl
  have hPa : s.P.adotsRef = 2 := by
    rw [s.hP]
    show s.v.gamW + s.v.gamR = 2
    rw [hv]; norm_num [kmColdVals]
  have hgd : ∀ i τ, s.P.gd i τ = kmCold.evalGdot kmColdVals i τ := by
    intro i τ
    rw [s.hP]
    show kmCold.evalGdot s.v i τ = _
    rw [hv]
  have heN : s.P.eN = (histOf m).e := by rw [s.hP]
  have hcN : s.P.cN = (histOf m).q := by rw [s.hP]; exact quatN_of_unit hm.unit
  have hPP : ∑ i, (slipPQ fccM fccS).P i 0 ^ 2 = 1 / 2 := by
    have := fcc_overlap 0
    simp only [← sq] at this
    rw [this]; norm_num [fccOverlap]
  obtain ⟨hg0, hI⟩ := s.P.jump_step (τc := coldTau) (tol := inp.tol) (R₀ := 1) (t := t) (x := x)
    (by rw [hPel]; rfl) (by rw [hPel]; exact coldMat_K S) (hPdt ▸ hdt0) (hPdt ▸ hdt1) hPv
    (by rw [hcN]; exact hm.unit) (by rw [hPa]; norm_num) (by rw [hPa]) 0
    (by rw [hPg]; exact (slipPQ_le fcc_slip).1) (by rw [hPg]; exact hPP) (by rw [hPg]; exact fcc_overlap_le)
    (by norm_num [coldTau]) (by norm_num [coldTau])
    (fun i τ => by rw [hgd]; exact cold_bound i τ) (fun i τ h => by rw [hgd]; exact cold_off i τ h)
    (fun i τ h => by rw [hgd]; exact cold_on i τ h) (by simp)
    (by rw [hPd, hPg, getRotMatVecd_one, vecsVMTa_eq]; simp) hPw ht
    (by rw [hPg, hcN, heN]; exact hm.rest) (by rw [hPdt]; exact hin.tol) hrt
  have he : (histOf m').e = s.P.eF x := by rw [OkStep.hist_eq s]; rfl
  have hg : (histOf m').gdot = s.P.gdot x := by
    rw [OkStep.hist_eq s]
    show s.P.gdot (Step.lastX _ _) = _
    rw [hxl]
  have hRq : quatToTensor (histOf m').q = s.P.cMatx x := by
    rw [OkStep.hist_eq s]; exact quatToTensor_flip _ _
  refine ⟨?_, ?_, hg.trans hg0, ?_⟩
  · have h1 := s.P.qn_cQuat (by rw [hcN]; exact hm.unit) x
    rw [OkStep.hist_eq s]
    show qn (Step.flipQuat (s.P.cQuat x) s.P.cN) = 1
    rcases flipQuat_cases (s.P.cQuat x) s.P.cN with ⟨h, -⟩ | ⟨h, -⟩
    · rw [h, h1]
    · rw [h, ← h1]; simp [qn]
  · rw [OkStep.hist_eq s]; exact hU
  · rw [hRq, he]
    rw [hPg, hPdt] at hI
    exact hI

theorem ColdStart.state {m : Mem 1 12} (h : ColdStart m) : ColdState 0 m where
  unit := by rw [h.q]; simp [qn]
  h := h.h
  gdot := h.gdot
  rest := by
    rw [h.e, h.q]
    refine ⟨fun i j => ?_, fun i => by simp, ?_⟩
    · have : quatToTensor ![1, 0, 0, 0] = 1 := by
        ext i j; fin_cases i <;> fin_cases j <;> simp [quatToTensor]
      rw [this]; simp
    · simp; norm_num [coldTau]

/-- **C78, refuted in the cold.** A crystal with dislocation kinetics at a hundredth of its reference
    temperature is strained steadily from the stress free state, by updates with any time step from
    `1e-20` to `1e-8`.  Whatever nonlinear solver is used (only that it returns no point with a residual
    above the tolerance is asked), the updates cannot all succeed: the step in which the stress reaches
    the edge of flow, before the time `1e-3`, has no acceptable point. -/
theorem C78_refuted_cold (S : Solver 1) (dt : ℝ) (hdt0 : 1 / 10 ^ 20 ≤ dt) (hdt1 : dt ≤ 1 / 10 ^ 8) (k : ℕ)
    (hS : kmCold.updateH S (fun _ => 1) dt (0 : Vec 12) = .ok (fun _ => 1, k))
    (N : ℕ) (X : ℕ → Ext) (hX : ∀ i < N, (X i).solver.Sound) (inp : ℕ → Inputs)
    (hin : ∀ i < N, ColdLoad dt (inp i)) (m : ℕ → Mem 1 12) (hm : ColdStart (m 0))
    (hok : ∀ i < N, getResponseSngl (X i) (coldMat S) (inp i) (m i) = .ok (m (i + 1))) :
    N * dt < 1 / 1000 := by
  have hdt : 0 < dt := lt_of_lt_of_le (by norm_num) hdt0
  have key : ∀ i ≤ N, ColdState (i * dt) (m i) := by
    intro i
    induction i with
    | zero => intro _; simpa using hm.state
    | succ i ih =>
      intro hi
      have := cold_step (hX i hi) hdt0 hdt1 hS (hin i hi) (by positivity) (ih (Nat.le_of_succ_le hi)) (hok i hi)
      push_cast
      rw [add_mul, one_mul]; exact this
  have h := (key N le_rfl).rest
  have h1 := h.strain_dot (u := fun i => (slipPQ fccM fccS).P i 0) fun i => (slipPQ_le fcc_slip).1 i 0
  have h2 := h.below
  rw [show ∑ i, (slipPQ fccM fccS).P i 0 * (slipPQ fccM fccS).P i 0 = 1 / 2 by
    rw [fcc_overlap]; norm_num [fccOverlap]] at h1
  obtain ⟨h3, -⟩ := abs_le.1 h1
  unfold coldTau at h2
  norm_num at h2 h3 ⊢
  linarith

/-! ### Up to the edge of flow the loading succeeds -/

/-- the elastic strain increment `u` without rotation, in the unknowns of the solver -/
noncomputable def elasticX (u : Vec 5) : Vec 8 := block8 (fun i => u i / eScale) 0

/-- the state reached by an elastic loading for the time `t` -/
structure ElasticState (t : ℝ) (m : Mem 1 12) : Prop where
  e : (histOf m).e = fun i => t * (1 / 10 * (slipPQ fccM fccS).P i 0)
  q : (histOf m).q = ![1, 0, 0, 0]
  h : (histOf m).h = fun _ => 1
  gdot : (histOf m).gdot = 0
  mtan : m.mtan = none

theorem elastic_step {S : Solver 1} {dt : ℝ} (hdt : 0 < dt) {k : ℕ}
    (hS : kmCold.updateH S (fun _ => 1) dt (0 : Vec 12) = .ok (fun _ => 1, k)) {inp : Inputs}
    (hin : ColdLoad dt inp) (h0 : 0 ≤ inp.tol) {t : ℝ} (ht : 0 ≤ t) (ht1 : t + dt ≤ 88 / 10 ^ 5)
    {m : Mem 1 12} (hm : ElasticState t m) :
    ∃ m', getResponseSngl (testExt (elasticX fun i => dt * (1 / 10 * (slipPQ fccM fccS).P i 0)))
      (coldMat S) inp m = .ok m' ∧ ElasticState (t + dt) m' := by
  set p : Vec 5 := fun i => 1 / 10 * (slipPQ fccM fccS).P i 0 with hp
  set x := elasticX fun i => dt * p i with hx
  have hq0 : Step.quatN m = ![1, 0, 0, 0] := by
    have h1 : qn (Hist.ofArray m.hist).q = 1 := by rw [show (Hist.ofArray m.hist).q = _ from hm.q]; simp [qn]
    rw [quatN_of_unit h1]; exact hm.q
  have hT : Step.tK (coldMat S) inp m = 1 / 100 := by
    simp [Step.tK, coldMat, Eos.evalPT, Eos.tK0, Eos.dtde0]
  have hsetup := Step.setup_eq_ok (M := coldMat S) (inp := inp) (m := m) (hU := fun _ => 1) (kU := k)
    (v := kmColdVals) (scale := 1)
    (by
      rw [show (Hist.ofArray m.hist).q = _ from hm.q]
      intro h
      have := congrFun h 0
      simp at this)
    (by norm_num [coldMat]) (by rw [hin.step]; exact hdt.ne') (by rw [hin.vr]; exact one_pos)
    (by
      rw [show (Hist.ofArray m.hist).h = fun _ => 1 from hm.h, show (Hist.ofArray m.hist).gdot = 0 from hm.gdot,
        hin.step]
      exact hS)
    (by rw [hT]; exact kmCold_vals)
  set P : Updst 12 := { geom := (coldMat S).geom, el := (coldMat S).el,
                        gd := (coldMat S).kin.evalGdot kmColdVals, adotsRef := (coldMat S).kin.fixedRefRate kmColdVals,
                        hdnScale := 1, dt := inp.dt, detV := inp.vr 1,
                        eVref := (Step.eosUpdate (coldMat S) inp m).eNew, pEos := (Step.eosUpdate (coldMat S) inp m).press,
                        tK := Step.tK (coldMat S) inp m, eN := (Hist.ofArray m.hist).e, cN := Step.quatN m,
                        dSm := svecToVecd inp.d, wSm := inp.w } with hP
  have hPd : P.dSm = p := hin.d.trans cold_d
  have hPdt : P.dt = dt := hin.step
  have hPv : P.detV = 1 := hin.vr
  have hcN : P.cN = ![1, 0, 0, 0] := hq0
  have hinc : vecsVxa eScale (fun i => x (iE i)) = fun i => dt * p i := by
    funext i
    show eScale * (block8 (fun i => dt * p i / eScale) 0) (iE i) = _
    have : (block8 (fun i => dt * p i / eScale) 0) (iE i) = dt * p i / eScale := by simp [block8, iE]
    rw [this, mul_div_cancel₀ _ eScale_ne]
  have heF : P.eF x = fun i => (t + dt) * p i := by
    funext i
    have h1 : P.eN i = t * p i := congrFun hm.e i
    simp only [Updst.eF, hinc, vecsVapb, h1]
    ring
  have hedot : P.edot x = p := by
    funext i
    simp only [Updst.edot, hinc, vecsVsa, Updst.dtRi, hPdt]
    field_simp
  have hxi : Updst.xiF x = 0 := by
    funext i
    simp [Updst.xiF, vecsVxa, hx, elasticX, block8, iR]
  have hcq : P.cQuat x = ![1, 0, 0, 0] := by
    unfold Updst.cQuat
    rw [hxi, emapToQuat_zero, getCQuat_one, hcN]
  have hcm : P.cMatx x = 1 := by
    unfold Updst.cMatx
    rw [hcq]
    ext i j; fin_cases i <;> fin_cases j <;> simp [quatToTensor]
  have htau : ∀ s, P.taua x s = 10 ^ 5 * (t + dt) * (1 / 10) * (fccOverlap s / 12) := by
    intro s
    have h1 := P.taua_cubic (c11 := 2 * 10 ^ 5) (c12 := 10 ^ 5) (c44 := 10 ^ 5 / 2) rfl x s
    rw [h1, P.aVri_one hPv, one_mul, ← fcc_overlap, Finset.mul_sum, heF]
    refine Finset.sum_congr rfl fun i _ => ?_
    rw [show P.el.kDiag i = 10 ^ 5 from coldMat_K S i]
    show _ * _ * (slipPQ fccM fccS).P i s = _
    simp only [hp]; ring
  have hg : P.gdot x = 0 := by
    funext s
    show (kmCold.evalGdot kmColdVals s (P.taua x s)).gdot = 0
    refine cold_off s _ ?_
    rw [htau, abs_mul]
    have h1 : |fccOverlap s / 12| ≤ 1 / 2 := by
      fin_cases s <;> simp [fccOverlap, abs_div] <;> norm_num
    have h2 : 0 ≤ 10 ^ 5 * (t + dt) * (1 / 10) := by positivity
    have h3 : 10 ^ 5 * (t + dt) * (1 / 10) ≤ 88 / 10 := by norm_num at ht1 ⊢; linarith
    rw [abs_of_nonneg h2]
    refine lt_of_le_of_lt (mul_le_mul h3 h1 (abs_nonneg _) (by norm_num)) ?_
    norm_num [coldTau]
  have hE : ∀ i, P.residE x i = 0 := by
    intro i
    have h1 : vecsVMa P.geom.P (0 : Vec 12) i = 0 := by simp [vecsVMa]
    unfold Updst.residE Updst.qr5x5
    rw [hedot, hg, h1, hcm, getRotMatVecd_one, hPd, P.aVri_one hPv, vecsVMTa_eq]
    simp
  have hR : ∀ i, P.residR x i = 0 := by
    intro i
    have h1 : vecsVMa P.geom.Q (0 : Vec 12) i = 0 := by simp [vecsVMa]
    have h2 : vecsVMTa (P.cMatx x) P.wSm i = 0 := by
      rw [show P.wSm = 0 from hin.w]; simp [vecsVMTa]
    have h3 : vecsVMa (m35 (fun i => (t + dt) * p i)) p i = 0 := by
      have a1 := Updst.m35_anti p p i
      have a2 : vecsVMa (m35 p) p i = 0 := by linarith
      rw [m35_smul]
      have : vecsVMa (fun i j => (t + dt) * m35 p i j) p i = (t + dt) * vecsVMa (m35 p) p i := by
        simp only [vecsVMa, Finset.mul_sum]
        exact Finset.sum_congr rfl fun j _ => by ring
      rw [this, a2, mul_zero]
    unfold Updst.residR
    rw [hxi, hg, h1, h2, heF, hedot, h3]
    simp
  have hres : P.resid x = 0 := by
    funext k
    refine forall_fin8 (p := fun k => P.resid x k = 0) (fun i => ?_) (fun i => ?_) k
    · simp [Updst.resid, hE]
    · simp [Updst.resid, hR]
  have hsol : Step.solve (testExt x) inp P = { converged := true, x := x, xLast := x, nFEvals := 1 } := by
    show probe 8 P.problem inp.tol 200 x = _
    refine probe_zero (J := P.jac x) ?_ h0 200
    show some (P.resid _, _) = some _
    rw [hres]
  obtain ⟨G, hG⟩ : ∃ G, (coldMat S).el.getGmod = .ok G := by
    refine ⟨(coldMat S).el.kGmod, ?_⟩
    unfold Elast.getGmod
    rw [if_neg]
    rw [not_le]
    show 0 < Elast.kGmod (.cubic _ _ _)
    norm_num [Elast.kGmod]
  have hflip : Step.flipQuat (P.cQuat x) P.cN = ![1, 0, 0, 0] := by
    rw [hcq, hcN]
    unfold Step.flipQuat
    rw [if_neg]
    simp [vecsyadotb, Fin.sum_univ_four]
  have key : getResponseSngl (testExt x) (coldMat S) inp m
      = Step.run (testExt x) (coldMat S) inp m (fun _ => 1) P := by
    unfold getResponseSngl
    rw [hsetup]
  rw [key]
  simp only [Step.run, hsol, hG, hm.mtan, Step.tangent]
  refine ⟨_, rfl, ?_⟩
  refine ⟨?_, ?_, ?_, ?_, rfl⟩
  · simp only [histOf, Hist.ofArray_toArray]; exact heF
  · simp only [histOf, Hist.ofArray_toArray]; exact hflip
  · simp only [histOf, Hist.ofArray_toArray]; rfl
  · simp only [histOf, Hist.ofArray_toArray]; exact hg

/-- **C78, the loading before the edge of flow.** The loading of `C78_refuted_cold` is accepted, by suitable
    solvers that keep the contract, as long as it stays below the edge of flow. -/
theorem C78_until (S : Solver 1) (dt : ℝ) (hdt : 0 < dt) (k : ℕ)
    (hS : kmCold.updateH S (fun _ => 1) dt (0 : Vec 12) = .ok (fun _ => 1, k))
    (N : ℕ) (hN : N * dt ≤ 88 / 10 ^ 5) (inp : ℕ → Inputs)
    (hin : ∀ i < N, ColdLoad dt (inp i) ∧ 0 ≤ (inp i).tol) (m₀ : Mem 1 12) (hm : ColdStart m₀)
    (ht : m₀.mtan = none) :
    ∃ (X : ℕ → Ext) (m : ℕ → Mem 1 12), (∀ i, (X i).solver.Sound) ∧ m 0 = m₀ ∧
      ∀ i < N, getResponseSngl (X i) (coldMat S) (inp i) (m i) = .ok (m (i + 1)) := by
  classical
  set X := testExt (elasticX fun i => dt * (1 / 10 * (slipPQ fccM fccS).P i 0)) with hX
  let m : ℕ → Mem 1 12 := fun i => Nat.rec m₀ (fun i mi =>
    match getResponseSngl X (coldMat S) (inp i) mi with
    | .ok m' => m'
    | _ => mi) i
  have hstep : ∀ i, m (i + 1) = match getResponseSngl X (coldMat S) (inp i) (m i) with
    | .ok m' => m'
    | _ => m i := fun i => rfl
  have key : ∀ i ≤ N, ElasticState (i * dt) (m i) ∧
      ∀ j < i, getResponseSngl X (coldMat S) (inp j) (m j) = .ok (m (j + 1)) := by
    intro i
    induction i with
    | zero =>
      intro _
      refine ⟨⟨?_, hm.q, hm.h, hm.gdot, ht⟩, fun j hj => absurd hj (Nat.not_lt_zero j)⟩
      rw [show (histOf (m 0)).e = 0 from hm.e]
      funext i; simp
    | succ i ih =>
      intro hi
      obtain ⟨h1, h2⟩ := ih (Nat.le_of_succ_le hi)
      have hle : (i : ℝ) * dt + dt ≤ 88 / 10 ^ 5 := by
        refine le_trans ?_ hN
        have : ((i + 1 : ℕ) : ℝ) ≤ N := by exact_mod_cast hi
        push_cast at this
        nlinarith
      obtain ⟨m', h3, h4⟩ := elastic_step hdt hS (hin i hi).1 (hin i hi).2 (by positivity) hle h1
      have h5 : m (i + 1) = m' := by
        rw [hstep, hX, h3]
      refine ⟨?_, fun j hj => ?_⟩
      · rw [h5]; push_cast
        rw [add_mul, one_mul]; exact h4
      · rcases Nat.lt_succ_iff_lt_or_eq.1 hj with hj | rfl
        · exact h2 j hj
        · rw [h5]; exact h3
  exact ⟨fun _ => X, m, fun _ => goTo_sound _, rfl, (key N le_rfl).2⟩

/-- the hypotheses of both theorems hold for a hundred updates of length `1e-8` -/
example : ∃ (S : Solver 1) (k : ℕ) (inp : Inputs) (m : Mem 1 12), S.Sound ∧
    kmCold.updateH S (fun _ => 1) (1 / 10 ^ 8) (0 : Vec 12) = .ok (fun _ => 1, k) ∧
    ColdLoad (1 / 10 ^ 8) inp ∧ inp.tol = 1 / 10 ^ 10 ∧ ColdStart m ∧ m.mtan = none ∧
    ((100 : ℕ) : ℝ) * (1 / 10 ^ 8) ≤ 88 / 10 ^ 5 := by
  refine ⟨probe 1, 1, { dt := 1 / 10 ^ 8, tol := 1 / 10 ^ 10, d := ?_, w := 0, vr := ![1, 1, 0, 0] },
    testMem (fun _ => 1) 0 0 none, probe_sound 1,
    km_rest kmCold (by norm_num [kmCold]) one_pos (by norm_num [KMBalD.hdnMin, kmCold]) _ 12,
    ⟨rfl, by norm_num, ?_, rfl, rfl⟩, rfl, ⟨?_, ?_, ?_, ?_⟩, rfl, by norm_num⟩
  · exact ![0, sqr6i / 10, -(sqr6i / 10), 0, -(sqr6i / 20), sqr6i / 20, 0]
  · rw [cold_d]
    ext i
    fin_cases i <;> simp [svecToVecd, slipPQ, fccM, fccS, matToP, vecsMsymm, vecsMaTb, symmToVecd] <;> sqr_ring
  all_goals simp only [histOf, testMem, Hist.ofArray_toArray]

end Ecm.Props
