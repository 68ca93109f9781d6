/-
  C62: an update of a valid state runs into no undefined operation (no failed assert, no division by
  zero, no root or logarithm of a non-positive number), and leaves a valid state behind.
-/
import Verif.Props.Response

namespace Ecm.Props
open Ecm Spec Matrix Classical

variable {n nH : ℕ}

/-- what the caller of one update has to provide: a non-zero time step and a positive new volume -/
structure UsableInputs (inp : Inputs) : Prop where
  dt : inp.dt ≠ 0
  vol : 0 < inp.vr 1

theorem notUndef_of_setup {X : Ext} {M : Material n nH} {inp : Inputs} {m : Mem nH n}
    (h : ∀ w, Step.setup M inp m ≠ .undef w) (w : String) : getResponseSngl X M inp m ≠ .undef w := by
  intro hc
  unfold getResponseSngl at hc
  cases h1 : Step.setup M inp m with
  | undef w' => exact h w' h1
  | fail s => rw [h1] at hc; cases hc
  | ok a =>
    obtain ⟨hU, P⟩ := a
    rw [h1] at hc
    simp only [Step.run] at hc
    by_cases h2 : (Step.solve X inp P).converged = false
    · simp [h2] at hc
    rw [if_neg h2] at hc
    cases h3 : Step.tangent X (Step.eosUpdate M inp m).bulkNew P (Step.solve X inp P).x
        m.mtan.isSome with
    | none => simp [h3] at hc
    | some t =>
      simp only [h3] at hc
      unfold Elast.getGmod at hc
      split_ifs at hc <;> cases hc

/-- **C62.** For any kinetics: the update is defined as soon as time step, volume, specific heat and
    stored orientation are usable and the kinetics' own two operations are defined. -/
theorem C62_any_kinetics (X : Ext) (M : Material n nH) (inp : Inputs) (m : Mem nH n)
    (hi : UsableInputs inp) (hcv : M.eos.cvav ≠ 0) (hq : (histOf m).q ≠ 0)
    (hH : ∀ w, M.kin.updateH (histOf m).h inp.dt (histOf m).gdot ≠ .undef w)
    (hV : ∀ hU k, M.kin.updateH (histOf m).h inp.dt (histOf m).gdot = .ok (hU, k) →
      ∀ p w, M.kin.getVals p (Step.tK M inp m) hU ≠ .undef w) :
    ∀ w, getResponseSngl X M inp m ≠ .undef w := by
  refine notUndef_of_setup ?_
  intro w hc
  unfold Step.setup at hc
  simp only at hc
  rw [if_neg hq, if_neg hcv] at hc
  cases h3 : M.kin.updateH (Hist.ofArray m.hist).h inp.dt (Hist.ofArray m.hist).gdot with
  | undef w' => exact hH w' h3
  | fail s => rw [h3] at hc; cases hc
  | ok u =>
    obtain ⟨u, kU⟩ := u
    rw [h3] at hc
    simp only [Out.bind, Updst.make] at hc
    rw [if_neg hi.dt, if_neg (not_le.2 hi.vol)] at hc
    cases h6 : M.kin.getVals (Step.eosUpdate M inp m).press (Step.tK M inp m) u with
    | undef w' => exact hV u kU h3 _ w' h6
    | fail s => rw [h6] at hc; cases hc
    | ok v => rw [h6] at hc; cases hc

/-- parameters of the dislocation kinetics for which every operation is defined -/
structure KMUsable {nV : ℕ} (k : KMBalD nV) : Prop where
  gammaO : 0 < k.gammaO
  hdnInit : 0 < k.hdnInit
  /-- the strength that is divided by stays positive -/
  barrier : if k.withGA then 0 < k.tauA else ∀ i, 0 < k.go i ∧ 0 ≤ k.s i

/-- **C62, dislocation kinetics.** With usable parameters and inputs, a non-zero stored quaternion and a
    temperature other than zero, the update is defined, whatever the stored density, energy, stress,
    slip rates and the solvers; a successful update stores a non-zero quaternion and a positive
    density. -/
theorem C62_kmbald {nV : ℕ} [NeZero nV] (k : KMBalD nV) (hk : KMUsable k) (S : Solver 1) (X : Ext)
    (M : Material n 1) (hM : M.kin = k.kin S n) (hcv : M.eos.cvav ≠ 0) (inp : Inputs)
    (hi : UsableInputs inp) (m : Mem 1 n) (hq : (histOf m).q ≠ 0)
    (hT : (M.eos.evalPT (inp.vr 0) m.eInt).2 ≠ 0) :
    (∀ w, getResponseSngl X M inp m ≠ .undef w) ∧
    ∀ m', getResponseSngl X M inp m = .ok m' → (histOf m').q ≠ 0 ∧ 0 < (histOf m').h 0 := by
  have hH : ∀ w, M.kin.updateH (histOf m).h inp.dt (histOf m).gdot ≠ .undef w := by
    intro w hc
    rw [hM] at hc
    simp only [KMBalD.kin, KMBalD.updateH] at hc
    have hf : 0 < max ((histOf m).h 0) k.hdnMin := by
      refine lt_max_of_lt_right ?_
      have := hk.hdnInit
      unfold KMBalD.hdnMin
      positivity
    rw [if_neg (not_le.2 hk.gammaO), if_neg (not_le.2 hf)] at hc
    unfold updateH1 at hc
    simp only at hc
    split_ifs at hc <;> cases hc
  have hpos : ∀ hU c, M.kin.updateH (histOf m).h inp.dt (histOf m).gdot = .ok (hU, c) → 0 < hU 0 := by
    intro hU c h
    rw [hM] at h
    exact C31_positive k S _ _ _ hU c h
  refine ⟨C62_any_kinetics X M inp m hi hcv hq hH ?_, ?_⟩
  · intro hU c h p w hc
    have h0 := hpos hU c h
    rw [hM] at hc
    simp only [KMBalD.kin, KMBalD.getVals] at hc
    rw [if_neg (not_le.2 h0), if_neg (show Step.tK M inp m ≠ 0 from hT)] at hc
    have hb := hk.barrier
    by_cases hg : k.withGA = true
    · rw [if_pos hg] at hb
      rw [if_neg (by rintro ⟨h, -⟩; simp [hg] at h), if_neg (by rintro ⟨-, h⟩; exact absurd h (not_le.2 hb))]
        at hc
      cases hc
    · rw [if_neg hg] at hb
      rw [if_neg, if_neg (by rintro ⟨h, -⟩; exact hg h)] at hc
      · cases hc
      · rintro ⟨-, i, hi⟩
        have := (hb i).1
        have := mul_nonneg (hb i).2 (Real.sqrt_nonneg (hU 0))
        linarith
  · intro m' hm'
    have hu := (C07_step X M inp m m' hm').1
    refine ⟨?_, ?_⟩
    · intro h0
      rw [h0] at hu
      simp [dot] at hu
    · obtain ⟨s⟩ := getResponseSngl_ok hm'
      rw [OkStep.hist_eq s]
      exact hpos _ _ s.hH

/-- **C62, dislocation kinetics, any history.** After any number of successful updates (each with its own
    solvers, rates, volumes, energies and stresses) the next one is defined, as long as its own time
    step, volume and temperature are usable. -/
theorem C62_kmbald_history {nV : ℕ} [NeZero nV] (k : KMBalD nV) (hk : KMUsable k) (S : Solver 1)
    (M : Material n 1) (hM : M.kin = k.kin S n) (hcv : M.eos.cvav ≠ 0) {N : ℕ} (T : Trajectory M N)
    (hN : 0 < N) (X : Ext) (inp : Inputs) (hi : UsableInputs inp) (m : Mem 1 n)
    (hm : m.hist = (T.m' (N - 1)).hist) (hT : (M.eos.evalPT (inp.vr 0) m.eInt).2 ≠ 0) :
    ∀ w, getResponseSngl X M inp m ≠ .undef w := by
  refine (C62_kmbald k hk S X M hM hcv inp hi m ?_ hT).1
  have := (C07_history T).1 (N - 1) (by omega)
  intro h0
  unfold histOf at h0 this
  rw [← hm, h0] at this
  simp [dot] at this

/-- **C62, dislocation kinetics.** At positive temperature and with positive rate and barrier parameters
    the values used in a successful update are admissible, so that the slip rates have the signs,
    bounds and non-zero divisors of C28 and C29. -/
theorem C62_kmbald_admissible {nV : ℕ} [NeZero nV] (k : KMBalD nV) (S : Solver 1) (X : Ext)
    (M : Material n 1) (hM : M.kin = k.kin S n) (inp : Inputs) (m m' : Mem 1 n)
    (h : getResponseSngl X M inp m = .ok m') (hT : 0 < (M.eos.evalPT (inp.vr 0) m.eInt).2)
    (hw : 0 < k.gamWo) (hr : 0 < k.gamRo) (hD : 0 < k.wrD) (hp : 0 < k.p) (hq : 0 < k.q)
    (hc : ∀ j, 0 ≤ k.c1 j * k.muRef) :
    ∃ v sc, k.getVals (M.eos.evalPT (inp.vr 0) m.eInt).2 (histOf m').h = .ok (v, sc) ∧
      ∀ j, KMAdm k v j := by
  obtain ⟨geom, kin, el, eos⟩ := M
  have hM' : kin = k.kin S n := hM
  subst hM'
  obtain ⟨s⟩ := getResponseSngl_ok h
  have hV := s.hV
  have hh : (histOf m').h = s.hU := by rw [OkStep.hist_eq s]; rfl
  generalize s.v = v at hV
  generalize s.scale = sc at hV
  refine ⟨v, sc, by rw [hh]; exact hV, ?_⟩
  intro j
  have hV' : k.getVals (eos.evalPT (inp.vr 0) m.eInt).2 s.hU = .ok (v, sc) := hV
  unfold KMBalD.getVals at hV'
  simp only at hV'
  split_ifs at hV' with h1 h2 h3 h4
  obtain ⟨rfl, -⟩ := Prod.mk.inj (Out.ok.inj hV')
  have hs : 0 < Real.sqrt (s.hU 0) := Real.sqrt_pos.2 (not_le.1 h1)
  refine ⟨div_pos hw hs, by positivity, hD, ?_, hp, hq, ?_⟩
  · have := hc j
    show 0 ≤ k.c1 j / (eos.evalPT (inp.vr 0) m.eInt).2 * k.muRef
    rw [div_mul_eq_mul_div]; positivity
  · split_ifs with hg
    · exact not_le.1 fun h => h4 ⟨hg, h⟩
    · have hg' : k.withGA = false := by simpa using hg
      exact not_le.1 fun h => h3 ⟨hg', _, h⟩

/-- **C62, power-law kinetics.** One update of the strength cannot lower it by more than the solver
    tolerance below the smaller of the old and the initial strength, and cannot raise it by more than the
    tolerance above the larger of the old and the saturation strength. -/
theorem C62_voce_strength (k : Voce) (hk : k.nonlinear = false) (hθ : 0 ≤ k.h0) (S : Solver 1)
    (hS : S.Sound) (hsO : Vec 1) (dt : ℝ) (hdt : 0 ≤ dt) (gdot : Vec n) (h' : Vec 1) (c : ℕ)
    (hok : k.updateH S hsO dt gdot = .ok (h', c)) :
    min (hsO 0) k.tausi - 1 / 10 ^ 10 * max (hsO 0) 1 ≤ h' 0 := by
  obtain ⟨z, hz, hn⟩ := C27_update k hk hθ S hS hsO dt hdt gdot h' c hok
  have hγ : 0 ≤ ∑ i, |gdot i| := Finset.sum_nonneg fun i _ => abs_nonneg _
  obtain ⟨h1, -, h3⟩ := (C27_solution k.h0 k.tausi _ _ (hsO 0) dt hθ hγ hdt).2 z hz
  have hlow : min (hsO 0) k.tausi ≤ z := by
    by_cases hs : voceSat k.taus0 k.gamss0 k.xms (∑ i, |gdot i|) ≤ k.tausi
    · rw [h3 (Or.inl hs)]
      exact min_le_left _ _
    · push Not at hs
      exact (min_le_min_left _ hs.le).trans h1
  have := (abs_le.1 hn).1
  linarith

/-- **C62, power-law kinetics (linear hardening).** With a sound solver and a positive time step, the
    update is defined as long as the old and the initial strength exceed the solver tolerance (1e-10
    times the larger of the old strength and one); a successful update stores a positive strength and
    a non-zero quaternion. -/
theorem C62_voce (k : Voce) (hk : k.nonlinear = false) (hθ : 0 ≤ k.h0) (hg : 0 < k.gamss0)
    (S : Solver 1) (hS : S.Sound) (X : Ext) (M : Material n 1) (hM : M.kin = k.kin S n)
    (hcv : M.eos.cvav ≠ 0) (inp : Inputs) (hi : UsableInputs inp) (hdt : 0 < inp.dt) (m : Mem 1 n)
    (hq : (histOf m).q ≠ 0)
    (hh : 1 / 10 ^ 10 * max ((histOf m).h 0) 1 < min ((histOf m).h 0) k.tausi) :
    (∀ w, getResponseSngl X M inp m ≠ .undef w) ∧
    ∀ m', getResponseSngl X M inp m = .ok m' → (histOf m').q ≠ 0 ∧ 0 < (histOf m').h 0 := by
  have hpos : ∀ hU c, M.kin.updateH (histOf m).h inp.dt (histOf m).gdot = .ok (hU, c) → 0 < hU 0 := by
    intro hU c h
    rw [hM] at h
    have := C62_voce_strength k hk hθ S hS _ _ hdt.le _ hU c h
    linarith
  refine ⟨C62_any_kinetics X M inp m hi hcv hq ?_ ?_, ?_⟩
  · intro w hc
    rw [hM] at hc
    simp only [Voce.kin, Voce.updateH] at hc
    rw [if_neg (not_le.2 hg)] at hc
    unfold updateH1 at hc
    simp only at hc
    split_ifs at hc <;> cases hc
  · intro hU c h p w hc
    have h0 := hpos hU c h
    rw [hM] at hc
    simp only [Voce.kin] at hc
    rw [if_pos h0] at hc
    cases hc
  · intro m' hm'
    have hu := (C07_step X M inp m m' hm').1
    refine ⟨?_, ?_⟩
    · intro h0
      rw [h0] at hu
      simp [dot] at hu
    · obtain ⟨s⟩ := getResponseSngl_ok hm'
      rw [OkStep.hist_eq s]
      exact hpos _ _ s.hH

/-- **C62, power-law kinetics, any history.** As long as the strengths stay below `U`, `N` updates lower
    the strength at most by `N` times the tolerance below the smaller of the first and the initial
    strength; in particular the next update is defined while that is positive. -/
theorem C62_voce_history (k : Voce) (hk : k.nonlinear = false) (hθ : 0 ≤ k.h0) (hg : 0 < k.gamss0)
    (S : Solver 1) (hS : S.Sound) (M : Material n 1) (hM : M.kin = k.kin S n)
    (hcv : M.eos.cvav ≠ 0) {N : ℕ} (T : Trajectory M N) (hdt : ∀ j < N, 0 < (T.inp j).dt) (U : ℝ)
    (hU1 : 1 ≤ U) (hU : ∀ j < N, (histOf (T.m j)).h 0 ≤ U) (hN : 0 < N) :
    min ((histOf (T.m 0)).h 0) k.tausi - N * (1 / 10 ^ 10 * U) ≤
      min ((histOf (T.m' (N - 1))).h 0) k.tausi ∧
    ∀ (X : Ext) (inp : Inputs) (m : Mem 1 n), UsableInputs inp → 0 < inp.dt →
      m.hist = (T.m' (N - 1)).hist → (histOf m).h 0 ≤ U →
      (N + 1) * (1 / 10 ^ 10 * U) < min ((histOf (T.m 0)).h 0) k.tausi →
      ∀ w, getResponseSngl X M inp m ≠ .undef w := by
  have key : ∀ j, j < N → min ((histOf (T.m 0)).h 0) k.tausi - (j + 1) * (1 / 10 ^ 10 * U) ≤
      min ((histOf (T.m' j)).h 0) k.tausi := by
    intro j
    induction j with
    | zero =>
      intro hj
      obtain ⟨s⟩ := getResponseSngl_ok (T.ok 0 hj)
      have hs := s.hH
      rw [hM] at hs
      have h1 := C62_voce_strength k hk hθ S hS _ _ (hdt 0 hj).le _ _ _ hs
      have h2 : (histOf (T.m' 0)).h = s.hU := by rw [OkStep.hist_eq s]; rfl
      have h3 : max ((histOf (T.m 0)).h 0) 1 ≤ U := max_le (hU 0 hj) hU1
      rw [h2]
      refine le_min ?_ ?_
      · push_cast; unfold histOf at *; linarith
      · have := min_le_right ((histOf (T.m 0)).h 0) k.tausi
        push_cast; nlinarith
    | succ j ih =>
      intro hj
      have ih' := ih (by omega)
      obtain ⟨s⟩ := getResponseSngl_ok (T.ok (j + 1) hj)
      have hs := s.hH
      rw [hM] at hs
      have h1 := C62_voce_strength k hk hθ S hS _ _ (hdt (j + 1) hj).le _ _ _ hs
      have h2 : (histOf (T.m' (j + 1))).h = s.hU := by rw [OkStep.hist_eq s]; rfl
      have h3 : max ((histOf (T.m (j + 1))).h 0) 1 ≤ U := max_le (hU _ hj) hU1
      have h4 : (histOf (T.m (j + 1))).h = (histOf (T.m' j)).h := by
        unfold histOf; rw [T.link j hj]
      rw [h2]
      refine le_min ?_ ?_
      · have h5 : (Hist.ofArray (T.m (j + 1)).hist).h = (histOf (T.m' j)).h := h4
        rw [h4] at h3
        rw [h5] at h1
        push_cast; nlinarith
      · have := min_le_right ((histOf (T.m' j)).h 0) k.tausi
        push_cast; nlinarith
  have e : ((N - 1 : ℕ) : ℝ) + 1 = N := by
    have : ((N - 1 + 1 : ℕ) : ℝ) = N := by congr 1; omega
    push_cast at this ⊢; linarith
  have hlast := key (N - 1) (by omega)
  rw [e] at hlast
  refine ⟨hlast, ?_⟩
  intro X inp m hi hd hm hmU hpos
  have hmh : (histOf m) = histOf (T.m' (N - 1)) := by unfold histOf; rw [hm]
  refine (C62_voce k hk hθ hg S hS X M hM hcv inp hi hd m ?_ ?_).1
  · have := (C07_history T).1 (N - 1) (by omega)
    intro h0
    rw [← hmh, h0] at this
    simp [dot] at this
  · have h3 : max ((histOf m).h 0) 1 ≤ U := max_le hmU hU1
    rw [hmh] at h3 ⊢
    nlinarith

/-- **C62, the margin is needed.** The tolerance of the hardening solve is relative only for strengths
    above one.  For a positive strength of 1e-11 a sound solver may return a negative one, and the next
    operation fails its assert. -/
theorem C62_margin_needed : ∃ (k : Voce) (S : Solver 1), k.nonlinear = false ∧ 0 < k.h0 ∧
    0 < k.gamss0 ∧ 0 < k.tausi ∧ S.Sound ∧
    ∃ hU c, (k.kin S 1).updateH (fun _ => 1 / 10 ^ 11) 1 (fun _ => 0) = .ok (hU, c) ∧
      ∃ w, (k.kin S 1).getVals 0 300 hU = .undef w := by
  let S : Solver 1 := fun P tol _ _ =>
    match P (fun _ => -(1 / 10 ^ 10)) with
    | some (r, _) => { converged := decide (vecNorm r ≤ tol), x := fun _ => -(1 / 10 ^ 10)
                       xLast := fun _ => -(1 / 10 ^ 10), nFEvals := 1 }
    | none => { converged := false, x := fun _ => 0, xLast := fun _ => 0, nFEvals := 1 }
  have hS : S.Sound := by
    intro P tol _ x0 hc
    simp only [S] at hc ⊢
    cases hP : P (fun _ => -(1 / 10 ^ 10)) with
    | none => rw [hP] at hc; simp at hc
    | some rj =>
      rw [hP] at hc
      simp only [decide_eq_true_eq] at hc
      exact ⟨⟨rj.1, rj.2, hP, hc⟩, rfl⟩
  have hev : voceExample.getEvolVals (fun _ : Fin 1 => 0) = (0, 2) := by
    unfold Voce.getEvolVals
    have h0 : vecsssumabs (fun _ : Fin 1 => (0 : ℝ)) = 0 := by simp [vecsssumabs]
    simp only [h0]
    rw [if_neg (not_lt.2 idpTinySqrt_pos.le)]
    rfl
  have hlaw : ∀ h, voceExample.getSdot1 (0, 2) h = some (0, 0) := by
    intro h
    simp [Voce.getSdot1, voceExample]
  have hmax : max ((1 : ℝ) / 10 ^ 11) 1 = 1 := max_eq_right (by norm_num)
  refine ⟨voceExample, S, rfl, by norm_num [voceExample], by norm_num [voceExample],
    by norm_num [voceExample], hS, (fun _ => 1 / 10 ^ 11 - 1 / 10 ^ 10), 1, ?_, "assert(vals[0] > zero)", ?_⟩
  · show voceExample.updateH S (fun _ => 1 / 10 ^ 11) 1 (fun _ : Fin 1 => 0) = _
    unfold Voce.updateH
    rw [if_neg (by norm_num [voceExample]), hev]
    have hP : ({ law := voceExample.getSdot1 (0, 2), hO := 1 / 10 ^ 11, dt := 1 } : H1Problem).problem
        (fun _ => -(1 / 10 ^ 10)) = some ((fun _ => -(1 / 10 ^ 10)), fun _ _ => 1) := by
      unfold H1Problem.problem
      rw [H1Problem.computeRJ_some (hlaw _)]
      simp only [Option.map_some, H1Problem.xScale, H1Problem.resScale, hmax]
      simp
      rfl
    have hn : vecNorm (fun _ : Fin 1 => -((1 : ℝ) / 10 ^ 10)) ≤ 1 / 10 ^ 10 := by
      unfold vecNorm
      simp only [Finset.univ_unique, Finset.sum_const, Finset.card_singleton, one_smul]
      rw [show -((1 : ℝ) / 10 ^ 10) * -(1 / 10 ^ 10) = (1 / 10 ^ 10) ^ 2 by ring,
        Real.sqrt_sq (by norm_num)]
    simp only [updateH1, S, hP, hn, decide_true, if_true, Out.bind, H1Problem.getHn, H1Problem.xScale,
      hmax]
    congr 2
    funext _
    ring
  · exact if_neg (by norm_num)

/-- the hypotheses of C62 can be met: the example of C28 has usable parameters -/
example : KMUsable kmExample ∧ UsableInputs (exInp exEl 0) ∧ (histOf (exMem 0 none)).q ≠ 0 ∧
    ((exMat exEl).eos.evalPT ((exInp exEl 0).vr 0) (exMem 0 none).eInt).2 ≠ 0 ∧
    (exMat exEl).eos.cvav ≠ 0 := by
  refine ⟨⟨by norm_num [kmExample], by norm_num [kmExample], by norm_num [kmExample]⟩,
    ⟨by norm_num [exInp], by norm_num [exInp]⟩, ?_, ?_, by norm_num [exMat]⟩
  · unfold histOf
    rw [ex_ofArray]
    intro h
    have := congrFun h 2
    simp [exHist] at this
  · norm_num [Eos.evalPT, exMat, exMem, Eos.tK0, Eos.dtde0]

/-- the example step meets the hypotheses of the power-law version -/
example : (exMat exEl).kin = voceExample.kin (probe 1) 12 ∧ (probe 1).Sound ∧
    voceExample.nonlinear = false ∧ 0 < (exInp exEl 0).dt ∧
    1 / 10 ^ 10 * max ((histOf (exMem 0 none)).h 0) 1
      < min ((histOf (exMem 0 none)).h 0) voceExample.tausi := by
  refine ⟨rfl, probe_sound 1, rfl, by norm_num [exInp], ?_⟩
  unfold histOf
  rw [ex_ofArray]
  norm_num [exHist, voceExample]

end Ecm.Props
