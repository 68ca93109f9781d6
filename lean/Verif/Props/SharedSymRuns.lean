/- Property theorems C100, continued: a crystal with rotations in common with its loading has a step that keeps them, for
   every step length, and histories of such steps (src/ecmech/ECMech_evptn.h, getResponseSngl and computeRJ). -/
import Verif.Props.SharedSymCases
import Verif.Lemmas.SharedSymExist
import Verif.Props.Runs

namespace Ecm.Props
open Ecm Spec Matrix

variable {n nH : ℕ}

/-! ### Solvers that find what there is -/

/-- a solver that keeps its contract, and finds an acceptable point with the symmetries `G` of the equations whenever there
    is one -/
structure SymFinder (G : Set (Mat n n)) (S : Solver n) : Prop where
  sound : S.Sound
  found : ∀ F tol maxIter, SymKept G F → (∃ x r J, F x = some (r, J) ∧ len r ≤ tol ∧ ∀ T ∈ G, T.mulVec x = x) →
    (S F tol maxIter fun _ => 0).converged = true ∧
    ∀ T ∈ G, T.mulVec (S F tol maxIter fun _ => 0).x = (S F tol maxIter fun _ => 0).x

/-- the solver that finds a symmetric point whenever there is one, and otherwise does what `S` does -/
noncomputable def symIdeal (G : Set (Mat n n)) (S : Solver n) : Solver n := fun F tol maxIter x0 =>
  haveI := Classical.propDecidable (∃ x, (∃ r J, F x = some (r, J) ∧ len r ≤ tol) ∧ ∀ T ∈ G, T.mulVec x = x)
  if h : ∃ x, (∃ r J, F x = some (r, J) ∧ len r ≤ tol) ∧ ∀ T ∈ G, T.mulVec x = x then
    { converged := true, x := h.choose, xLast := h.choose, nFEvals := 1 }
  else S F tol maxIter x0

/-- the solver that gives up at once -/
def givesUp (n : ℕ) : Solver n := fun _ _ _ x0 => { converged := false, x := x0, xLast := x0, nFEvals := 1 }

theorem symIdeal_sound (G : Set (Mat n n)) {S : Solver n} (hS : S.Sound) : (symIdeal G S).Sound := by
  intro F tol maxIter x0 hc
  by_cases h : ∃ x, (∃ r J, F x = some (r, J) ∧ len r ≤ tol) ∧ ∀ T ∈ G, T.mulVec x = x
  · simp only [symIdeal, dif_pos h]
    exact ⟨h.choose_spec.1, trivial⟩
  · simp only [symIdeal, dif_neg h] at hc ⊢
    exact hS F tol maxIter x0 hc

theorem givesUp_sound : (givesUp n).Sound := fun _ _ _ _ hc => absurd hc (by simp [givesUp])

/-- **C100, solvers.** There are such solvers: one that finds every acceptable point besides, and one that has no others
    than symmetric ones. -/
theorem C100_finder (G : Set (Mat n n)) :
    (SymFinder G (symIdeal G (idealSolver n)) ∧ Finds (symIdeal G (idealSolver n))) ∧
    SymFinder G (symIdeal G (givesUp n)) ∧ SymSolver G (symIdeal G (givesUp n)) := by
  have key : ∀ S : Solver n, S.Sound → SymFinder G (symIdeal G S) := fun S hS =>
    { sound := symIdeal_sound G hS
      found := by
        rintro F tol maxIter - ⟨x, r, J, hx, hr, hT⟩
        have h : ∃ x, (∃ r J, F x = some (r, J) ∧ len r ≤ tol) ∧ ∀ T ∈ G, T.mulVec x = x := ⟨x, ⟨r, J, hx, hr⟩, hT⟩
        simp only [symIdeal, dif_pos h]
        exact ⟨trivial, h.choose_spec.2⟩ }
  refine ⟨⟨key _ (idealSolver_sound n), symIdeal_sound G (idealSolver_sound n), fun F tol maxIter x0 hx => ?_⟩,
    key _ givesUp_sound, symIdeal_sound G givesUp_sound, fun F tol maxIter hF hc => ?_⟩
  · by_cases h : ∃ x, (∃ r J, F x = some (r, J) ∧ len r ≤ tol) ∧ ∀ T ∈ G, T.mulVec x = x
    · simp only [symIdeal, dif_pos h]
    · simp only [symIdeal, dif_neg h]
      exact (idealSolver_finds n).found F tol maxIter x0 hx
  · by_cases h : ∃ x, (∃ r J, F x = some (r, J) ∧ len r ≤ tol) ∧ ∀ T ∈ G, T.mulVec x = x
    · simp only [symIdeal, dif_pos h]
      exact h.choose_spec.2
    · simp [symIdeal, dif_neg h, givesUp] at hc

/-! ### A solution that keeps the symmetries -/

theorem powLaw_neg (k : Voce) (hm : 0 < k.xm) (g τ : ℝ) : k.powLaw g (-τ) = -k.powLaw g τ := by
  rcases lt_trichotomy τ 0 with h | h | h
  · unfold Voce.powLaw
    rw [if_pos (by linarith), if_neg (by linarith), neg_neg]
  · subst h; rw [neg_zero, k.powLaw_zero hm, neg_zero]
  · unfold Voce.powLaw
    rw [if_neg (by linarith), if_pos h.le, neg_neg]

/-- **C100, solution.** For the power law the equations of a crystal that shares rotations without a common axis with its
    loading have, for every step length that C72 allows, an acceptable point without turning that shares the rotations. -/
theorem C100_solution (P : Updst n) (m s : Fin n → Vec 3) (hgeom : P.geom = slipPQ m s)
    (hms : ∀ i, IsSlipSystem (m i) (s i)) (hcn : dot P.cN P.cN = 1) (hdt : 0 < P.dt) (hv : 0 < P.detV)
    (κ : ℝ) (hst : ∀ E, IsDev E → E ≠ 0 → 0 < ddot E (refStress P.el E))
    (hκ : ∀ E, IsDev E → ddot E (refStress P.el E) ≤ κ * ddot E E)
    (k : Voce) (hm : 0 < k.xm) (hw : 0 < k.gamW) (g : ℝ) (hg : 0 < g)
    (hgd : ∀ i τ, (P.gd i τ).gdot = (k.evalGdot g τ).gdot) (ha : P.adotsRef = k.gamW)
    (F : Vec 5) (hF : ∀ i : Fin 5, P.elastNEtoT F i.castSucc = 0)
    (hs : (energyNorm P.el (vecdToSymm P.eN - vecdToSymm F)
        + P.dt * P.detV ^ (1 / 3 : ℝ) * (Real.sqrt κ * len P.dSm)) ^ 2
      ≤ 4 * (P.dt * (P.detV ^ (1 / 3 : ℝ)) ^ 2) * ((10 ^ 60 : ℝ) ^ k.xm * g * (10 ^ 60 * k.gamW)))
    (G : Set T3) (hG : NoAxis G) (hsym : ∀ R ∈ G, ∃ h, dot h h = 1 ∧ quatToTensor h = R ∧ P.Shares h ∧
      Nonempty (P.Symmetry m s (quatToTensor h))) :
    ∃ x, Updst.xiF x = 0 ∧ (∀ T ∈ turnsOf G, T.mulVec x = x) ∧
      len (P.resid x) ≤ n / 10 ^ 51 + 1 / 10 ^ 79 * (1 + len P.wSm / k.gamW) := by
  have hK := (C47_positive_definite P.el).1 hst
  have hF' : F = P.eFree := by
    funext i
    have h := hF i
    rw [P.elastNEtoT_castSucc] at h
    unfold Updst.aVri at h
    have h1 := P.aV_pos hv
    have h2 := hK i
    unfold Updst.eFree
    field_simp at h ⊢
    linarith
  have e : k.tMax = (10 ^ 60 : ℝ) ^ k.xm := by unfold Voce.tMax gamRatioOvf; norm_num
  rw [vecdToSymm_sub, energyNorm_eq, hF', ← e] at hs
  have hr : 0 < P.adotsRef := ha ▸ hw
  have hcn' : qn P.cN = 1 := by rwa [dot_self_quat] at hcn
  let Q : Set (Vec 4) := { h | qn h = 1 ∧ quatToTensor h ∈ G ∧ P.Shares h ∧ Nonempty (P.Symmetry m s (quatToTensor h)) }
  obtain ⟨x, hξ, hx, hxE, hxR⟩ := P.exists_shared (h := fun _ => k.powLaw g) (m := m) (s := s) hK hdt hv hcn' hr
    (fun _ => k.powLaw_continuous hm g) (fun _ => k.powLaw_monotone hm hw hg) (fun _ => k.powLaw_zero hm g) Q
    (by
      rintro h ⟨hh, -, hsh, ⟨S⟩⟩
      refine ⟨hh, hsh, S, fun i τ => ?_⟩
      rcases S.sgn i with h1 | h1 <;> rw [h1]
      · simp
      · rw [neg_one_mul, neg_one_mul, powLaw_neg k hm])
    (fun v hv' => hG v fun R hR => by
      obtain ⟨h, hh, rfl, hsh, hS⟩ := hsym R hR
      rw [dot_self_quat] at hh
      exact hv' h ⟨hh, hR, hsh, hS⟩)
  refine ⟨x, hξ, ?_, ?_⟩
  · rintro T ⟨h, hh, hR, rfl⟩
    obtain ⟨h', hh', e', hsh, hS⟩ := hsym _ hR
    rw [dot_self_quat] at hh'
    have et : turnM h' = turnM h := by unfold turnM; rw [e']
    rw [← et, turnM_mulVec hh']
    exact hx h' ⟨hh', by rw [e']; exact hR, hsh, hS⟩
  · have e51 : (n : ℝ) / 10 ^ 51 = n * (1 / 10 ^ 60) * 10 ^ 9 := by ring
    rw [e51, ← ha]
    exact P.near_at (h := fun _ => k.powLaw g) (by norm_num) hr (fun _ => k.powLaw_monotone hm hw hg)
      (fun _ => k.powLaw_zero hm g) (hgeom ▸ slipPQ_le hms) hK (kDiag_le hκ) hdt hv hcn'
      (P.voce_close k hm hw hg hgd ha hdt hv hs) x hxE hxR

/-! ### Steps and histories -/

/-- a step whose solver converges succeeds -/
theorem step_of_converged {X : Ext} {M : Material n nH} {inp : Inputs} {mem : Mem nH n} {hU : Vec nH} {P : Updst n}
    (hset : Step.setup M inp mem = .ok (hU, P)) (hK : ∀ i, 0 < M.el.kDiag i)
    (hL : mem.mtan = none ∨ ∀ A B, (X.lup A B).isSome) (hc : (Step.solve X inp P).converged = true) :
    ∃ mem', getResponseSngl X M inp mem = .ok mem' := by
  have ht : ∃ t, Step.tangent X (Step.eosUpdate M inp mem).bulkNew P (Step.solve X inp P).x mem.mtan.isSome
      = some t := by
    unfold Step.tangent
    rcases hL with hL | hL
    · rw [hL]; exact ⟨none, rfl⟩
    · split_ifs
      · unfold Updst.mtan
        obtain ⟨y, hy⟩ := Option.isSome_iff_exists.1 (hL (P.jacU (Step.solve X inp P).x)
          (P.pfracRhsT (Step.solve X inp P).x))
        rw [hy]
        exact ⟨_, rfl⟩
      · exact ⟨none, rfl⟩
  obtain ⟨t, ht⟩ := ht
  unfold getResponseSngl
  rw [hset]
  simp only [Step.run, hc, ht, getGmod_of_stable hK]
  exact ⟨_, rfl⟩

/-- **C100, found step.** The step of a power-law crystal that shares rotations without a common axis with its loading
    succeeds for every step length that C72 allows, if the solver finds what there is, and leads to a symmetric state
    without turning. -/
theorem C100_found (M : Material n 1) (m s : Fin n → Vec 3) (hgeom : M.geom = slipPQ m s)
    (hms : ∀ i, IsSlipSystem (m i) (s i)) (k : Voce) (S : Solver 1) (hkin : M.kin = k.kin S n)
    (hm : 0 < k.xm) (hw : 0 < k.gamW) (κ : ℝ)
    (hst : ∀ E, IsDev E → E ≠ 0 → 0 < ddot E (refStress M.el E))
    (hκ : ∀ E, IsDev E → ddot E (refStress M.el E) ≤ κ * ddot E E)
    (inp : Inputs) (hdt : 0 < inp.dt) (mem : Mem 1 n)
    (hU : Vec 1) (P : Updst n) (hset : Step.setup M inp mem = .ok (hU, P))
    (F : Vec 5) (hF : ∀ i : Fin 5, P.elastNEtoT F i.castSucc = 0)
    (hs : (energyNorm M.el (vecdToSymm (histOf mem).e - vecdToSymm F)
        + inp.dt * (inp.vr 1) ^ (1 / 3 : ℝ) * (Real.sqrt κ * frob (devOfSvecP inp.d))) ^ 2
      ≤ 4 * (inp.dt * ((inp.vr 1) ^ (1 / 3 : ℝ)) ^ 2) * ((10 ^ 60 : ℝ) ^ k.xm * hU 0 * (10 ^ 60 * k.gamW)))
    (htol : n / 10 ^ 51 + 1 / 10 ^ 79 * (1 + len inp.w / k.gamW) ≤ inp.tol) {G : Set T3} (hG : NoAxis G)
    (hLat : ∀ R ∈ G, LatticeSym M m s (Step.tK M inp mem) R) (hsy : SymState G (histOf mem))
    (hi : SymLoad G (quatToTensor (histOf mem).q) inp)
    (X : Ext) (hX : SymFinder (turnsOf G) X.solver) (hL : mem.mtan = none ∨ ∀ A B, (X.lup A B).isSome) :
    ∃ mem', getResponseSngl X M inp mem = .ok mem' ∧
      (histOf mem').q = (histOf mem).q ∧ SymState G (histOf mem') ∧
      (∀ R ∈ G, ∃ (π : Equiv.Perm (Fin n)) (ε : Fin n → ℝ), (∀ i, ε i = 1 ∨ ε i = -1) ∧
        (∀ i, R * dyad (s i) (m i) * R.transpose = ε i • dyad (s (π i)) (m (π i))) ∧
        ∀ i, (histOf mem').gdot (π i) = ε i * (histOf mem').gdot i) ∧
      ∀ R ∈ G, rotSvec (quatToTensor (histOf mem).q * R * (quatToTensor (histOf mem).q).transpose) mem'.stress
        = mem'.stress := by
  obtain ⟨kU, v, sc, hq, hcv, hdt0, hv, hH, hV, hP⟩ := Step.setup_ok hset
  have hgV : ∃ hg : 0 < hU 0, (∀ i τ, (P.gd i τ).gdot = (k.evalGdot (hU 0) τ).gdot) ∧
      P.adotsRef = k.gamW := by
    clear hLat hH
    obtain ⟨geom, kin, el, eos⟩ := M
    simp only at hkin
    subst hkin
    simp only [Voce.kin] at hV
    split_ifs at hV with hg
    cases hV
    refine ⟨hg, ?_, ?_⟩
    · intro i τ; rw [hP]; rfl
    · rw [hP]; rfl
  obtain ⟨hg, hgd, ha⟩ := hgV
  have hK := (C47_positive_definite M.el).1 hst
  have hkept := (symKept_setup hset hgeom hms hG hLat hsy hi).2
  obtain ⟨x, -, hx, hres⟩ := C100_solution P m s (by rw [hP]; exact hgeom) hms
    (by rw [dot_self_quat, hP]; exact qn_quatN hq) (by rw [hP]; exact hdt) (by rw [hP]; exact hv) κ
    (by rw [hP]; exact hst) (by rw [hP]; exact hκ) k hm hw (hU 0) hg hgd ha F hF (by
      rw [frob_eq hi.dev] at hs
      rw [hP]; exact hs) G hG fun R hR => by
        obtain ⟨h, Sy, hh, hRh, hsh, -⟩ := symProblem hset hgeom hms hsy hi hR (hLat R hR)
        exact ⟨h, by rw [dot_self_quat]; exact hh, hRh, hsh, ⟨Sy⟩⟩
  have hwS : P.wSm = inp.w := by rw [hP]
  rw [hwS] at hres
  obtain ⟨hc, hfix⟩ := hX.found P.problem inp.tol _ hkept ⟨x, P.resid x, P.jac x, rfl, hres.trans htol, hx⟩
  obtain ⟨mem', hok⟩ := step_of_converged hset hK hL hc
  refine ⟨mem', hok, ?_⟩
  obtain ⟨W⟩ := getResponseSngl_ok hok
  refine symStep hX.sound hgeom hms hG hLat hsy hi W fun _ => ?_
  have hWP : W.P = P := by
    have h1 := Step.setup_eq_ok (M := M) (inp := inp) (m := mem) W.hq W.hcv W.hdt W.hv W.hH W.hV
    rw [hset] at h1
    exact W.hP.trans (Prod.mk.inj (Out.ok.inj h1)).2.symm
  rw [hWP]
  exact hfix

/-- **C100, runs.** A cubic crystal with power-law slip goes through any history of at most a thousand million steps that
    shares rotations without a common axis with it (steps not so short that the imposed strain would need rates beyond
    1e60 reference rates, as in C82): every step succeeds, the orientation stays exactly what it was, and strain and
    stress keep the symmetries. -/
theorem C100_runs {M : Material n 1} {m s : Fin n → V3} (hl : CubicList m s) (hgeom : M.geom = slipPQ m s)
    {k : Voce} {S : Solver 1} (hS : Finds S) {c11 c12 c44 : ℝ}
    (hM : PowerCubic M k S c11 c12 c44) {H hm : ℝ} (hk : Steady n k H) (hm0 : 0 < hm) (hmt : hm ≤ k.tausi) {K : ℕ}
    (hK : K ≤ 10 ^ 9) (hKm : K * (4 / 10 ^ 10 * H) ≤ hm) {G : Set T3} (hG : NoAxis G)
    (hGc : ∀ R ∈ G, ∃ σ η, R = cubicOp σ η ∧ R.det = 1) (X : ℕ → Ext)
    (hX : ∀ j < K, SymFinder (turnsOf G) (X j).solver) (hX' : ∀ j < K, Finds (X j).solver)
    (hL : ∀ j < K, ∀ A B, ((X j).lup A B).isSome) (inp : ℕ → Inputs) (E : ℝ)
    (hi : ∀ j < K, Loads n k (stiff c11 c12 c44) (hm / 2)
      (E + ∑ i ∈ Finset.range j, stepSupply (stiff c11 c12 c44) k.gamW (inp i)) (inp j))
    (next : ℕ → Mem 1 n → Mem 1 n) (hnext : ∀ j m, (next j m).hist = m.hist) (m0 : Mem 1 n)
    (hr : InRange k M.el hm H E (histOf m0)) (hs0 : SymState G (histOf m0))
    (hload : ∀ j < K, SymLoad G (quatToTensor (histOf m0).q) (inp j)) :
    ∃ t : Trajectory M K, t.X = X ∧ t.inp = inp ∧ t.m 0 = m0 ∧ (∀ j, t.m (j + 1) = next j (t.m' j)) ∧
      ∀ j < K, (histOf (t.m' j)).q = (histOf m0).q ∧ SymState G (histOf (t.m' j)) ∧
        ∀ R ∈ G, rotSvec (quatToTensor (histOf m0).q * R * (quatToTensor (histOf m0).q).transpose) (t.m' j).stress
          = (t.m' j).stress := by
  obtain ⟨t, htX, hinp, hm0', hnx, hrange⟩ := C82_history hS hM hk hm0 hmt hK hKm X hX' hL inp E
    hi next hnext m0 hr
  refine ⟨t, htX, hinp, hm0', hnx, ?_⟩
  have hsys := (cubicList_props hl).1
  have hst : ∀ E, IsDev E → E ≠ 0 → 0 < ddot E (refStress M.el E) := by
    rw [hM.el]
    exact (C47_positive_definite _).2 (((C47_stability_constants c11 c12 0 0 c44 0).1).2 hM.stable)
  have hκ : ∀ E, IsDev E → ddot E (refStress M.el E) ≤ stiff c11 c12 c44 * ddot E E := by
    rw [hM.el]; exact fun E hE => cubic_stiff E hE
  have hhist : ∀ j, j + 1 < K → histOf (t.m (j + 1)) = histOf (t.m' j) := fun j hj => by
    unfold histOf; rw [t.link j hj]
  -- one step of the run
  have one : ∀ j < K, (histOf (t.m j)).q = (histOf m0).q → SymState G (histOf (t.m j)) →
      (histOf (t.m' j)).q = (histOf m0).q ∧ SymState G (histOf (t.m' j)) ∧
        ∀ R ∈ G, rotSvec (quatToTensor (histOf m0).q * R * (quatToTensor (histOf m0).q).transpose) (t.m' j).stress
          = (t.m' j).stress := by
    intro j hj hq hsy
    have hok := t.ok j hj
    rw [htX, hinp] at hok
    obtain ⟨W⟩ := getResponseSngl_ok hok
    have hset := Step.setup_eq_ok (M := M) (inp := inp j) (m := t.m j) W.hq W.hcv W.hdt W.hv W.hH W.hV
    rw [← W.hP] at hset
    have hlow : hm / 2 ≤ W.hU 0 := by
      have h1 := (hrange j hj).low
      have h2 : (histOf (t.m' j)).h = W.hU := by rw [OkStep.hist_eq W]; rfl
      rwa [h2] at h1
    have hstrain : energyNorm M.el (vecdToSymm (histOf (t.m j)).e)
        ≤ E + ∑ i ∈ Finset.range j, stepSupply (stiff c11 c12 c44) k.gamW (inp i) := by
      cases j with
      | zero => rw [hm0']; simpa using hr.strain
      | succ j => rw [hhist j hj]; exact (hrange j (by omega)).strain
    have hE0 : 0 ≤ energyNorm M.el (vecdToSymm (histOf (t.m j)).e) := Real.sqrt_nonneg _
    have hlj := hi j hj
    have hI0 : 0 ≤ imposed (stiff c11 c12 c44) (inp j) :=
      mul_nonneg (mul_nonneg hlj.dt.le (Real.rpow_nonneg hlj.vol.le _))
        (mul_nonneg (Real.sqrt_nonneg _) (Real.sqrt_nonneg _))
    have hz : vecdToSymm (0 : Vec 5) = 0 := by
      ext i j; fin_cases i <;> fin_cases j <;> simp [vecdToSymm, ofSvecP, vecdsToSvecP]
    have hKin : EvenKin M.kin (Step.tK M (inp j) (t.m j)) fun _ _ => True := by
      rw [hM.kin]; exact C100_voce k hk.xm S _
    obtain ⟨mem', hok', h1, h2, -, h4⟩ := C100_found M m s hgeom hsys k S hM.kin hk.xm hk.gamW (stiff c11 c12 c44) hst hκ
      (inp j) hlj.dt (t.m j) W.hU W.P hset 0 (C72_cubic W.P c11 c12 c44 (by rw [W.hP]; exact hM.el)) (by
        rw [hz, sub_zero]
        refine le_trans (pow_le_pow_left₀ (add_nonneg hE0 hI0) (add_le_add_left hstrain _) 2) (hlj.reach.trans ?_)
        refine mul_le_mul_of_nonneg_left ?_ ?_
        · refine mul_le_mul_of_nonneg_right ?_ (mul_nonneg (by positivity) hk.gamW.le)
          exact mul_le_mul_of_nonneg_left hlow (Real.rpow_nonneg (by positivity) _)
        · exact mul_nonneg (by norm_num) (mul_nonneg hlj.dt.le (sq_nonneg _))) hlj.tol hG
      (fun R hR => by
        obtain ⟨σ, η, rfl, hd⟩ := hGc R hR
        exact C100_cubic hl hM.el hKin σ η hd) hsy (by rw [hq]; exact hload j hj) (X j) (hX j hj) (Or.inr (hL j hj))
    rw [hok] at hok'
    cases hok'
    rw [hq] at h4
    exact ⟨h1.trans hq, h2, h4⟩
  have all : ∀ j < K, (histOf (t.m j)).q = (histOf m0).q ∧ SymState G (histOf (t.m j)) := by
    intro j
    induction j with
    | zero => intro _; rw [hm0']; exact ⟨rfl, hs0⟩
    | succ j ih =>
      intro hj
      obtain ⟨a, b⟩ := ih (by omega)
      obtain ⟨c, d, -⟩ := one j (by omega) a b
      rw [hhist j hj]
      exact ⟨c, d⟩
  exact fun j hj => one j hj (all j hj).1 (all j hj).2

/-! ### Cases -/

/-- a history of one step -/
def oneStep {M : Material n nH} {X : Ext} {inp : Inputs} {m m' : Mem nH n} (h : getResponseSngl X M inp m = .ok m') :
    Trajectory M 1 where
  X := fun _ => X
  inp := fun _ => inp
  m := fun _ => m
  m' := fun _ => m'
  ok := fun _ _ => h
  link := fun _ hk => by omega

theorem nano_unit (e : Vec 5) (t : Option (Mat 6 6)) :
    dot (histOf (nanoMem e t)).q (histOf (nanoMem e t)).q = 1 ∧ quatToTensor (histOf (nanoMem e t)).q = 1 := by
  rw [nano_hist]
  refine ⟨by simp [nanoHist, dot, Fin.sum_univ_four], ?_⟩
  ext i j; fin_cases i <;> fin_cases j <;> simp [nanoHist, quatToTensor]

/-- copper stretched along a cube axis, under stress, with plain Newton iteration -/
example (t : Option (Mat 6 6)) : ∃ m', getResponseSngl ⟨newtonSolver 1 8, idealLup, 1⟩ newtonCopper
    (nanoInp pullD 0) (nanoMem ![1 / 10 ^ 5, 0, 0, 0, 0] t) = .ok m' ∧ (histOf m').q = ![1, 0, 0, 0] ∧
    ∃ a : V3, vecdToSymm (histOf m').e = Matrix.diagonal a := by
  obtain ⟨m', h, -⟩ := nano_step _ pullD_dev pullD_frob.1 pullD_frob.2 0 (by simp [len, dot]) ![1 / 10 ^ 5, 0, 0, 0, 0]
    (by simp [len, dot, Fin.sum_univ_five]) t
  have hu := nano_unit ![1 / 10 ^ 5, 0, 0, 0, 0] t
  have hq : (histOf (nanoMem ![1 / 10 ^ 5, 0, 0, 0, 0] t)).q = ![1, 0, 0, 0] := by rw [nano_hist]; rfl
  obtain ⟨h1, h2, -⟩ := C100_stretched (oneStep h) (fun _ _ => C100_newton 1 _) (m := fccM) (s := fccS) rfl .fcc
    (c11 := 168.4) (c12 := 121.4) (c44 := 75.2) rfl
    (fun _ _ => C100_voce copperVoce (by norm_num [copperVoce]) _ _) 1 hu.2.symm hu.1
    ⟨![1 / 10 ^ 5 / Real.sqrt 2, -(1 / 10 ^ 5 / Real.sqrt 2), 0], by
      show vecdToSymm (histOf (nanoMem _ t)).e = _
      rw [nano_hist]
      ext i j; fin_cases i <;> fin_cases j <;> simp [nanoHist, vecdToSymm, ofSvecP, vecdsToSvecP, sqr2i] <;> ring⟩
    (fun _ _ => ⟨rfl, ![1, -1 / 2, -1 / 2], by simp; norm_num, by
      show devOfSvecP pullD = _
      ext i j; fin_cases i <;> fin_cases j <;> simp [devOfSvecP, pullD]⟩) 0 one_pos
  exact ⟨m', h, h1.trans hq, h2⟩

/-- a rate of extension along a body diagonal -/
noncomputable def bodyD : Vec 7 := ![0, 0, 0, 1 / 2, 1 / 2, 1 / 2, 0]

theorem bodyD_pull : devOfSvecP bodyD = pullAlong (1 / 2) ![1, 1, 1] := by
  ext i j
  fin_cases i <;> fin_cases j <;>
    simp [devOfSvecP, bodyD, pullAlong, dyad, dot, Fin.sum_univ_three] <;> norm_num

theorem bodyD_frob : 1 ≤ frob (devOfSvecP bodyD) ∧ frob (devOfSvecP bodyD) ≤ 2 := by
  have e : ddot (devOfSvecP bodyD) (devOfSvecP bodyD) = 3 / 2 := by
    simp [ddot, devOfSvecP, bodyD, Fin.sum_univ_three]
    norm_num
  unfold frob
  rw [e]
  constructor
  · rw [Real.le_sqrt (by norm_num) (by norm_num)]; norm_num
  · rw [Real.sqrt_le_left (by norm_num)]; norm_num

/-- copper pulled along a body diagonal, under stress, with plain Newton iteration -/
example (t : Option (Mat 6 6)) : ∃ m', getResponseSngl ⟨newtonSolver 1 8, idealLup, 1⟩ newtonCopper
    (nanoInp bodyD 0) (nanoMem ![0, 0, 1 / 10 ^ 6, 1 / 10 ^ 6, 1 / 10 ^ 6] t) = .ok m' ∧
    (histOf m').q = ![1, 0, 0, 0] ∧ ∃ b, vecdToSymm (histOf m').e = pullAlong b ![1, 1, 1] := by
  obtain ⟨m', h, -⟩ := nano_step _ (by rw [bodyD_pull]; exact isDev_pull _ _) bodyD_frob.1 bodyD_frob.2 0
    (by simp [len, dot]) ![0, 0, 1 / 10 ^ 6, 1 / 10 ^ 6, 1 / 10 ^ 6]
    (by
      unfold len
      rw [Real.sqrt_le_left (by norm_num)]
      simp [dot, Fin.sum_univ_five]
      norm_num) t
  have hu := nano_unit ![0, 0, 1 / 10 ^ 6, 1 / 10 ^ 6, 1 / 10 ^ 6] t
  have hq : (histOf (nanoMem ![0, 0, 1 / 10 ^ 6, 1 / 10 ^ 6, 1 / 10 ^ 6] t)).q = ![1, 0, 0, 0] := by rw [nano_hist]; rfl
  obtain ⟨h1, h2, -⟩ := C100_diagonal (oneStep h) (fun _ _ => C100_newton 1 _) (m := fccM) (s := fccS) rfl .fcc
    (c11 := 168.4) (c12 := 121.4) (c44 := 75.2) rfl
    (fun _ _ => C100_voce copperVoce (by norm_num [copperVoce]) _ _) 1 hu.2.symm hu.1
    ⟨1 / 10 ^ 6 / Real.sqrt 2, by
      show vecdToSymm (histOf (nanoMem _ t)).e = _
      rw [nano_hist]
      ext i j
      fin_cases i <;> fin_cases j <;>
        simp [nanoHist, vecdToSymm, ofSvecP, vecdsToSvecP, pullAlong, dyad, dot, Fin.sum_univ_three,
          sqr2i] <;> ring⟩
    (fun _ _ => ⟨rfl, 1 / 2, by rw [Matrix.one_mulVec]; exact bodyD_pull⟩) 0 one_pos
  exact ⟨m', h, h1.trans hq, h2⟩

/-- the hardening of a crystal that has not slipped -/
theorem copper_rest (n : ℕ) (dt : ℝ) :
    copperVoce.updateH (newtonSolver 1 1) (fun _ => 17e-3) dt (0 : Vec n) = .ok (fun _ => 17e-3, 1) := by
  have h0 : vecsssumabs (0 : Vec n) = 0 := by simp [vecsssumabs]
  have hF : ∃ J, ({ law := copperVoce.getSdot1 (copperVoce.getEvolVals (0 : Vec n)), hO := 17e-3, dt := dt } :
      H1Problem).problem (fun _ => 0) = some (fun _ => 0, J) := by
    simp only [H1Problem.problem, H1Problem.computeRJ, Voce.getSdot1, Voce.getEvolVals, h0, copperVoce,
      Bool.false_eq_true, if_false, mul_zero, zero_mul, sub_self, Option.map_some]
    exact ⟨_, rfl⟩
  obtain ⟨J, hF⟩ := hF
  have hrun : newtonSolver 1 1 ({ law := copperVoce.getSdot1 (copperVoce.getEvolVals (0 : Vec n)), hO := 17e-3
                                  dt := dt } : H1Problem).problem (1 / 10 ^ 10) 100 (fun _ => 0)
      = { converged := true, x := fun _ => 0, xLast := fun _ => 0, nFEvals := 1 } := by
    unfold newtonSolver
    rw [newtonRun, hF]
    exact if_pos (by simp [len, dot])
  unfold Voce.updateH
  rw [if_neg (by norm_num [copperVoce])]
  unfold updateH1
  simp only [hrun, if_true, Out.bind, H1Problem.getHn, zero_mul, add_zero]

/-- a hexagonal crystal with the elastic constants of magnesium and power-law slip -/
noncomputable def hexMetal (m s : Fin 24 → V3) : Material 24 1 where
  geom := slipPQ m s
  kin := copperVoce.kin (newtonSolver 1 1) 24
  el := .hexag 59.5 26.1 21.8 61.6 16.4 0
  eos := ⟨false, 8.92e-6, 137, 0.003435984, 1.7, -1.0307952⟩

/-- history of a crystal at rest -/
noncomputable def hexHist : Hist 1 24 where
  shrateEff := 0
  shrEff := 0
  flowStr := 0
  nFEval := 0
  e := 0
  q := ![1, 0, 0, 0]
  h := fun _ => 17e-3
  gdot := 0

/-- a crystal at rest -/
noncomputable def hexMem (t : Option (Mat 6 6)) : Mem 1 24 where
  eInt := 0
  stress := 0
  hist := hexHist.toArray
  tkelv := 300
  sdd := 0
  mtan := t

theorem hex_hist (t : Option (Mat 6 6)) : histOf (hexMem t) = hexHist := by
  unfold histOf hexMem
  rw [Hist.ofArray_toArray]

theorem hex_ddot (E : T3) (hE : IsDev E) :
    ddot E (refStress (.hexag 59.5 26.1 21.8 61.6 16.4 0) E) ≤ 41 * ddot E E := by
  rw [← vecdToSymm_symmToVecd E hE]
  generalize symmToVecd E = v
  have e1 : ddot (vecdToSymm v) (refStress (.hexag 59.5 26.1 21.8 61.6 16.4 0) (vecdToSymm v))
      = 33.4 * v 0 ^ 2 + 40.5333333 * v 1 ^ 2 + 1 / 30000000 * v 1 ^ 2 + 33.4 * v 2 ^ 2 + 32.8 * v 3 ^ 2 + 32.8 * v 4 ^ 2 := by
    simp only [ddot, Fin.sum_univ_three, refStress, hexagStress, vecdToSymm, ofSvecP,
      vecdsToSvecP, Matrix.of_apply, Matrix.cons_val]
    sqr_ring
  have e2 : ddot (vecdToSymm v) (vecdToSymm v) = v 0 ^ 2 + v 1 ^ 2 + v 2 ^ 2 + v 3 ^ 2 + v 4 ^ 2 := by
    simp only [ddot, Fin.sum_univ_three, vecdToSymm, ofSvecP, vecdsToSvecP, Matrix.of_apply, Matrix.cons_val]
    sqr_ring
  rw [e1, e2]
  nlinarith [sq_nonneg (v 0), sq_nonneg (v 1), sq_nonneg (v 2), sq_nonneg (v 3), sq_nonneg (v 4)]

theorem drvInp_pull : devOfSvecP (drvInp 1e-10).d = pullAlong (3 / 2) ![0, 0, 1] := by
  ext i j
  fin_cases i <;> fin_cases j <;>
    simp [devOfSvecP, drvInp, pullAlong, dyad, dot, Fin.sum_univ_three] <;> norm_num

theorem hex_unit (t : Option (Mat 6 6)) :
    dot (histOf (hexMem t)).q (histOf (hexMem t)).q = 1 ∧ quatToTensor (histOf (hexMem t)).q = 1 ∧
    vecdToSymm (histOf (hexMem t)).e = 0 := by
  rw [hex_hist]
  refine ⟨by simp [hexHist, dot, Fin.sum_univ_four], ?_, ?_⟩
  · ext i j; fin_cases i <;> fin_cases j <;> simp [hexHist, quatToTensor]
  · ext i j; fin_cases i <;> fin_cases j <;> simp [hexHist, vecdToSymm, ofSvecP, vecdsToSvecP]

/-- the hexagonal crystal pulled along its axis with a solver that finds symmetric points: the step succeeds -/
theorem hex_step {m s : Fin 24 → V3} (hms : hcpMS 1.6 = .ok (m, s)) (t : Option (Mat 6 6)) (X : Ext)
    (hX : SymFinder (turnsOf hexTurns) X.solver) (hL : ∀ A B, (X.lup A B).isSome) :
    ∃ m', getResponseSngl X (hexMetal m s) (drvInp 1e-10) (hexMem t) = .ok m' ∧
      (histOf m').q = (histOf (hexMem t)).q := by
  obtain ⟨m2, s2, hms2, hsl, -⟩ := C16_hcp 1.6 (by norm_num)
  rw [hms] at hms2
  cases hms2
  obtain ⟨hu1, hu2, hu3⟩ := hex_unit t
  have hset := Step.setup_eq_ok (M := hexMetal m s) (inp := drvInp 1e-10) (m := hexMem t) (hU := fun _ => 17e-3) (kU := 1)
    (v := (17e-3 : ℝ)) (scale := 17e-3)
    (by show (histOf (hexMem t)).q ≠ 0; rw [hex_hist]; intro h0; simpa [hexHist] using congrFun h0 0)
    (by norm_num [hexMetal]) (by norm_num [drvInp]) (by norm_num [drvInp])
    (by
      show copperVoce.updateH (newtonSolver 1 1) (histOf (hexMem t)).h _ (histOf (hexMem t)).gdot = _
      rw [hex_hist]
      exact copper_rest 24 _)
    (by
      show (if (0 : ℝ) < 17e-3 then Out.ok ((17e-3 : ℝ), (17e-3 : ℝ)) else .undef "assert(vals[0] > zero)") = _
      exact if_pos (by norm_num))
  have hvr : ((drvInp 1e-10).vr 1) = 1 := rfl
  have hev : EvenKin (hexMetal m s).kin (Step.tK (hexMetal m s) (drvInp 1e-10) (hexMem t)) SameFamily := by
    have h := C100_voce (n := 24) copperVoce (by norm_num [copperVoce]) (newtonSolver 1 1)
      (Step.tK (hexMetal m s) (drvInp 1e-10) (hexMem t))
    exact ⟨fun p h' v sc hv i j _ => h.same p h' v sc hv i j trivial, h.odd⟩
  obtain ⟨m', h1, h2, -⟩ := C100_found (hexMetal m s) m s rfl hsl copperVoce (newtonSolver 1 1) rfl
    (by norm_num [copperVoce]) (by norm_num [copperVoce]) 41
    ((C47_positive_definite _).2 (((C47_stability_constants 59.5 26.1 21.8 61.6 16.4 0).2).2 (by norm_num)))
    hex_ddot (drvInp 1e-10) (by norm_num [drvInp]) (hexMem t) _ _ hset 0 (by
      intro i
      rw [Updst.elastNEtoT_castSucc]
      fin_cases i <;> simp [Updst.tConst, Elast.eval, hexMetal, Updst.aV, hvr, Elast.gVecd2])
    (by
      have f1 := frob_driver 1e-10
      have f0 : 0 ≤ frob (devOfSvecP (drvInp 1e-10).d) := Real.sqrt_nonneg _
      have hdt : (drvInp 1e-10).dt = 1 / 4000 := rfl
      have hz : vecdToSymm (0 : Vec 5) = 0 := by
        ext i j; fin_cases i <;> fin_cases j <;> simp [vecdToSymm, ofSvecP, vecdsToSvecP]
      have h41 : Real.sqrt 41 ≤ 7 := by rw [Real.sqrt_le_left (by norm_num)]; norm_num
      have h0 := Real.sqrt_nonneg 41
      have hcap : (1 : ℝ) ≤ (10 ^ 60 : ℝ) ^ copperVoce.xm :=
        Real.one_le_rpow (by norm_num) (by norm_num [copperVoce])
      have hE : energyNorm (hexMetal m s).el 0 = 0 := by rw [← hz, energyNorm_eq]; simp [wNorm]
      have hgW : copperVoce.gamW = 1 := rfl
      rw [hu3, hz, sub_zero, hE, hvr, hdt, Real.one_rpow, hgW]
      generalize frob (devOfSvecP (drvInp 1e-10).d) = f at f0 f1
      generalize Real.sqrt 41 = r at h41 h0
      generalize (10 ^ 60 : ℝ) ^ copperVoce.xm = c at hcap
      have h1 : r * f ≤ 7 * (5 / 4) := mul_le_mul h41 f1 f0 (by norm_num)
      have h2 : (0 + 1 / 4000 * 1 * (r * f)) ^ 2 ≤ 1 := by
        have h3 : 0 ≤ r * f := mul_nonneg h0 f0
        refine pow_le_one₀ (by positivity) ?_
        linarith
      refine h2.trans ?_
      have h3 : (17e-3 : ℝ) ≤ c * 17e-3 := by linarith
      calc (1 : ℝ) ≤ 4 * (1 / 4000 * 1 ^ 2) * (17e-3 * (10 ^ 60 * 1)) := by norm_num
        _ ≤ _ := by gcongr)
    (by
      have hw : len (drvInp 1e-10).w = 0 := by simp [len, dot, drvInp]
      have ht : (drvInp 1e-10).tol = 1e-10 := rfl
      rw [hw, ht]
      norm_num) hexTurns_noAxis
    (fun R hR => by
      refine C100_hexagonal (by norm_num) hms rfl hev ?_
      rcases hR with rfl | rfl
      · simpa using HexOp.rot HexOp.one
      · simpa using HexOp.flip HexOp.one)
    ⟨hu1, fun R _ => by rw [hu3]; simp⟩
    ⟨by rw [drvInp_pull]; exact isDev_pull _ _, fun R hR => by
      rw [hu2, drvInp_pull]
      simp only [Matrix.one_mul, Matrix.transpose_one, Matrix.mul_one]
      exact (C100_tensors.2.2 _ (isDev_pull _ _)).2 ⟨_, rfl⟩ R hR, rfl⟩ X hX (Or.inr hL)
  exact ⟨m', h1, h2⟩

example {m s : Fin 24 → V3} (hms : hcpMS 1.6 = .ok (m, s)) : ∃ t : Trajectory (hexMetal m s) 1,
    (histOf (t.m' 0)).q = ![1, 0, 0, 0] ∧ ∃ b, vecdToSymm (histOf (t.m' 0)).e = pullAlong b ![0, 0, 1] := by
  obtain ⟨m', h, -⟩ := hex_step hms none ⟨symIdeal (turnsOf hexTurns) (givesUp 8), fun _ B => some B, 1⟩
    (C100_finder _).2.1 fun _ _ => rfl
  obtain ⟨hu1, hu2, hu3⟩ := hex_unit none
  have hq : (histOf (hexMem none)).q = ![1, 0, 0, 0] := by rw [hex_hist]; rfl
  obtain ⟨h1, h2, -⟩ := C100_hexAxis (oneStep h) (fun _ _ => (C100_finder _).2.2) (by norm_num) hms rfl
    (c11 := 59.5) (c12 := 26.1) (c13 := 21.8) (c33 := 61.6) (c44 := 16.4) (g := 0) rfl
    (fun _ _ => by
      have h := C100_voce (n := 24) copperVoce (by norm_num [copperVoce]) (newtonSolver 1 1)
        (Step.tK (hexMetal m s) (drvInp 1e-10) (hexMem none))
      exact ⟨fun p h' v sc hv i j _ => h.same p h' v sc hv i j trivial, h.odd⟩) 1 hu2.symm hu1
    ⟨0, by
      show vecdToSymm (histOf (hexMem none)).e = _
      rw [hu3]; simp [pullAlong]⟩
    (fun _ _ => ⟨rfl, 3 / 2, by rw [Matrix.one_mulVec]; exact drvInp_pull⟩) 0 one_pos
  exact ⟨oneStep h, h1.trans hq, h2⟩

/-- copper whose hardening solver finds what there is -/
noncomputable def idealCopper : Material 12 1 where
  geom := slipPQ fccM fccS
  kin := copperVoce.kin (idealSolver 1) 12
  el := .cubic 168.4 121.4 75.2
  eos := ⟨false, 8.92e-6, 137, 0.003435984, 1.7, -1.0307952⟩

/-- the loading of the example program on a crystal with its cube axes along those of the sample: sixty steps without
    turning -/
example (m0 : Mem 1 12) (hq : (histOf m0).q = ![1, 0, 0, 0]) (hh : (histOf m0).h 0 = 17e-3) (he : (histOf m0).e = 0)
    (hg : (histOf m0).gdot = 0) : ∃ t : Trajectory idealCopper 60,
      t.inp = (fun _ => drvInp 1e-10) ∧ t.m 0 = m0 ∧ ∀ j < 60, (histOf (t.m' j)).q = ![1, 0, 0, 0] := by
  have hM : PowerCubic idealCopper copperVoce (idealSolver 1) 168.4 121.4 75.2 :=
    ⟨⟨fccM, fccS, rfl, C16_fcc.1⟩, rfl, rfl, by norm_num, by norm_num [idealCopper]⟩
  have hm : min copperVoce.tausi copperVoce.hdnInit = 17e-3 := by norm_num [copperVoce]
  have hr := copper_reach
  rw [hm] at hr
  have hκ : (0 : ℝ) ≤ stiff 168.4 121.4 75.2 := by unfold stiff; norm_num
  have hw : 0 < copperVoce.gamW := by norm_num [copperVoce]
  have hload := drvInp_loads copper_steady.xm hw hκ (by norm_num : (0 : ℝ) < 17e-3) (tol := 1e-10) (by norm_num) hr
  have hs0 : 0 ≤ stepSupply (stiff 168.4 121.4 75.2) copperVoce.gamW (drvInp 1e-10) := by
    have hf0 : 0 ≤ frob (devOfSvecP (drvInp 1e-10).d) := Real.sqrt_nonneg _
    have hv : (drvInp 1e-10).vr 1 = 1 := rfl
    have hdt : (drvInp 1e-10).dt = 1 / 4000 := rfl
    have ht : (drvInp 1e-10).tol = 1e-10 := rfl
    unfold stepSupply
    rw [hv, hdt, ht, Real.one_rpow]
    positivity
  have hQ : quatToTensor (histOf m0).q = 1 := by
    rw [hq]
    ext i j; fin_cases i <;> fin_cases j <;> simp [quatToTensor]
  have hz : vecdToSymm (histOf m0).e = 0 := by
    rw [he]
    ext i j; fin_cases i <;> fin_cases j <;> simp [vecdToSymm, ofSvecP, vecdsToSvecP]
  have hdiag : devOfSvecP (drvInp 1e-10).d = Matrix.diagonal ![-1 / 2, -1 / 2, 1] := by
    ext i j; fin_cases i <;> fin_cases j <;> simp [devOfSvecP, drvInp]
  have hdev : IsDev (devOfSvecP (drvInp 1e-10).d) := by rw [drvInp_pull]; exact isDev_pull _ _
  have hfind := C100_finder (n := 8) (turnsOf cubeTurns)
  obtain ⟨t, -, h2, h3, -, h5⟩ := C100_runs .fcc rfl (idealSolver_finds 1) hM copper_steady (hm := 17e-3) (by norm_num)
    (by norm_num [copperVoce]) (K := 60) (by norm_num) (by norm_num) cubeTurns_noAxis
    (by
      rintro R (rfl | rfl)
      · exact ⟨_, _, rfl, by simp [cubicOp, Matrix.det_fin_three]⟩
      · exact ⟨_, _, rfl, by simp [cubicOp, Matrix.det_fin_three]⟩)
    (fun _ => ⟨symIdeal (turnsOf cubeTurns) (idealSolver 8), fun _ B => some B, 1⟩) (fun _ _ => hfind.1.1)
    (fun _ _ => hfind.1.2) (fun _ _ _ _ => rfl) (fun _ => drvInp 1e-10) 0 (fun j hj => by
      refine hload.mono hw le_rfl ?_ ?_
      · have : (j : ℝ) ≤ 60 := by exact_mod_cast hj.le
        simp only [zero_add, Finset.sum_const, Finset.card_range, nsmul_eq_mul]
        exact mul_le_mul_of_nonneg_right this hs0
      · simp only [zero_add, Finset.sum_const, Finset.card_range, nsmul_eq_mul]
        positivity) (fun _ m => m) (fun _ _ => rfl) m0 (by
      refine ⟨?_, hh.ge, by rw [hh]; norm_num, ?_, ?_⟩
      · rw [hq]; intro h0; simpa using congrFun h0 0
      · rw [he, energyNorm_eq]
        unfold wNorm
        simp
      · rw [hg]
        simp only [Pi.zero_apply, abs_zero, Finset.sum_const_zero]
        positivity)
    ⟨by rw [hq]; simp [dot, Fin.sum_univ_four], fun R _ => by rw [hz]; simp⟩
    (fun j _ => ⟨hdev, fun R hR => by
      rw [hQ]
      simp only [Matrix.one_mul, Matrix.transpose_one, Matrix.mul_one]
      exact (C100_tensors.1 _ hdev).2 ⟨_, hdiag⟩ R hR, rfl⟩)
  exact ⟨t, h2, h3, fun j hj => (h5 j hj).1.trans hq⟩

end Ecm.Props
