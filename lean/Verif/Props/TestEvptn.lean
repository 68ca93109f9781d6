/- Property theorems C113: the tests of one step (test/test_evptn.cxx; test/test_updst.cxx:32-138) make the same step in
   three ways. -/
import Verif.Model.TestEvptn
import Verif.Props.TestUpdst
import Verif.Props.TestStep

namespace Ecm.Props
open Ecm Ecm.Spec Classical

variable {n nH : ℕ}

/-! ### What is assumed of the solvers -/

/-- a solver stops at its starting point if the residual vanishes there -/
def StopsAtRoot (S : Solver 1) : Prop := ∀ (P : Problem 1) (tol : ℝ) (k : ℕ) (x : Vec 1) (J : Mat 1 1),
  P x = some (0, J) → 0 ≤ tol → (S P tol k x).converged = true ∧ (S P tol k x).x = x

/-- the limit of the number of iterations has no effect unless it is reached, and no iteration is made without an
    evaluation -/
structure LimitFree (S : Solver 8) : Prop where
  up : ∀ P tol k K x, k ≤ K → (S P tol k x).converged = true → S P tol K x = S P tol k x
  down : ∀ P tol k K x, (S P tol K x).converged = true → (S P tol K x).nFEvals ≤ k → S P tol k x = S P tol K x

theorem probe_stops : StopsAtRoot (probe 1) := fun P tol k x J h ht => by
  rw [probe_zero h ht]
  exact ⟨rfl, rfl⟩

/-- what the tests assume of the material when they build the equations by hand: the temperature is 300, and the hardening
    state does not change without slip -/
structure EvpRests (M : Material n nH) (h0 : Vec nH) : Prop where
  cv : M.eos.cvav ≠ 0
  temp : M.eos.tK0 = 300
  hard : ∃ k, M.kin.updateH h0 (1 / 10) 0 = .ok (h0, k)

/-! ### The equations -/

theorem evpInp_eq (tol : ℝ) : evpInp tol = testInp tol := by
  unfold evpInp testInp evpRates
  norm_num

theorem evpMem_hist (h0 : Vec nH) (tk : ℝ) (sd : Vec 2) (mt : Mat 6 6) :
    histOf (evpMem h0 tk sd mt : Mem nH n) = { shrateEff := 0, shrEff := 0, flowStr := 0, nFEval := 0, e := 0
                                               q := ![1, 0, 0, 0], h := h0, gdot := 0 } := by
  unfold histOf Hist.ofArray evpMem
  congr 1
  · funext i
    fin_cases i <;> simp
  · funext i
    fin_cases i <;> simp
  · funext i
    have h1 : ¬ (13 + i.val = 9) := by omega
    simp [h1]
  · funext i
    have h1 : ¬ (13 + nH + i.val = 9) := by omega
    simp [h1]

/-- **C113, the same equations.** The equations that getResponseSngl sets up in the second part of the test are those that
    the test builds by hand in its first part: this answers the question in the comment of the test. -/
theorem C113_problem {M : Material n nH} {h0 : Vec nH} (hR : EvpRests M h0) (tol tk : ℝ) (sd : Vec 2) (mt : Mat 6 6) :
    Step.setup M (evpInp tol) (evpMem h0 tk sd mt) = (evpProblem M h0).bind fun P => .ok (h0, P) := by
  have hh := evpMem_hist (n := n) h0 tk sd mt
  unfold histOf at hh
  have hT : Step.tK M (evpInp tol) (evpMem h0 tk sd mt) = 300 := by
    simp [Step.tK, Eos.evalPT, evpMem, hR.temp]
  have hp : (Step.eosUpdate M (evpInp tol) (evpMem h0 tk sd mt)).press = 0 := by
    simp [Step.eosUpdate, Eos.updateSimple, Eos.evalPTDiff, evpMem, evpInp]
  have he : (Step.eosUpdate M (evpInp tol) (evpMem h0 tk sd mt)).eNew = 0 := by
    simp [Step.eosUpdate, Eos.updateSimple, evpMem, evpInp]
  have hq : Step.quatN (evpMem h0 tk sd mt : Mem nH n) = ![1, 0, 0, 0] := by
    unfold Step.quatN
    rw [hh]
    funext i
    fin_cases i <;> simp [vecsVNormalize, vecsVsa, vecNorm, Fin.sum_univ_four]
  obtain ⟨k, hk⟩ := hR.hard
  have hd : (evpInp tol).dt = 1 / 10 := by norm_num [evpInp]
  unfold Step.setup
  simp only [hT, hp, he, hq]
  rw [hh]
  simp only
  rw [if_neg (fun h => by simpa using congrFun h 0), if_neg hR.cv, hd, hk]
  simp only [Out.bind]
  unfold evpProblem
  norm_num [evpInp]

/-! ### The two parts of the first test -/

/-- the first part comes to its end when the equations can be set up and solved -/
theorem evpFirst_ok {X : Ext} {M : Material n nH} {h0 : Vec nH} {tol : ℝ} {r : SolveResult 8} {g : Vec n} :
    evpFirst X M h0 tol = .ok (r, g) ↔ ∃ P, evpProblem M h0 = .ok P ∧ r = X.solver P.problem tol 100 (fun _ => 0) ∧
      r.converged = true ∧ g = P.gdot r.xLast := by
  unfold evpFirst
  cases hP : evpProblem M h0 with
  | ok P =>
    simp only [Out.bind]
    constructor
    · intro h
      split_ifs at h with hc
      cases h
      exact ⟨P, rfl, rfl, by simpa using hc, rfl⟩
    · rintro ⟨P', e, h1, h2, h3⟩
      cases e
      rw [← h1, if_neg (by simp [h2]), h3]
  | fail s => simp [Out.bind]
  | undef w => simp [Out.bind]

theorem evpRun_ok {X : Ext} {M : Material n nH} {h0 : Vec nH} {tol tk : ℝ} {sd : Vec 2} {mt : Mat 6 6} {r : SolveResult 8}
    {g : Vec n} {m : Mem nH n} : evpRun X M h0 tol tk sd mt = .ok (r, g, m) ↔ evpFirst X M h0 tol = .ok (r, g) ∧
      getResponseSngl X M (evpInp tol) (evpMem h0 tk sd mt) = .ok m := by
  unfold evpRun
  cases hf : evpFirst X M h0 tol with
  | ok f =>
    obtain ⟨r', g'⟩ := f
    simp only [Out.bind]
    cases hg : getResponseSngl X M (evpInp tol) (evpMem h0 tk sd mt) with
    | ok m' => simp [and_assoc]
    | fail s m' => simp
    | undef w => simp
  | fail s => simp [Out.bind]
  | undef w => simp [Out.bind]

/-- what the update stores, with or without tangent -/
theorem evp_stored' {X : Ext} {M : Material n nH} {h0 : Vec nH} (hR : EvpRests M h0) {tol tk : ℝ} {sd : Vec 2}
    {mt : Mat 6 6} {m : Mem nH n} {P : Updst n} (hP : evpProblem M h0 = .ok P) (mo : Option (Mat 6 6))
    (hm : getResponseSngl X M (evpInp tol) { evpMem h0 tk sd mt with mtan := mo } = .ok m) :
    (X.solver P.problem tol 200 (fun _ => 0)).converged = true ∧
    (histOf m).nFEval = (X.solver P.problem tol 200 (fun _ => 0)).nFEvals + (if mo.isSome then (X.evalCost : ℝ) else 0) ∧
    (mo.isSome = true → (histOf m).gdot = P.gdot (X.solver P.problem tol 200 (fun _ => 0)).x) ∧ (histOf m).h = h0 := by
  have hs : Step.setup M (evpInp tol) { evpMem h0 tk sd mt with mtan := mo } = _ := C113_problem hR tol tk sd mt
  rw [hP] at hs
  simp only [Out.bind] at hs
  unfold getResponseSngl at hm
  rw [hs] at hm
  simp only at hm
  unfold Step.run at hm
  simp only at hm
  split_ifs at hm with hc
  have hsol : Step.solve X (evpInp tol) P = X.solver P.problem tol 200 (fun _ => 0) := rfl
  rw [hsol] at hm hc
  refine ⟨by simpa using hc, ?_⟩
  cases ht : Step.tangent X (Step.eosUpdate M (evpInp tol) { evpMem h0 tk sd mt with mtan := mo }).bulkNew P
      (X.solver P.problem tol 200 (fun _ => 0)).x mo.isSome with
  | none => rw [ht] at hm; cases hm
  | some t =>
    rw [ht] at hm
    simp only at hm
    cases hg : M.el.getGmod with
    | undef w => rw [hg] at hm; cases hm
    | fail s => rw [hg] at hm; cases hm
    | ok g =>
      rw [hg] at hm
      simp only at hm
      injection hm with hm
      have hh : histOf m = Step.newHist X (evpInp tol) (Hist.ofArray (evpMem h0 tk sd mt : Mem nH n).hist) h0 P
          (X.solver P.problem tol 200 (fun _ => 0)) mo.isSome := by
        rw [← hm]
        exact Hist.ofArray_toArray _
      rw [hh]
      refine ⟨?_, fun h => ?_, ?_⟩
      · cases mo <;> simp [Step.newHist]
      · simp [Step.newHist, Step.lastX, h]
      · simp [Step.newHist]

/-- what an update of the second part stores -/
theorem evp_stored {X : Ext} {M : Material n nH} {h0 : Vec nH} (hR : EvpRests M h0) {tol tk : ℝ} {sd : Vec 2}
    {mt : Mat 6 6} {m : Mem nH n} {P : Updst n} (hP : evpProblem M h0 = .ok P)
    (hm : getResponseSngl X M (evpInp tol) (evpMem h0 tk sd mt) = .ok m) :
    (X.solver P.problem tol 200 (fun _ => 0)).converged = true ∧
    (histOf m).nFEval = (X.solver P.problem tol 200 (fun _ => 0)).nFEvals + X.evalCost ∧
    (histOf m).gdot = P.gdot (X.solver P.problem tol 200 (fun _ => 0)).x ∧ (histOf m).h = h0 := by
  obtain ⟨a, b, c, d⟩ := evp_stored' (mt := mt) hR hP (some mt) hm
  exact ⟨a, by simpa using b, c rfl, d⟩

/-- **C113, the two parts of the first test.** With a solver that keeps its contract and whose limit of iterations has no effect
    unless it is reached, the slip rates of the second part are those of the first, and the number of evaluations is larger by
    the ones made for the tangent. -/
theorem C113_halves {X : Ext} (hX : X.solver.Sound) (hF : LimitFree X.solver) {M : Material n nH} {h0 : Vec nH}
    (hR : EvpRests M h0) {tol tk : ℝ} {sd : Vec 2} {mt : Mat 6 6} {r : SolveResult 8} {g : Vec n} {m : Mem nH n}
    (h : evpRun X M h0 tol tk sd mt = .ok (r, g, m)) :
    (histOf m).gdot = g ∧ (histOf m).nFEval = r.nFEvals + X.evalCost ∧ (histOf m).h = h0 := by
  obtain ⟨h1, h2⟩ := evpRun_ok.1 h
  obtain ⟨P, hP, hr, hc, hg⟩ := evpFirst_ok.1 h1
  obtain ⟨-, s1, s2, s3⟩ := evp_stored hR hP h2
  have e := hF.up P.problem tol 100 200 (fun _ => 0) (by norm_num) (by rw [← hr]; exact hc)
  rw [← hr] at e
  have hl : r.xLast = r.x := by
    rw [hr]
    exact (hX _ _ _ _ (by rw [← hr]; exact hc)).2
  rw [e] at s1 s2
  exact ⟨by rw [s2, hg, hl], s1, s3⟩

/-- **C113, the checks of the first test.** Of its seven checks two follow from the others; what remains is the number of
    evaluations, the upper bound of `rho`, strain, orientation and slip rate. -/
theorem C113_checks {X : Ext} (hX : X.solver.Sound) (hF : LimitFree X.solver) (hL : X.evalCost = 1) {M : Material n nH}
    {h0 : Vec nH} (hR : EvpRests M h0) {tol tk : ℝ} {sd : Vec 2} {mt : Mat 6 6} {r : SolveResult 8} {g : Vec n} {m : Mem nH n}
    (h : evpRun X M h0 tol tk sd mt = .ok (r, g, m)) (ex : EvpExpected) (s : Fin n) (rho : ℝ) :
    EvpPasses ex s rho (r, g, m) ↔ r.nFEvals = ex.evals ∧ rho < 1001 / 1000 ∧ MeetsTest m s ex.strain ex.quat ex.rate := by
  obtain ⟨a, b, -⟩ := C113_halves hX hF hR h
  have b' : ⌊(Hist.ofArray m.hist).nFEval⌋ = (r.nFEvals : ℤ) + 1 := by
    show ⌊(histOf m).nFEval⌋ = _
    rw [b, hL]
    norm_num
  have a' : (Hist.ofArray m.hist).gdot = g := a
  unfold EvpPasses
  simp only [b', a']
  constructor
  · rintro ⟨h1, h2, h3, -, h5, h6, -⟩
    refine ⟨h1, by norm_num at h3 ⊢; linarith, ⟨?_, ?_, ?_⟩⟩
    · show |(Hist.ofArray m.hist).e 1 - _| < _
      norm_num at h5 ⊢; exact h5
    · show |(Hist.ofArray m.hist).q 0 - _| < _
      norm_num at h6 ⊢; exact h6
    · show |(Hist.ofArray m.hist).gdot s - _| < _
      rw [a']
      norm_num at h2 ⊢; exact h2
  · rintro ⟨h1, h3, ⟨h5, h6, h2⟩⟩
    rw [a] at h2
    have h2' : |g s - ex.rate| < 1e-8 := by norm_num at h2 ⊢; exact h2
    refine ⟨h1, h2', by norm_num at h3 ⊢; linarith, by rw [h1], ?_, ?_, h2'⟩
    · have : |(Hist.ofArray m.hist).e 1 - ex.strain| < 1 / 10 ^ 10 := h5
      norm_num at this ⊢; exact this
    · have : |(Hist.ofArray m.hist).q 0 - ex.quat| < 1 / 10 ^ 8 := h6
      norm_num at this ⊢; exact this

/-- **C113, the check of `rho` is one-sided.** It is described as a check that `rho` is close to one, but every value below
    one passes it, such as -1000. -/
theorem C113_refuted_rho (ex : EvpExpected) (s : Fin n) (rho : ℝ) (o : SolveResult 8 × Vec n × Mem nH n)
    (h : EvpPasses ex s rho o) : EvpPasses ex s (-1000) o ∧ ¬ |(-1000 : ℝ) - 1| < 1e-3 := by
  obtain ⟨h1, h2, -, h3⟩ := h
  refine ⟨⟨h1, h2, by norm_num, h3⟩, by norm_num⟩

/-! ### The second test -/

/-- the arguments of the call in the second test -/
noncomputable def oneIn : BatchIn := ⟨1e-1, 0, vecBuf evpRates, vecBuf ![0, 0, 0.5], vecBuf ![1, 1, 0, 0]⟩

theorem oneIn_point (st : Strides) (tol : ℝ) : pointInp st { oneIn with tol := tol } 0 = evpInp tol := by
  unfold pointInp evpInp oneIn
  simp only [vecBuf_slice]

theorem one_step {c : Case} {m : MM c.type} {M : Material c.type.nslip c.type.nH} {tol : ℝ} (hM : Uses m M tol) (X : Ext)
    {b : BatchMem} (hb : OneArrays c.type.numHist b) :
    ((∃ b', m.getResponse X oneIn 1 b = .ok b') ↔ ∃ m', getResponseSngl X M (evpInp tol)
      (pointMem (Strides.default c.type.numHist) b 0) = .ok m') ∧
    ∀ b', m.getResponse X oneIn 1 b = .ok b' → getResponseSngl X M (evpInp tol)
        (pointMem (Strides.default c.type.numHist) b 0) = .ok (pointMem (Strides.default c.type.numHist) b' 0) := by
  set st := Strides.default c.type.numHist with hst
  set a : BatchIn := { oneIn with tol := tol } with ha
  have hA : st.Accepted (numHist c.type.nH c.type.nslip) :=
    ⟨le_refl _, le_refl _, le_refl _, le_refl _, le_refl _, le_refl _, le_refl _, le_refl _⟩
  have hH : ∀ i < 1, Holds (numHist c.type.nH c.type.nslip) st a b i := by
    intro i hi
    obtain rfl : i = 0 := by omega
    refine ⟨le_refl 7, le_refl 3, le_refl 4, ?_, ?_, ?_, ?_, ?_, fun t ht => ?_⟩
    · rw [hb.eInt]; simp
    · rw [hb.stress]; simp
    · rw [hb.hist]; simp [MType.numHist]
    · rw [hb.tkelv]; simp
    · rw [hb.sdd]; simp
    · rw [hb.mtan t ht]
  have hO : ∀ i < 1, NoOverflow st b i := by
    intro i hi
    obtain rfl : i = 0 := by omega
    refine ⟨⟨?_, ?_, ?_, ?_, ?_, ?_, ?_, ?_⟩, fun _ => ?_⟩ <;> simp
  obtain ⟨r1, r2⟩ := C35_independent X M st a b 1 hA hH hO (List.range 1) (List.Perm.refl _)
  have hi : pointInp st a 0 = evpInp tol := oneIn_point st tol
  have hcall : m.getResponse X oneIn 1 b = batchLoop X M st a (List.range 1) b := hM X _ 1 b
  rw [hcall]
  refine ⟨r1.trans ⟨fun h => ?_, fun h i hi' => ?_⟩, fun b' hb' => ?_⟩
  · rw [← hi]; exact h 0 (by norm_num)
  · obtain rfl : i = 0 := by omega
    rw [hi]; exact h
  · rw [← hi]; exact r2 b' hb' 0 (by norm_num)

/-- the memory of the first test without its array for the tangent is the one of the second -/
theorem evpMem_begin (nH n : ℕ) (h0 tk : ℝ) (sd : Vec 2) (mt : Mat 6 6) :
    ({ (evpMem (fun _ => h0) tk sd mt : Mem nH n) with mtan := none } : Mem nH n)
      = pxBegin nH n h0 (updStartQuat false) tk sd := by
  have h := evpMem_hist (nH := nH) (n := n) (fun _ => h0) tk sd mt
  have hq : unitQuat (updStartQuat false) = ![1, 0, 0, 0] := by rw [updStart_unit]; rfl
  unfold pxBegin
  rw [hq, ← h]
  unfold evpMem
  simp only [Mem.mk.injEq, and_true, true_and]
  exact (Hist.toArray_ofArray _).symm

/-- **C113, the second test** ends exactly when the update of the unloaded crystal without tangent succeeds, and leaves its
    result in memory. -/
theorem C113_updst {S : Solver 1} {c : Case} {pars : List ℝ} {M : Material c.type.nslip c.type.nH} {tol : ℝ}
    (h : BuiltFrom c.type S pars M tol) (X : Ext) (tk : ℝ) (sd : Vec 2) (mt : Mat 6 6) :
    ((∃ b, updOne c S pars X tk sd = .ok b) ↔ ∃ m', getResponseSngl X M (evpInp tol)
      { evpMem (fun _ => pars.getD (parCount c - 3) 0) tk sd mt with mtan := none } = .ok m') ∧
    ∀ b, updOne c S pars X tk sd = .ok b → getResponseSngl X M (evpInp tol)
      { evpMem (fun _ => pars.getD (parCount c - 3) 0) tk sd mt with mtan := none }
        = .ok (pointMem (Strides.default c.type.numHist) b 0) := by
  obtain ⟨m, m', d, h1, h2, h3, h4, h5⟩ := px_built h
  have hlen : d.length = c.type.numHist := by
    have hm : m = ((MM.new c.type (Strides.default c.type.numHist)).initFromParams S [] pars []).1 := by rw [h1]
    obtain ⟨d', e1, e2⟩ := C41_length S (MM.new c.type (Strides.default c.type.numHist)) [] pars [] (by rw [h1])
    rw [← hm, h5] at e1
    cases e1
    exact e2
  obtain ⟨r1, r2⟩ := one_step h3 X (b := ⟨constBuf 1 0, constBuf 7 0, updHistBuf d false, constBuf 1 tk, vecBuf sd, none⟩)
    ⟨rfl, rfl, hlen, rfl, rfl, fun t ht => by cases ht⟩
  rw [upd_start h1 h5] at r1 r2
  rw [evpMem_begin]
  have hrun : ∀ b, updOne c S pars X tk sd = .ok b ↔ m'.getResponse X oneIn 1
      ⟨constBuf 1 0, constBuf 7 0, updHistBuf d false, constBuf 1 tk, vecBuf sd, none⟩ = .ok b := by
    intro b
    unfold updOne
    rw [h1]
    simp only [h2, h4, Out.bind]
    show (match m'.getResponse X oneIn 1 _ with | .ok b => _ | .fail s _ => _ | .undef w => _) = _ ↔ _
    cases m'.getResponse X oneIn 1
      ⟨constBuf 1 0, constBuf 7 0, updHistBuf d false, constBuf 1 tk, vecBuf sd, none⟩ <;> simp
  exact ⟨by rw [← r1]; exact exists_congr hrun, fun b hb => r2 b ((hrun b).1 hb)⟩

/-- the checks of the second test, by the names of the history entries -/
theorem updOnePasses_iff (ex : EvpExpected) (c : Case) (b : BatchMem) (s : Fin c.type.nslip) (hs : s.val = 1) :
    UpdOnePasses ex c b ↔ (histOf (pointMem (Strides.default c.type.numHist) b 0 : Mem c.type.nH c.type.nslip)).nFEval
      = ex.evals ∧ MeetsTest (pointMem (Strides.default c.type.numHist) b 0 : Mem c.type.nH c.type.nslip) s ex.strain ex.quat
        ex.rate := by
  have e3 : (histOf (pointMem (Strides.default c.type.numHist) b 0 : Mem c.type.nH c.type.nslip)).nFEval = b.hist.val 3 := by
    simp [histOf, Hist.ofArray, pointMem, slice]
  have e5 : (histOf (pointMem (Strides.default c.type.numHist) b 0 : Mem c.type.nH c.type.nslip)).e 1
      = b.hist.val (4 + 1) := by
    simp [histOf, Hist.ofArray, pointMem, slice]
  have e9 : (histOf (pointMem (Strides.default c.type.numHist) b 0 : Mem c.type.nH c.type.nslip)).q 0 = b.hist.val 9 := by
    simp [histOf, Hist.ofArray, pointMem, slice]
  have eg : (histOf (pointMem (Strides.default c.type.numHist) b 0 : Mem c.type.nH c.type.nslip)).gdot s
      = b.hist.val (13 + c.type.nH + 1) := by
    simp [histOf, Hist.ofArray, pointMem, slice, hs]
  have t1 : (1e-10 : ℝ) = 1 / 10 ^ 10 := by norm_num
  have t2 : (1e-8 : ℝ) = 1 / 10 ^ 8 := by norm_num
  unfold UpdOnePasses
  rw [e3, ← e5, ← e9, ← eg, t1, t2]
  exact ⟨fun ⟨a, x, y, z⟩ => ⟨a, x, y, z⟩, fun ⟨a, x, y, z⟩ => ⟨a, x, y, z⟩⟩

/-- the time and the moduli found in memory are not used -/
theorem evp_junk {S : Solver 1} {c : Case} {pars : List ℝ} {M : Material c.type.nslip c.type.nH} {tol : ℝ}
    (h : BuiltFrom c.type S pars M tol) {X : Ext} {h0 : ℝ} {q : Vec 4} {T : ℝ} (T' : ℝ) {sd : Vec 2} (sd' : Vec 2)
    {r : Mem c.type.nH c.type.nslip} {inp : Inputs}
    (e : getResponseSngl X M inp (pxBegin c.type.nH c.type.nslip h0 q T sd) = .ok r) :
    getResponseSngl X M inp (pxBegin c.type.nH c.type.nslip h0 q T' sd') = .ok r := by
  obtain ⟨m, m', d, h1, h2, h3, h4, h5⟩ := px_built h
  have hm : m = ((MM.new c.type (Strides.default c.type.numHist)).initFromParams S [] pars []).1 := by rw [h1]
  rw [hm] at h5
  have hs := C108_restart c S _ [] pars [] (by rw [h1]) d h5 X M inp
    (pxBegin c.type.nH c.type.nslip h0 q T sd) (pxBegin c.type.nH c.type.nslip h0 q T' sd') ⟨rfl, rfl, rfl, fun _ _ => rfl⟩
  rw [e] at hs
  cases hb : getResponseSngl X M inp (pxBegin c.type.nH c.type.nslip h0 q T' sd') with
  | ok r => rw [hb] at hs; exact congrArg Res.ok (Eq.symm hs)
  | fail s r => rw [hb] at hs; exact hs.elim
  | undef w => rw [hb] at hs; exact hs.elim

/-- **C113, the second test after the first.** When the first test comes to its end, so does the second, with the same history
    except for the number of evaluations, which is the one of the first part of the first test.  What the arrays hold that
    are not initialised may differ in the two tests. -/
theorem C113_same {X : Ext} (hX : X.solver.Sound) (hF : LimitFree X.solver) {S : Solver 1} {c : Case} {pars : List ℝ}
    {M : Material c.type.nslip c.type.nH} {tol : ℝ} (hB : BuiltFrom c.type S pars M tol)
    (hR : EvpRests M (fun _ => pars.getD (parCount c - 3) 0)) {tk : ℝ} {sd : Vec 2} {mt : Mat 6 6} {r : SolveResult 8}
    {g : Vec c.type.nslip} {m : Mem c.type.nH c.type.nslip}
    (h : evpRun X M (fun _ => pars.getD (parCount c - 3) 0) tol tk sd mt = .ok (r, g, m)) (tk' : ℝ) (sd' : Vec 2) :
    ∃ b, updOne c S pars X tk' sd' = .ok b ∧
      (∀ k : Fin (numHist c.type.nH c.type.nslip), k.val ≠ 3 → b.hist.val k.val = m.hist k) ∧ b.hist.val 3 = r.nFEvals := by
  obtain ⟨-, e2⟩ := evpRun_ok.1 h
  obtain ⟨-, n1, -⟩ := C113_halves hX hF hR h
  obtain ⟨m1, e1⟩ := (C38_same_success X M (evpInp tol)
    (evpMem (fun _ => pars.getD (parCount c - 3) 0) tk sd mt) mt).1 m e2
  have hsame := C38_same_answer X hX M (evpInp tol) _ m1 m mt e1 e2
  have e1' := e1
  rw [evpMem_begin] at e1'
  have e1'' := evp_junk hB tk' sd' e1'
  rw [← evpMem_begin _ _ _ _ _ mt] at e1''
  obtain ⟨u1, u2⟩ := C113_updst hB X tk' sd' mt
  obtain ⟨b, hb⟩ := u1.2 ⟨m1, e1''⟩
  have hm1 : m1 = pointMem (Strides.default c.type.numHist) b 0 := by
    have := u2 b hb
    rw [e1''] at this
    injection this
  have hv : ∀ k : Fin (numHist c.type.nH c.type.nslip), b.hist.val k.val = m1.hist k := by
    intro k
    rw [hm1]
    simp [pointMem, slice]
  refine ⟨b, hb, fun k hk => by rw [hv k, hsame.2.2.2.2.1 k hk], ?_⟩
  have h3 := hv ⟨3, by unfold numHist; omega⟩
  have h4 : m1.hist ⟨3, by unfold numHist; omega⟩ = (histOf m1).nFEval := rfl
  rw [h3, h4]
  have := hsame.2.2.2.2.2.1
  linarith

/-- **C113, the second test passes when the first does.** -/
theorem C113_passes {X : Ext} (hX : X.solver.Sound) (hF : LimitFree X.solver) {S : Solver 1} {c : Case} {pars : List ℝ}
    {M : Material c.type.nslip c.type.nH} {tol : ℝ} (hB : BuiltFrom c.type S pars M tol)
    (hR : EvpRests M (fun _ => pars.getD (parCount c - 3) 0)) {tk : ℝ} {sd : Vec 2} {mt : Mat 6 6}
    {o : SolveResult 8 × Vec c.type.nslip × Mem c.type.nH c.type.nslip}
    (h : evpRun X M (fun _ => pars.getD (parCount c - 3) 0) tol tk sd mt = .ok o) {ex : EvpExpected}
    {s : Fin c.type.nslip} (hs : s.val = 1) {rho : ℝ} (hp : EvpPasses ex s rho o) (tk' : ℝ) (sd' : Vec 2) :
    ∃ b, updOne c S pars X tk' sd' = .ok b ∧ UpdOnePasses ex c b := by
  obtain ⟨r, g, m⟩ := o
  obtain ⟨b, hb, hk, h3⟩ := C113_same hX hF hB hR h tk' sd'
  obtain ⟨p1, -, -, -, p2, p3, p4⟩ := hp
  refine ⟨b, hb, by rw [h3]; exact_mod_cast p1, ?_, ?_, ?_⟩
  · have := hk ⟨5, by unfold numHist; omega⟩ (by norm_num)
    rw [show (4 + 1 : ℕ) = 5 from rfl, this]
    exact p2
  · have := hk ⟨9, by unfold numHist; omega⟩ (by norm_num)
    rw [this]
    exact p3
  · have hlt : 13 + c.type.nH + 1 < numHist c.type.nH c.type.nslip := by
      have := s.isLt
      unfold numHist; omega
    have := hk ⟨13 + c.type.nH + 1, hlt⟩ (by simp; omega)
    rw [this]
    have e : (Hist.ofArray m.hist).gdot s = m.hist ⟨13 + c.type.nH + 1, hlt⟩ := by
      simp [Hist.ofArray, hs]
    rw [← e]
    exact p4

/-- **C113, the first test passes when the second does**, unless the linear equations of the tangent fail, `rho` is too large, or
    the expected number of evaluations is above the limit of the first part. -/
theorem C113_passes_back {X : Ext} (hX : X.solver.Sound) (hF : LimitFree X.solver) (hL : X.evalCost = 1) {S : Solver 1}
    {c : Case} {pars : List ℝ} {M : Material c.type.nslip c.type.nH} {tol : ℝ} (hB : BuiltFrom c.type S pars M tol)
    (hR : EvpRests M (fun _ => pars.getD (parCount c - 3) 0)) {tk' : ℝ} {sd' : Vec 2} {b : BatchMem}
    (hb : updOne c S pars X tk' sd' = .ok b) {ex : EvpExpected} (hp : UpdOnePasses ex c b) (h100 : ex.evals ≤ 100)
    {s : Fin c.type.nslip} (hs : s.val = 1) {rho : ℝ} (hrho : rho < 1001 / 1000) (tk : ℝ) (sd : Vec 2) (mt : Mat 6 6) :
    (∃ o, evpRun X M (fun _ => pars.getD (parCount c - 3) 0) tol tk sd mt = .ok o ∧ EvpPasses ex s rho o) ∨
    evpRun X M (fun _ => pars.getD (parCount c - 3) 0) tol tk sd mt = .fail "error from SNLS_LUP_SolveX" := by
  set h0 : Vec c.type.nH := fun _ => pars.getD (parCount c - 3) 0 with hh0
  set m1 : Mem c.type.nH c.type.nslip := pointMem (Strides.default c.type.numHist) b 0 with hm1
  have e1 := (C113_updst hB X tk' sd' mt).2 b hb
  rw [evpMem_begin] at e1
  have e1 := evp_junk hB tk sd e1
  rw [← evpMem_begin _ _ _ _ _ mt, ← hh0, ← hm1] at e1
  obtain ⟨P, hP⟩ : ∃ P, evpProblem M h0 = .ok P := by
    have hset : Step.setup M (evpInp tol) { evpMem h0 tk sd mt with mtan := none } = _ := C113_problem hR tol tk sd mt
    unfold getResponseSngl at e1
    rw [hset] at e1
    cases hP : evpProblem M h0 with
    | ok P => exact ⟨P, rfl⟩
    | fail s => rw [hP] at e1; cases e1
    | undef w => rw [hP] at e1; cases e1
  obtain ⟨c1, c2, -⟩ := evp_stored' hR hP none e1
  obtain ⟨u1, u2⟩ := (updOnePasses_iff ex c b s hs).1 hp
  have hn : (X.solver P.problem tol 200 (fun _ => 0)).nFEvals = ex.evals := by
    have : ((X.solver P.problem tol 200 (fun _ => 0)).nFEvals : ℝ) = ex.evals := by
      rw [← u1]
      simpa using c2.symm
    exact_mod_cast this
  have hd := hF.down P.problem tol 100 200 (fun _ => 0) c1 (by omega)
  have hf : evpFirst X M h0 tol = .ok (X.solver P.problem tol 100 (fun _ => 0),
      P.gdot (X.solver P.problem tol 100 (fun _ => 0)).xLast) :=
    evpFirst_ok.2 ⟨P, hP, rfl, by rw [hd]; exact c1, rfl⟩
  rcases (C38_same_success X M (evpInp tol) (evpMem h0 tk sd mt) mt).2 m1 e1 with ⟨m2, e2⟩ | ⟨m2, e2⟩
  · have hrun := evpRun_ok.2 ⟨hf, e2⟩
    refine Or.inl ⟨_, hrun, (C113_checks hX hF hL hR hrun ex s rho).2 ⟨by rw [hd]; exact hn, hrho, ?_⟩⟩
    have hsame := (C38_same_answer X hX M (evpInp tol) _ m1 m2 mt e1 e2).2.2.2.2.1
    have k1 : (histOf m2).e 1 = (histOf m1).e 1 := hsame _ (by simp)
    have k2 : (histOf m2).q 0 = (histOf m1).q 0 := hsame _ (by simp)
    have k3 : (histOf m2).gdot s = (histOf m1).gdot s := hsame _ (by simp; omega)
    obtain ⟨v1, v2, v3⟩ := u2
    exact ⟨by rw [k1]; exact v1, by rw [k2]; exact v2, by rw [k3]; exact v3⟩
  · right
    have e2 : getResponseSngl X M (evpInp tol) (evpMem h0 tk sd mt) = .fail "error from SNLS_LUP_SolveX" m2 := e2
    unfold evpRun
    rw [hf]
    simp only [Out.bind]
    rw [e2]

/-! ### The materials of the tests -/

theorem updateH1_rest {S : Solver 1} (hS : StopsAtRoot S) {law : Law1} {z dt d : ℝ} (h : law z = some (0, d)) :
    ∃ k, updateH1 S law z dt = .ok (z, k) := by
  have hp : ∃ J, ({ law := law, hO := z, dt := dt } : H1Problem).problem (fun _ => 0) = some ((0 : Vec 1), J) := by
    unfold H1Problem.problem
    rw [H1Problem.computeRJ_some (s := 0) (d := d)]
    · simp only [Option.map_some]
      refine ⟨_, congrArg some (Prod.ext ?_ rfl)⟩
      funext i
      simp
    · simpa using h
  obtain ⟨J, hJ⟩ := hp
  obtain ⟨a, b⟩ := hS _ (1 / 10 ^ 10) 100 _ J hJ (by norm_num)
  unfold updateH1
  simp only [a, b, if_true, H1Problem.getHn, zero_mul, add_zero]
  exact ⟨_, rfl⟩

theorem voce_rests {S : Solver 1} (hS : StopsAtRoot S) (k : Voce) (hk : k.nonlinear = false) (hg : 0 < k.gamss0) (h : Vec 1)
    (dt : ℝ) (n : ℕ) : ∃ e, k.updateH S h dt (0 : Vec n) = .ok (h, e) := by
  have h0 : vecsssumabs (0 : Vec n) = 0 := by simp [vecsssumabs]
  have hlaw : ∃ d, k.getSdot1 (k.getEvolVals (0 : Vec n)) (h 0) = some (0, d) := by
    simp only [Voce.getSdot1, hk, Bool.false_eq_true, if_false, Voce.getEvolVals, h0, mul_zero]
    exact ⟨_, rfl⟩
  obtain ⟨d, hd⟩ := hlaw
  obtain ⟨e, he⟩ := updateH1_rest hS (dt := dt) hd
  unfold Voce.updateH
  rw [if_neg (not_le.2 hg), he]
  refine ⟨e, ?_⟩
  simp only [Out.bind]
  congr 2
  funext i; rw [Subsingleton.elim i 0]

theorem km_rests {S : Solver 1} (hS : StopsAtRoot S) {nV : ℕ} (k : KMBalD nV) (hg : 0 < k.gammaO) {h : ℝ} (hh : 0 < h)
    (hm : k.hdnMin ≤ h) (dt : ℝ) (n : ℕ) : ∃ e, k.updateH S (fun _ => h) dt (0 : Vec n) = .ok (fun _ => h, e) := by
  have h0 : vecsssumabs (0 : Vec n) = 0 := by simp [vecsssumabs]
  have hlaw : ∃ d, k.getSdot1 (k.getEvolVals (0 : Vec n)) (Real.log h) = some (0, d) := by
    simp only [KMBalD.getSdot1, KMBalD.getEvolVals, h0, mul_zero]
    exact ⟨_, rfl⟩
  obtain ⟨d, hd⟩ := hlaw
  obtain ⟨e, he⟩ := updateH1_rest hS (dt := dt) hd
  unfold KMBalD.updateH
  rw [if_neg (not_le.2 hg), max_eq_left hm, if_neg (not_le.2 hh), he]
  exact ⟨e, by simp only [Out.bind, Real.exp_log hh]⟩

/-- the material of both tests, KIN_TYPE 0 -/
theorem evpRests_A {S : Solver 1} (hS : StopsAtRoot S) :
    EvpRests (pxMatA S) (fun _ => pxParsVoce.getD (parCount Case.fccA - 3) 0) where
  cv := by norm_num [pxMatA]
  temp := by norm_num [pxMatA, Eos.tK0, Eos.dtde0]
  hard := voce_rests hS (testVoce false) rfl (by norm_num [testVoce]) (fun _ => pxParsVoce.getD (parCount Case.fccA - 3) 0)
    (1 / 10) 12

/-- the material of both tests, KIN_TYPE 1 -/
theorem evpRests_B {S : Solver 1} (hS : StopsAtRoot S) :
    EvpRests (pxMatB S) (fun _ => pxParsKM.getD (parCount Case.fccB - 3) 0) where
  cv := by norm_num [pxMatB]
  temp := by norm_num [pxMatB, Eos.tK0, Eos.dtde0]
  hard := by
    have e : pxParsKM.getD (parCount Case.fccB - 3) 0 = 25 / 100 := by
      simp [pxParsKM, parCount]
      norm_num
    rw [e]
    exact km_rests hS testKM (by norm_num [testKM]) (by norm_num) (by norm_num [KMBalD.hdnMin, testKM]) _ 12

/-- the material of the first test, KIN_TYPE 2 -/
theorem evpRests_hcp (m s : Fin 24 → Vec 3) : EvpRests (testMatHcp m s) (fun _ => testKMh.hdnInit) where
  cv := by norm_num [testMatHcp, testEos]
  temp := by norm_num [testMatHcp, Eos.tK0, Eos.dtde0, testEos]
  hard := km_rests probe_stops testKMh (by norm_num [testKMh]) (by norm_num [testKMh]) (by norm_num [KMBalD.hdnMin, testKMh])
    (1 / 10) 24

/-- the material of the first test, KIN_TYPE 3 -/
theorem evpRests_bcc : EvpRests testMatBcc (fun _ => testKMb.hdnInit) where
  cv := by norm_num [testMatBcc, testEos]
  temp := by norm_num [testMatBcc, Eos.tK0, Eos.dtde0, testEos]
  hard := km_rests probe_stops testKMb (by norm_num [testKMb, testKM]) (by norm_num [testKMb, testKM])
    (by norm_num [KMBalD.hdnMin, testKMb, testKM]) (1 / 10) 12

/-! ### The tests can pass -/

/-- a library that finds the point that `X` finds and reports `N` evaluations -/
noncomputable def tuned (X : Ext) (N : ℕ) : Ext :=
  ⟨fun P tol _ x => { X.solver P tol 200 x with nFEvals := N }, fun _ B => some B, 1⟩

theorem tuned_sound {X : Ext} (hX : X.solver.Sound) (N : ℕ) : (tuned X N).solver.Sound :=
  fun P tol _ x h => hX P tol 200 x h

theorem tuned_free (X : Ext) (N : ℕ) : LimitFree (tuned X N).solver := ⟨fun _ _ _ _ _ _ _ => rfl, fun _ _ _ _ _ _ _ => rfl⟩

/-- **C113, the tests can pass.** Where the update of C77 meets the expected values, a library with a solver that reports the
    expected number of evaluations makes the first test pass as a whole. -/
theorem C113_can_pass {X : Ext} (hX : X.solver.Sound) {M : Material n nH} {h0 : Vec nH} (hR : EvpRests M h0) {tol tk : ℝ}
    {sd : Vec 2} {m1 : Mem nH n} (h : getResponseSngl X M (testInp tol) (testMem h0 tk sd none) = .ok m1) {s : Fin n}
    (ex : EvpExpected) (hm : MeetsTest m1 s ex.strain ex.quat ex.rate) (mt : Mat 6 6) {rho : ℝ} (hrho : rho < 1001 / 1000) :
    ∃ o, evpRun (tuned X ex.evals) M h0 tol tk sd mt = .ok o ∧ EvpPasses ex s rho o := by
  have hmem : (testMem h0 tk sd none : Mem nH n) = { evpMem h0 tk sd mt with mtan := none } := by
    have e := evpMem_hist (n := n) h0 tk sd mt
    unfold testMem evpMem
    simp only [Mem.mk.injEq, and_true, true_and]
    rw [← e]
    exact Hist.toArray_ofArray _
  rw [← evpInp_eq, hmem] at h
  have hset : Step.setup M (evpInp tol) { evpMem h0 tk sd mt with mtan := none } = _ := C113_problem hR tol tk sd mt
  cases hP : evpProblem M h0 with
  | fail w => unfold getResponseSngl at h; rw [hset, hP] at h; cases h
  | undef w => unfold getResponseSngl at h; rw [hset, hP] at h; cases h
  | ok P =>
  rw [hP] at hset
  simp only [Out.bind] at hset
  obtain ⟨hc, -⟩ := evp_stored' hR hP none h
  obtain ⟨hr, hl⟩ := hX P.problem tol 200 (fun _ => 0) hc
  have hf : evpFirst (tuned X ex.evals) M h0 tol
      = .ok ({ X.solver P.problem tol 200 (fun _ => 0) with nFEvals := ex.evals },
          P.gdot (X.solver P.problem tol 200 (fun _ => 0)).x) :=
    evpFirst_ok.2 ⟨P, hP, rfl, hc, by rw [← hl]⟩
  have hset2 : Step.setup M (evpInp tol) (evpMem h0 tk sd mt) = .ok (h0, P) := hset
  unfold getResponseSngl at h
  rw [hset] at h
  simp only [Step.run] at h
  have hsol : Step.solve X (evpInp tol) P = X.solver P.problem tol 200 (fun _ => 0) := rfl
  rw [hsol, if_neg (by simp [hc])] at h
  simp only [Step.tangent, Option.isSome_none, Bool.false_eq_true, if_false] at h
  cases hg : M.el.getGmod with
  | undef w => rw [hg] at h; cases h
  | fail w => rw [hg] at h; cases h
  | ok G =>
  rw [hg] at h
  simp only at h
  injection h with h
  have h2 : ∃ m2, getResponseSngl (tuned X ex.evals) M (evpInp tol) (evpMem h0 tk sd mt) = .ok m2 ∧
      (histOf m2).e = (histOf m1).e ∧ (histOf m2).q = (histOf m1).q ∧ (histOf m2).gdot = (histOf m1).gdot := by
    unfold getResponseSngl
    rw [hset2]
    simp only [Step.run]
    have hsol2 : Step.solve (tuned X ex.evals) (evpInp tol) P
      = { X.solver P.problem tol 200 (fun _ => 0) with nFEvals := ex.evals } := rfl
    rw [hsol2, if_neg (by simp [hc])]
    have ht : ∃ t, Step.tangent (tuned X ex.evals) (Step.eosUpdate M (evpInp tol) (evpMem h0 tk sd mt)).bulkNew P
        (X.solver P.problem tol 200 (fun _ => 0)).x (evpMem h0 tk sd mt : Mem nH n).mtan.isSome = some t := by
      simp [Step.tangent, evpMem, tuned, Updst.mtan]
    obtain ⟨t, ht⟩ := ht
    simp only [ht, hg]
    refine ⟨_, rfl, ?_⟩
    rw [← h]
    simp only [histOf, Hist.ofArray_toArray, Step.newHist, Step.lastX, hl]
    simp
  obtain ⟨m2, e2, k1, k2, k3⟩ := h2
  have hrun := evpRun_ok.2 ⟨hf, e2⟩
  refine ⟨_, hrun, (C113_checks (tuned_sound hX _) (tuned_free X _) rfl hR hrun ex s rho).2 ⟨rfl, hrho, ?_⟩⟩
  obtain ⟨v1, v2, v3⟩ := hm
  exact ⟨by rw [k1]; exact v1, by rw [k2]; exact v2, by rw [k3]; exact v3⟩

theorem testMatA_eq : testMatA = pxMatA (probe 1) := by
  have hK : (Elast.cubic 3 1 1).kBulkMod = 5 / 3 := by unfold Elast.kBulkMod; norm_num
  unfold testMatA pxMatA testEos
  rw [hK]
  norm_num

theorem testMatB_eq : testMatB = pxMatB (probe 1) := by
  have hK : (Elast.cubic 3 1 1).kBulkMod = 5 / 3 := by unfold Elast.kBulkMod; norm_num
  unfold testMatB pxMatB testEos
  rw [hK]
  norm_num

/-- **C113, power law.** With KIN_TYPE 0 there is a solver with which both tests pass as a whole. -/
theorem C113_voce (tk : ℝ) (sd : Vec 2) (mt : Mat 6 6) (tk' : ℝ) (sd' : Vec 2) {rho : ℝ} (hrho : rho < 1001 / 1000) :
    ∃ X : Ext, X.solver.Sound ∧ LimitFree X.solver ∧
      (∃ o, evpRun X (pxMatA (probe 1)) (fun _ => pxParsVoce.getD (parCount Case.fccA - 3) 0) 1e-10 tk sd mt = .ok o ∧
        EvpPasses evpExpect0 1 rho o) ∧
      ∃ b, updOne .fccA (probe 1) pxParsVoce X tk' sd' = .ok b ∧ UpdOnePasses evpExpect0 .fccA b := by
  have hR := evpRests_A probe_stops
  have e0 : (fun _ => (testVoce false).hdnInit : Vec 1) = fun _ => pxParsVoce.getD (parCount Case.fccA - 3) 0 := by
    funext _
    simp [pxParsVoce, parCount, testVoce]
    norm_num
  obtain ⟨X, m1, hX, h, hm⟩ := C77_voce (tol := 1e-10) (by norm_num) tk sd
  rw [testMatA_eq, e0] at h
  obtain ⟨o, ho, hp⟩ := C113_can_pass hX hR (s := 1) h evpExpect0 (by convert hm using 1 <;> norm_num [evpExpect0]) mt hrho
  exact ⟨_, tuned_sound hX _, tuned_free X _, ⟨o, ho, hp⟩,
    C113_passes (tuned_sound hX _) (tuned_free X _) (C110_material_voce (probe 1)) hR ho rfl hp tk' sd'⟩

/-- **C113, dislocation kinetics.** With KIN_TYPE 1 there is a solver with which both tests pass as a whole. -/
theorem C113_fcc (tk : ℝ) (sd : Vec 2) (mt : Mat 6 6) (tk' : ℝ) (sd' : Vec 2) {rho : ℝ} (hrho : rho < 1001 / 1000) :
    ∃ X : Ext, X.solver.Sound ∧ LimitFree X.solver ∧
      (∃ o, evpRun X (pxMatB (probe 1)) (fun _ => pxParsKM.getD (parCount Case.fccB - 3) 0) 1e-10 tk sd mt = .ok o ∧
        EvpPasses evpExpect1 1 rho o) ∧
      ∃ b, updOne .fccB (probe 1) pxParsKM X tk' sd' = .ok b ∧ UpdOnePasses evpExpect1 .fccB b := by
  have hR := evpRests_B probe_stops
  have e0 : (fun _ => testKM.hdnInit : Vec 1) = fun _ => pxParsKM.getD (parCount Case.fccB - 3) 0 := by
    funext _
    simp [pxParsKM, parCount, testKM]
    norm_num
  obtain ⟨X, m1, hX, h, hm⟩ := C77_fcc (tol := 1e-10) (by norm_num) tk sd
  rw [testMatB_eq, e0] at h
  obtain ⟨o, ho, hp⟩ := C113_can_pass hX hR (s := 1) h evpExpect1 (by convert hm using 1 <;> norm_num [evpExpect1]) mt hrho
  exact ⟨_, tuned_sound hX _, tuned_free X _, ⟨o, ho, hp⟩,
    C113_passes (tuned_sound hX _) (tuned_free X _) (C110_material_km (probe 1)) hR ho rfl hp tk' sd'⟩

/-- **C113, HCP.** With KIN_TYPE 2 there is a solver with which the first test passes as a whole. -/
theorem C113_hcp {m s : Fin 24 → Vec 3} (hms : hcpMS testCA = .ok (m, s)) (tk : ℝ) (sd : Vec 2) (mt : Mat 6 6) {rho : ℝ}
    (hrho : rho < 1001 / 1000) : ∃ X : Ext, X.solver.Sound ∧ LimitFree X.solver ∧
      ∃ o, evpRun X (testMatHcp m s) (fun _ => testKMh.hdnInit) 1e-10 tk sd mt = .ok o ∧ EvpPasses evpExpect2 12 rho o := by
  obtain ⟨X, m1, hX, h, hm⟩ := C77_hcp (tol := 1e-10) (by norm_num) tk sd hms
  exact ⟨_, tuned_sound hX _, tuned_free X _,
    C113_can_pass hX (evpRests_hcp m s) (s := 12) h evpExpect2 (by convert hm using 1 <;> norm_num [evpExpect2]) mt hrho⟩

/-- **C113, BCC.** With KIN_TYPE 3 there is a solver with which the first test passes as a whole. -/
theorem C113_bcc (tk : ℝ) (sd : Vec 2) (mt : Mat 6 6) {rho : ℝ} (hrho : rho < 1001 / 1000) :
    ∃ X : Ext, X.solver.Sound ∧ LimitFree X.solver ∧
      ∃ o, evpRun X testMatBcc (fun _ => testKMb.hdnInit) 1e-10 tk sd mt = .ok o ∧ EvpPasses evpExpect3 1 rho o := by
  obtain ⟨X, m1, hX, h, hm⟩ := C77_bcc (tol := 1e-10) (by norm_num) tk sd
  exact ⟨_, tuned_sound hX _, tuned_free X _,
    C113_can_pass hX evpRests_bcc (s := 1) h evpExpect3 (by convert hm using 1 <;> norm_num [evpExpect3]) mt hrho⟩

/-! ### Examples -/

/-- the hypotheses of `C113_problem`, `C113_halves`, `C113_checks`, `C113_same` and `C113_passes` are met together, and the
    conclusions are not vacuous: the history of the second test holds the expected number of evaluations -/
example : ∃ (X : Ext) (b : BatchMem), updOne .fccA (probe 1) pxParsVoce X 0 0 = .ok b ∧ b.hist.val 3 = 18 := by
  obtain ⟨X, -, -, -, b, hb, hp⟩ := C113_voce 7 0 0 0 0 (rho := 1) (by norm_num)
  exact ⟨X, b, hb, by simpa [evpExpect0] using hp.1⟩

/-- and those of `C113_passes_back` -/
example : ∃ (X : Ext) (b : BatchMem), X.solver.Sound ∧ LimitFree X.solver ∧
    BuiltFrom Case.fccB.type (probe 1) pxParsKM (pxMatB (probe 1)) 1e-10 ∧
    updOne .fccB (probe 1) pxParsKM X 5 0 = .ok b ∧ UpdOnePasses evpExpect1 .fccB b ∧ evpExpect1.evals ≤ 100 := by
  obtain ⟨X, h1, h2, -, b, hb, hp⟩ := C113_fcc 7 0 0 5 0 (rho := 1) (by norm_num)
  exact ⟨X, b, h1, h2, C110_material_km _, hb, hp, by norm_num [evpExpect1]⟩

/-- the lattice of the HCP test is accepted -/
example : ∃ m s, hcpMS testCA = .ok (m, s) := ⟨_, _, hcpMS_eq (by norm_num [testCA])⟩

/-- `C113_refuted_rho` has a case: a test that passes as a whole -/
example : ∃ (X : Ext) (o : SolveResult 8 × Vec 12 × Mem 1 12), evpRun X testMatBcc (fun _ => testKMb.hdnInit) 1e-10 0 0 0 = .ok o ∧
    EvpPasses evpExpect3 1 (-1000) o := by
  obtain ⟨X, -, -, o, ho, hp⟩ := C113_bcc 0 0 0 (rho := 1) (by norm_num)
  exact ⟨X, o, ho, (C113_refuted_rho _ _ _ _ hp).1⟩

end Ecm.Props
