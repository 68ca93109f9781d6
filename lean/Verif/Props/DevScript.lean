/-
  C97, second part: pyecmech/example-dev.py.
-/
import Verif.Props.DevObj

namespace Ecm.Props
open Ecm Spec Classical

variable {n nH : ℕ}

/-! ### One point -/

/-- a solver that is always believed: the point returned by `R` counts as converged -/
noncomputable def trust (R : Root) : Ext where
  solver := fun P tol _ x0 => { converged := true, x := (R P tol x0).1, xLast := (R P tol x0).2, nFEvals := 0 }
  lup := fun _ B => some B
  evalCost := 0

/-- the outcome of a point, given what setup computes -/
theorem devPoint_eq (R : Root) (M : Material n nH) (i g : ℕ) (w : DevHeap n nH) (inp : Inputs) (m : Mem nH n)
    {D : DevProb n nH} (hD : devSetup M inp m = .ok D) :
    devPoint R M i g w inp m =
      match (Function.update w i (evald D (R D.prob.problem inp.tol fun _ => 0).2 (w i).eDevTot (w i).halfVMidDt) g).getState
          M.el (R D.prob.problem inp.tol fun _ => 0).1 m with
      | .undef e => .undef e
      | .fail e _ => .fail e
      | .ok s => .ok (s.1, Function.update (Function.update w i (evald D (R D.prob.problem inp.tol fun _ => 0).2
          (w i).eDevTot (w i).halfVMidDt)) g s.2) := by
  have hs := (C97_setup M (w i) _ inp m).2 ⟨D, hD, rfl⟩
  unfold devPoint
  rw [hs]
  rfl

/-- **C97, one point of the script.** When the object is the global variable `prob`, ECMechProbDev.solve gives for a point
    what the batch update would give if it took every answer of its solver for a solution: stress, moduli and history are
    the same, whatever the object did before. -/
theorem C97_point (R : Root) (M : Material n nH) (i : ℕ) (w : DevHeap n nH) (inp : Inputs) (m : Mem nH n)
    (hm : m.mtan = none) :
    (∀ m', getResponseSngl (trust R) M inp m = .ok m' → ∃ E w', devPoint R M i i w inp m =
      .ok ({ m' with eInt := E, tkelv := m.tkelv }, w')) ∧
    ∀ r, devPoint R M i i w inp m = .ok r → ∃ m', getResponseSngl (trust R) M inp m = .ok m' := by
  constructor
  · intro m' h
    obtain ⟨W⟩ := getResponseSngl_ok h
    obtain ⟨D, s, hD, hs, h1, h2, h3, h4⟩ := C60_state (trust R) M inp m m' h
    rw [devPoint_eq R M i i w inp m hD]
    rw [Function.update_self]
    rw [hm] at hs
    have hg := evald_getState M.el D (devSetup_fields hD).1 _ _ (w i).eDevTot (w i).halfVMidDt m s hs
    have hg' : (evald D (R D.prob.problem inp.tol fun _ => 0).2 (w i).eDevTot (w i).halfVMidDt).getState
          M.el (R D.prob.problem inp.tol fun _ => 0).1 m = _ := hg
    rw [hg']
    have hmt : m'.mtan = m.mtan := by rw [hm]; exact mtan_none h hm
    have hh : s.hist = m'.hist := by
      have e : (Hist.ofArray m'.hist).nFEval = 0 := by
        rw [W.hhist, Hist.ofArray_toArray]
        simp [Step.newHist, hm, Step.solve, trust]
      have e2 : Hist.ofArray s.hist = Hist.ofArray m'.hist := by
        rw [h4, ← e]
      have := congrArg Hist.toArray e2
      rwa [Hist.toArray_ofArray, Hist.toArray_ofArray] at this
    simp only [← h1, ← h3, ← hh, hmt]
    exact ⟨_, _, rfl⟩
  · intro r h
    have hd : ∃ D, devSetup M inp m = .ok D := by
      unfold devPoint at h
      cases hs : (w i).setup M inp m with
      | undef e => simp [hs] at h
      | fail e o => simp [hs] at h
      | ok o => exact ((C97_setup M (w i) o inp m).1 hs).imp fun D h => h.1
    obtain ⟨D, hD⟩ := hd
    rw [devPoint_eq R M i i w inp m hD, Function.update_self] at h
    have hg : ∃ g, M.el.getGmod = .ok g := by
      unfold DevObj.getState at h
      simp only [evald, holding] at h
      cases hg : M.el.getGmod with
      | undef e => simp [hg] at h
      | fail e => simp [hg] at h
      | ok g => exact ⟨g, rfl⟩
    obtain ⟨g, hg⟩ := hg
    have hset := (devSetup_fields hD).2.2.2.2.2
    unfold getResponseSngl
    rw [hset]
    simp only [Step.run, Step.solve, trust, hg, hm, Step.tangent]
    exact ⟨_, rfl⟩

/-- **C97, several points.** When the object is the global variable `prob`, every point of a call of solve gets the result
    it would get alone, in any order, whatever the object did before. -/
theorem C97_solve (R : Root) (M : Material n nH) (i : ℕ) (w : DevHeap n nH) (l : List (Inputs × Mem nH n))
    (hl : ∀ p ∈ l, p.2.mtan = none) (r : List (Mem nH n) × DevHeap n nH) (h : devSolve R M i i l w = .ok r) :
    List.Forall₂ (fun p v => ∃ m', getResponseSngl (trust R) M p.1 { p.2 with sdd := 0 } = .ok m' ∧
      v.stress = m'.stress ∧ v.hist = m'.hist ∧ v.sdd = m'.sdd) l r.1 := by
  induction l generalizing w r with
  | nil => cases h; exact .nil
  | cons p l ih =>
    obtain ⟨inp, m⟩ := p
    simp only [devSolve] at h
    obtain ⟨q, hq, h⟩ := Out.bind_ok h
    obtain ⟨s, hs, h⟩ := Out.bind_ok h
    cases h
    have hm : ({ m with sdd := 0 } : Mem nH n).mtan = none := hl (inp, m) (by simp)
    obtain ⟨h1, h2⟩ := C97_point R M i w inp { m with sdd := 0 } hm
    obtain ⟨m', hm'⟩ := h2 q hq
    obtain ⟨E, w', h3⟩ := h1 m' hm'
    rw [hq] at h3
    cases h3
    exact .cons ⟨m', hm', rfl, rfl, rfl⟩ (ih _ (fun p hp => hl p (List.mem_cons_of_mem _ hp)) _ hs)

/-! ### Another object than the global one -/

/-- **C97, refuted for other objects.** Called for any object other than the global `prob`, solve asks the global object for
    the state: it goes through a null pointer if that object was never set up. -/
theorem C97_refuted_other (R : Root) (M : Material n nH) (i g : ℕ) (hig : i ≠ g) (w : DevHeap n nH)
    (hw : (w g).prob = none) (inp : Inputs) (m : Mem nH n) (D : DevProb n nH) (hD : devSetup M inp m = .ok D) :
    ∃ e, devPoint R M i g w inp m = .undef e := by
  rw [devPoint_eq R M i g w inp m hD, Function.update_of_ne hig.symm]
  unfold DevObj.getState
  rw [hw]
  exact ⟨_, rfl⟩

/-- **C97, refuted for other objects.** If the global object was set up and evaluated before, the state returned is that of
    the problem it was set up for: its hardness and its slip rates, and the elastic strain of its own problem. -/
theorem C97_refuted_stale (R : Root) (M : Material n nH) (i g : ℕ) (hig : i ≠ g) (w : DevHeap n nH) (D0 : DevProb n nH)
    (y : Vec 8) (a b : ℝ) (hw : w g = evald D0 y a b) (inp : Inputs) (m : Mem nH n) (r : Mem nH n × DevHeap n nH)
    (h : devPoint R M i g w inp m = .ok r) :
    (histOf r.1).h = D0.hardU ∧ (histOf r.1).gdot = D0.prob.gdot y ∧ ∃ x, (histOf r.1).e = D0.prob.eF x := by
  have hd : ∃ D, devSetup M inp m = .ok D := by
    unfold devPoint at h
    cases hs : (w i).setup M inp m with
    | undef e => simp [hs] at h
    | fail e o => simp [hs] at h
    | ok o => exact ((C97_setup M (w i) o inp m).1 hs).imp fun D h => h.1
  obtain ⟨D, hD⟩ := hd
  rw [devPoint_eq R M i g w inp m hD, Function.update_of_ne hig.symm, hw] at h
  unfold DevObj.getState at h
  simp only [evald, holding] at h
  cases hg : M.el.getGmod with
  | undef e => simp [hg] at h
  | fail e => simp [hg] at h
  | ok g =>
    simp only [hg] at h
    cases h
    simp only [histOf, Hist.ofArray_toArray]
    exact ⟨trivial, trivial, _, rfl⟩

/-! ### The whole script -/

/-- two points with the same elastic strain, orientation, hardness, slip rates and slip -/
structure SameState (m v : Mem nH n) : Prop where
  e : (histOf v).e = (histOf m).e
  q : (histOf v).q = (histOf m).q
  h : (histOf v).h = (histOf m).h
  gdot : (histOf v).gdot = (histOf m).gdot
  shrEff : (histOf v).shrEff = (histOf m).shrEff
  mtan : m.mtan = none
  mtan' : v.mtan = none

/-- with cubic elasticity the problem does not depend on temperature and energy except through the slip law -/
theorem problem_free (P : Updst n) (c11 c12 c44 : ℝ) (hel : P.el = .cubic c11 c12 c44) (E T : ℝ) :
    let Q : Updst n := { P with eVref := E, tK := T }
    Q.problem = P.problem ∧ Q.gdot = P.gdot ∧ Q.shrateEff = P.shrateEff ∧ Q.eF = P.eF ∧ Q.cQuat = P.cQuat ∧
      ∀ e q, Step.stressOf Q e q = Step.stressOf P e q := by
  obtain ⟨geom, el, gd, a, hs, dt, dv, ev, pe, tk, eN, cN, dS, wS⟩ := P
  simp only at hel
  subst hel
  exact ⟨rfl, rfl, rfl, rfl, rfl, fun _ _ => rfl⟩

/-- the root finder of the script takes the steps of the solver of the batch update -/
def GoesWith (R : Root) (S : Solver 8) (tol : ℝ) : Prop :=
  ∀ P, R P tol (fun _ => 0) = ((S P tol 200 fun _ => 0).x, (S P tol 200 fun _ => 0).xLast)

/-- without thermal pressure, and with power-law slip, an update does not depend on energy, temperature, stress and the
    counters -/
theorem same_step {X : Ext} {R : Root} {M : Material n 1} {k : Voce} {S : Solver 1} {c11 c12 c44 : ℝ}
    (hM : PowerCubic M k S c11 c12 c44) (hγ : M.eos.gamma = 0) {inp : Inputs} (hR : GoesWith R X.solver inp.tol)
    {m v m' : Mem 1 n} (hmv : SameState m v) (h : getResponseSngl X M inp m = .ok m') :
    ∃ v', getResponseSngl (trust R) M inp v = .ok v' ∧ SameState m' v' ∧ v'.stress = m'.stress := by
  obtain ⟨W⟩ := getResponseSngl_ok h
  have hpr : (Step.eosUpdate M inp v).press = (Step.eosUpdate M inp m).press := by
    simp only [Step.eosUpdate, Eos.updateSimple, Eos.evalPTDiff, hγ, zero_mul]
  have hV : M.kin.getVals (Step.eosUpdate M inp v).press (Step.tK M inp v) W.hU = .ok (W.v, W.scale) := by
    rw [← W.hV]
    obtain ⟨geom, kin, el, eos⟩ := M
    obtain ⟨-, hkin, -, -, -⟩ := hM
    simp only at hkin
    subst hkin
    rfl
  have hq : Step.quatN v = Step.quatN m := by
    unfold Step.quatN
    rw [show (Hist.ofArray v.hist).q = _ from hmv.q]
  have hset := Step.setup_eq_ok (m := v) (by rw [show (Hist.ofArray v.hist).q = _ from hmv.q]; exact W.hq) W.hcv W.hdt
    W.hv (by
      rw [show (Hist.ofArray v.hist).h = _ from hmv.h, show (Hist.ofArray v.hist).gdot = _ from hmv.gdot]
      exact W.hH) hV
  rw [hpr, hq, show (Hist.ofArray v.hist).e = _ from hmv.e] at hset
  obtain ⟨f1, f2, f3, f4, f5, f6⟩ := problem_free W.P c11 c12 c44 (by rw [W.hP]; exact hM.el)
    (Step.eosUpdate M inp v).eNew (Step.tK M inp v)
  set Q : Updst n := { W.P with eVref := (Step.eosUpdate M inp v).eNew, tK := Step.tK M inp v } with hQ
  have hset' : Step.setup M inp v = .ok (W.hU, Q) := by
    rw [hset, hQ, W.hP]
  have hx : (Step.solve (trust R) inp Q).x = (Step.solve X inp W.P).x := by
    show (R Q.problem inp.tol fun _ => 0).1 = _
    rw [hR, f1]
    rfl
  have hl : (Step.solve (trust R) inp Q).xLast = (Step.solve X inp W.P).xLast := by
    show (R Q.problem inp.tol fun _ => 0).2 = _
    rw [hR, f1]
    rfl
  have hok : ∃ v', getResponseSngl (trust R) M inp v = .ok v' ∧
      v'.stress = Step.stressOf Q (Q.eF (Step.solve (trust R) inp Q).x) (Q.cQuat (Step.solve (trust R) inp Q).x) ∧
      v'.hist = (Step.newHist (trust R) inp (Hist.ofArray v.hist) W.hU Q (Step.solve (trust R) inp Q) false).toArray ∧
      v'.mtan = none := by
    unfold getResponseSngl
    rw [hset']
    simp only [Step.run, hmv.mtan', Step.tangent, W.hg]
    exact ⟨_, rfl, rfl, rfl, rfl⟩
  obtain ⟨v', hok, hs, hh, ht⟩ := hok
  have hh' := W.hhist
  rw [hmv.mtan] at hh'
  refine ⟨v', hok, ?_, ?_⟩
  · refine ⟨?_, ?_, ?_, ?_, ?_, mtan_none h hmv.mtan, ht⟩ <;>
      simp only [histOf, hh, hh', Hist.ofArray_toArray, Step.newHist, Step.lastX, hx, hl, f2, f3, f4, f5, Option.isSome_none]
    · rw [show Q.cN = W.P.cN from rfl]
    · simp
      exact hmv.shrEff
  · rw [hs, W.hst, hx, f4, f5, f6]

/-- the object of the script -/
theorem devNew_script (S : Solver 1) : ∃ D, Dev.new Case.fccA.type S scriptPars = .ok D ∧ D.mat = scriptMat S ∧
    D.hist = devHistDesc copperVoce.histInfo 12 := by
  have hk : Case.fccA.type.setKin S copperVoce.getParams = .ok ((scriptMat S).kin, copperVoce.histInfo) := by
    show kinVoce false 12 S copperVoce.getParams = _
    unfold kinVoce
    have : Voce.setParams false copperVoce.getParams = .ok copperVoce := by
      have := Voce.setParams_lin copperVoce.mu copperVoce.xm copperVoce.gamW copperVoce.h0 copperVoce.tausi copperVoce.taus0
        copperVoce.xms copperVoce.gamss0 copperVoce.hdnInit
      unfold Voce.getParams
      rw [this]
      rfl
    rw [this]
    rfl
  have hb : 0 < (Elast.cubic 168.4 121.4 75.2).kBulkMod := by
    unfold Elast.kBulkMod
    norm_num
  have h := dev_new (T := Case.fccA.type) S rfl 8.92e-6 0.003435984 (1 / 10 ^ 10) 0 (-1.0307952) [168.4, 121.4, 75.2]
    copperVoce.getParams rfl rfl
  have hp : scriptPars = parVec 8.92e-6 0.003435984 (1 / 10 ^ 10) 0 (-1.0307952) [] [168.4, 121.4, 75.2]
    copperVoce.getParams := scriptPars_voce
  have hE : Case.fccA.type.setEl [168.4, 121.4, 75.2] = .ok (Elast.cubic 168.4 121.4 75.2) := rfl
  rw [hp, h, show Case.fccA.type.setGeom [] = .ok (slipPQ fccM fccS) from C16_fcc.2, hE, hk]
  simp only [Out.bind, getBulkMod_ok hb]
  exact ⟨_, rfl, rfl, rfl⟩

theorem script_start : ∀ j : Fin (numHist 1 12),
    ((devHistDesc copperVoce.histInfo 12).map HistEntry.init).getD j 0 = scriptStart.hist j := by
  intro j
  fin_cases j <;> rfl

theorem devVol_eq {v : Vec 4} {V : ℝ} (hv : v 1 = V) (hV : 0 < V) :
    devVol v = .ok (scriptInp V).vr ∧ devInp (scriptInp V).vr = scriptInp V := by
  have hg : 0 < growth := Real.exp_pos _
  have hr : scriptRate.getD 6 0 * scriptDt = 1 / 10000 := by
    simp [scriptRate, scriptDt]
    norm_num
  have hw : Real.exp (scriptRate.getD 6 0 * scriptDt) = growth := by rw [hr]; rfl
  have hne : scriptDt * 0.5 * (V + V * growth) ≠ 0 := by
    unfold scriptDt
    positivity
  constructor
  · unfold devVol
    simp only
    rw [hw, hv, if_neg hne]
    have e : scriptDt * 0.5 * (V + V * growth) = 1 / 10 * ((V + V * growth) / 2) := by
      unfold scriptDt
      ring
    rw [e]
    rfl
  · unfold devInp scriptInp
    congr 1
    · unfold scriptDt; norm_num
    · norm_num
    · funext j
      fin_cases j <;> simp [scriptRate] <;> norm_num

theorem devPoint_same {X : Ext} {R : Root} {M : Material n 1} {k : Voce} {S : Solver 1} {c11 c12 c44 : ℝ}
    (hM : PowerCubic M k S c11 c12 c44) (hγ : M.eos.gamma = 0) {inp : Inputs} (hR : GoesWith R X.solver inp.tol)
    {m v m' : Mem 1 n} (hmv : SameState m v) (h : getResponseSngl X M inp m = .ok m') (i : ℕ) (w : DevHeap n 1) :
    ∃ r, devPoint R M i i w inp v = .ok r ∧ SameState m' r.1 ∧ r.1.stress = m'.stress := by
  obtain ⟨v', h1, h2, h3⟩ := same_step hM hγ hR hmv h
  obtain ⟨E, w', h4⟩ := (C97_point R M i w inp v hmv.mtan').1 v' h1
  exact ⟨_, h4, ⟨h2.e, h2.q, h2.h, h2.gdot, h2.shrEff, h2.mtan, h2.mtan'⟩, h3⟩

theorem devLoop_same {X : Ext} {R : Root} {M : Material n 1} {k : Voce} {S : Solver 1} {c11 c12 c44 : ℝ}
    (hM : PowerCubic M k S c11 c12 c44) (hγ : M.eos.gamma = 0) (hR : GoesWith R X.solver (1 / 10 ^ 10))
    (t t' : ℕ → Mem 1 n) (hl : ∀ j, t (j + 1) = { t' j with sdd := 0 }) (K : ℕ) : ∀ (j0 : ℕ) (vr : Vec 4) (v : Mem 1 n)
    (w : DevHeap n 1), vr 1 = Real.exp (j0 / 10000) → SameState (t j0) v →
    (∀ j, j < K → getResponseSngl X M (scriptInp (Real.exp ((j0 + j : ℕ) / 10000))) (t (j0 + j)) = .ok (t' (j0 + j))) →
    devLoop R M K vr v w = .ok ((List.range K).map fun j => (t' (j0 + j)).stress 0) := by
  induction K with
  | zero => intro j0 vr v w _ _ _; rfl
  | succ K ih =>
    intro j0 vr v w hvr hs hok
    obtain ⟨hv1, hv2⟩ := devVol_eq hvr (Real.exp_pos _)
    have h0 := hok 0 (by omega)
    simp only [Nat.add_zero] at h0
    obtain ⟨r, h1, h2, h3⟩ := devPoint_same hM hγ hR (v := { v with sdd := 0 })
      ⟨hs.e, hs.q, hs.h, hs.gdot, hs.shrEff, hs.mtan, hs.mtan'⟩ h0 0 w
    simp only [devLoop, hv1, Out.bind, hv2, devSolve, h1]
    have hg : (scriptInp (Real.exp (j0 / 10000))).vr 1 = Real.exp ((j0 + 1 : ℕ) / 10000) := by
      show Real.exp (j0 / 10000) * growth = _
      unfold growth
      rw [← Real.exp_add]
      congr 1
      push_cast
      ring
    rw [ih (j0 + 1) _ r.1 r.2 hg (by
      rw [hl j0]
      exact ⟨h2.e, h2.q, h2.h, h2.gdot, h2.shrEff, h2.mtan, h2.mtan'⟩) (fun j hj => by
      have := hok (j + 1) (by omega)
      rwa [show j0 + (j + 1) = j0 + 1 + j by omega] at this)]
    simp only [List.range_succ_eq_map, List.map_cons, List.map_map, h3]
    simp only [Nat.add_zero, Out.ok.injEq, List.cons.injEq, true_and]
    refine List.map_congr_left fun j _ => ?_
    show (t' (j0 + 1 + j)).stress 0 = (t' (j0 + (j + 1))).stress 0
    rw [show j0 + 1 + j = j0 + (j + 1) by omega]

/-- **C97, the two scripts.** When the script example.py runs to its end (C86), the developer's script prints the same 41
    numbers, as long as its root finder takes the steps of the solver of the batch update, whatever the uninitialised
    members of the object hold.  (The energies may differ; for these parameters nothing else depends on them.) -/
theorem C97_script (S : Solver 1) (X : Ext) (R : Root) (hR : GoesWith R X.solver (1 / 10 ^ 10)) (out : List ℝ)
    (h : pyScript S X = .ok out) (a b : ℝ) : devScript S R a b = .ok out := by
  obtain ⟨t, t', h0, hok, hl, rfl⟩ := (C86_script S X out).1 h
  obtain ⟨D, hD, hmat, hhist⟩ := devNew_script S
  unfold devScript
  rw [hD]
  simp only [Out.bind]
  obtain ⟨hv1, hv2⟩ := devVol_eq (v := ![1.0, 1.0, 0.0, 0.0]) (V := Real.exp ((0 : ℕ) / 10000)) (by simp; norm_num)
    (Real.exp_pos _)
  rw [hv1]
  simp only [hv2]
  have hstart : (fun j : Fin (numHist Case.fccA.type.nH Case.fccA.type.nslip) => (D.hist.map HistEntry.init).getD j 0)
      = scriptStart.hist := by
    funext j
    rw [hhist]
    exact script_start j
  have hm := hok 0 (by norm_num)
  have hs0 : SameState (t 0) { eInt := 0, stress := 0, hist := scriptStart.hist, tkelv := 300, sdd := 0, mtan := none } := by
    rw [h0]
    exact ⟨rfl, rfl, rfl, rfl, rfl, rfl, rfl⟩
  obtain ⟨r, h1, h2, h3⟩ := devPoint_same (scriptMat_cubic S) rfl (R := R) hR hs0 hm 0 (fun _ => DevObj.new a b)
  rw [hmat]
  simp only [hstart]
  show Out.bind (devPoint (n := 12) (nH := 1) R (scriptMat S) 0 0 (fun _ => DevObj.new a b)
    (scriptInp (Real.exp ((0 : ℕ) / 10000)))
    { eInt := 0, stress := 0, hist := scriptStart.hist, tkelv := 300, sdd := 0, mtan := none }) (fun r =>
      Out.bind (devLoop (n := 12) (nH := 1) R (scriptMat S) 40 (scriptInp (Real.exp ((0 : ℕ) / 10000))).vr
        { r.1 with sdd := 0 } r.2) fun l => .ok (r.1.stress 0 :: l)) = _
  rw [h1]
  simp only [Out.bind]
  have hg : (scriptInp (Real.exp ((0 : ℕ) / 10000))).vr 1 = Real.exp ((1 : ℕ) / 10000) := by
    show Real.exp ((0 : ℕ) / 10000) * growth = _
    unfold growth
    rw [← Real.exp_add]
    congr 1
    push_cast
    ring
  rw [devLoop_same (scriptMat_cubic S) rfl hR t t' hl 40 1 _ _ r.2 hg (by
    rw [hl 0]
    exact ⟨h2.e, h2.q, h2.h, h2.gdot, h2.shrEff, h2.mtan, h2.mtan'⟩) (fun j hj => hok (1 + j) (by omega))]
  simp only [h3]
  rw [List.range_succ_eq_map (n := 40), List.map_cons, List.map_map]
  simp only [Out.ok.injEq, List.cons.injEq, true_and]
  refine List.map_congr_left fun j _ => ?_
  show (t' (1 + j)).stress 0 = (t' (j + 1)).stress 0
  rw [Nat.add_comm]

/-! ### Nobody looks whether the root was found -/

/-- a state from which the script can go on after `j` steps -/
structure GoesOn (j : ℕ) (m : Mem 1 12) : Prop where
  q : (histOf m).q ≠ 0
  low : 17e-3 - j * (2 / 10 ^ 10) ≤ (histOf m).h 0
  high : (histOf m).h 0 ≤ 1 + j * (2 / 10 ^ 10)
  mtan : m.mtan = none

theorem goes_on (S : Solver 1) (hS : Finds S) (R : Root) {j : ℕ} (hj : j < 41) {V : ℝ} (hV : 0 < V) {m : Mem 1 12}
    (hm : GoesOn j m) : ∃ m', getResponseSngl (trust R) (scriptMat S) (scriptInp V) m = .ok m' ∧ GoesOn (j + 1) m' := by
  have hj' : (j : ℝ) ≤ 41 := by exact_mod_cast hj.le
  have hdt : (scriptInp V).dt = 1 / 10 := rfl
  obtain ⟨hU, c, hH⟩ := C82_strength copperVoce rfl (by norm_num [copperVoce]) (by norm_num [copperVoce]) S hS (histOf m).h
    (1 / 10) (by norm_num) (histOf m).gdot
  have h17 : (17e-3 : ℝ) - j * (2 / 10 ^ 10) ≤ 17e-3 := by
    have : (0 : ℝ) ≤ j * (2 / 10 ^ 10) := by positivity
    linarith
  have hmax : max ((histOf m).h 0) 1 ≤ 2 := by
    refine max_le ?_ (by norm_num)
    have := hm.high
    norm_num at this ⊢
    linarith
  have hlow : 17e-3 - (j + 1 : ℕ) * (2 / 10 ^ 10) ≤ hU 0 := by
    have h1 := C62_voce_strength copperVoce rfl (by norm_num [copperVoce]) S hS.sound _ _ (by norm_num) _ _ _ hH
    have h2 : 17e-3 - j * (2 / 10 ^ 10) ≤ min ((histOf m).h 0) copperVoce.tausi := le_min hm.low h17
    have h3 : (1 : ℝ) / 10 ^ 10 * max ((histOf m).h 0) 1 ≤ 2 / 10 ^ 10 := by
      rw [div_mul_eq_mul_div, one_mul]
      gcongr
    push_cast
    linarith
  have hhigh : hU 0 ≤ 1 + (j + 1 : ℕ) * (2 / 10 ^ 10) := by
    obtain ⟨z, hz, hn⟩ := C27_update copperVoce rfl (by norm_num [copperVoce]) S hS.sound _ _ (by norm_num) _ _ _ hH
    have hγ : 0 ≤ ∑ i, |(histOf m).gdot i| := Finset.sum_nonneg fun i _ => abs_nonneg _
    obtain ⟨-, h2, -⟩ := (C27_solution _ copperVoce.tausi _ _ ((histOf m).h 0) (1 / 10) (by norm_num [copperVoce]) hγ
      (by norm_num)).2 z hz
    have hsat : voceSat copperVoce.taus0 copperVoce.gamss0 copperVoce.xms (∑ i, |(histOf m).gdot i|) ≤ 1 := by
      unfold voceSat
      have : copperVoce.xms = 0 := by norm_num [copperVoce]
      rw [this]
      split_ifs <;> norm_num [copperVoce]
    have h0 : (0 : ℝ) ≤ j * (2 / 10 ^ 10) := by positivity
    have h3 : z ≤ 1 + j * (2 / 10 ^ 10) := h2.trans (max_le hm.high (by linarith))
    have h4 := (abs_le.1 hn).2
    have h5 : (1 : ℝ) / 10 ^ 10 * max ((histOf m).h 0) 1 ≤ 2 / 10 ^ 10 := by
      rw [div_mul_eq_mul_div, one_mul]
      gcongr
    push_cast
    linarith
  have hpos : 0 < hU 0 := by
    refine lt_of_lt_of_le ?_ hlow
    push_cast
    norm_num
    linarith
  have hvr : 0 < (scriptInp V).vr 1 := mul_pos hV (Real.exp_pos _)
  have hset := Step.setup_eq_ok (M := scriptMat S) (inp := scriptInp V) (m := m) (hU := hU) (kU := c) (v := hU 0)
    (scale := hU 0) hm.q (by norm_num [scriptMat]) (by rw [hdt]; norm_num) hvr hH
    (by show (if 0 < hU 0 then _ else _) = _; exact if_pos hpos)
  have hg : ∃ g, (scriptMat S).el.getGmod = .ok g := by
    refine ⟨_, if_neg ?_⟩
    show ¬(Elast.cubic 168.4 121.4 75.2).kGmod ≤ 0
    unfold Elast.kGmod
    norm_num
  obtain ⟨g, hg⟩ := hg
  have hok : ∃ m', getResponseSngl (trust R) (scriptMat S) (scriptInp V) m = .ok m' ∧ (histOf m').h = hU := by
    unfold getResponseSngl
    rw [hset]
    simp only [Step.run, Step.solve, trust, hg, hm.mtan, Step.tangent]
    refine ⟨_, rfl, ?_⟩
    simp only [histOf, Hist.ofArray_toArray]
    rfl
  obtain ⟨m', hok, hh⟩ := hok
  refine ⟨m', hok, ?_, by rw [hh]; exact hlow, by rw [hh]; exact hhigh, mtan_none hok hm.mtan⟩
  intro h0
  have := (C07_step _ _ _ _ _ hok).1
  rw [h0] at this
  simp [dot] at this

/-- the state after a step that cannot fail -/
noncomputable def nextOf (S : Solver 1) (R : Root) (j : ℕ) (m : Mem 1 12) : Mem 1 12 :=
  if h : ∃ m', getResponseSngl (trust R) (scriptMat S) (scriptInp (Real.exp (j / 10000))) m = .ok m' then h.choose else m

/-- the states before the steps -/
noncomputable def runOf (S : Solver 1) (R : Root) : ℕ → Mem 1 12
  | 0 => scriptStart
  | j + 1 => { nextOf S R j (runOf S R j) with sdd := 0 }

theorem runOf_ok (S : Solver 1) (hS : Finds S) (R : Root) : ∀ j, j ≤ 41 → GoesOn j (runOf S R j) ∧
    (j < 41 → getResponseSngl (trust R) (scriptMat S) (scriptInp (Real.exp (j / 10000))) (runOf S R j)
      = .ok (nextOf S R j (runOf S R j))) := by
  have key : ∀ j, j < 41 → GoesOn j (runOf S R j) →
      getResponseSngl (trust R) (scriptMat S) (scriptInp (Real.exp (j / 10000))) (runOf S R j)
        = .ok (nextOf S R j (runOf S R j)) ∧ GoesOn (j + 1) (runOf S R (j + 1)) := by
    intro j hj h
    obtain ⟨m', hm', hg⟩ := goes_on S hS R hj (Real.exp_pos (j / 10000)) h
    have hex : ∃ m', getResponseSngl (trust R) (scriptMat S) (scriptInp (Real.exp (j / 10000))) (runOf S R j) = .ok m' :=
      ⟨m', hm'⟩
    have hn : getResponseSngl (trust R) (scriptMat S) (scriptInp (Real.exp (j / 10000))) (runOf S R j)
        = .ok (nextOf S R j (runOf S R j)) := by
      unfold nextOf
      rw [dif_pos hex]
      exact hex.choose_spec
    refine ⟨hn, ?_⟩
    rw [hm'] at hn
    cases hn
    exact ⟨hg.q, hg.low, hg.high, hg.mtan⟩
  have h0 : GoesOn 0 (runOf S R 0) := by
    have hs : histOf scriptStart = { shrateEff := 0, shrEff := 0, flowStr := 0, nFEval := 0, e := 0, q := ![1, 0, 0, 0]
                                     h := fun _ => 17e-3, gdot := 0 } := Hist.ofArray_toArray _
    refine ⟨?_, ?_, ?_, rfl⟩
    · show (histOf scriptStart).q ≠ 0
      rw [hs]
      exact fun h => by simpa using congrFun h 0
    · show _ ≤ (histOf scriptStart).h 0
      rw [hs]
      simp
    · show (histOf scriptStart).h 0 ≤ _
      rw [hs]
      norm_num
  intro j
  induction j with
  | zero => exact fun _ => ⟨h0, fun hj => (key 0 hj h0).1⟩
  | succ j ih =>
    intro hj
    have := (key j (by omega) (ih (by omega)).1).2
    exact ⟨this, fun h => (key (j + 1) h this).1⟩

/-- **C97, the script always goes on.** Whatever points the root finder returns, roots or not, the developer's script never
    stops: it prints 41 numbers, those that example.py would print if its solver's word were taken for every point. -/
theorem C97_refuted_unchecked (S : Solver 1) (hS : Finds S) (R : Root) (a b : ℝ) : ∃ out, devScript S R a b = .ok out ∧
    out.length = 41 ∧ pyScript S (trust R) = .ok out := by
  have h : pyScript S (trust R) = .ok ((List.range 41).map fun j => (nextOf S R j (runOf S R j)).stress 0) :=
    (C86_script S (trust R) _).2 ⟨runOf S R, fun j => nextOf S R j (runOf S R j), rfl,
      fun j hj => (runOf_ok S hS R j hj.le).2 hj, fun _ => rfl, rfl⟩
  exact ⟨_, C97_script S (trust R) R (fun _ => rfl) _ h a b, by simp, h⟩

/-- a step in which the solver gives up at once, from an unstrained crystal -/
theorem idle_step (S : Solver 1) {V : ℝ} {m m' : Mem 1 12} (he : (histOf m).e = 0)
    (h : getResponseSngl (trust fun _ _ x0 => (x0, x0)) (scriptMat S) (scriptInp V) m = .ok m') :
    (histOf m').e = 0 ∧ m'.stress 0 = 0 := by
  obtain ⟨W⟩ := getResponseSngl_ok h
  have hx : (Step.solve (trust fun _ _ x0 => (x0, x0)) (scriptInp V) W.P).x = 0 := rfl
  have heN : W.P.eN = 0 := by rw [W.hP]; exact he
  have hF : W.P.eF 0 = 0 := by rw [Updst.eF_zero, heN]
  constructor
  · rw [OkStep.hist_eq W]
    show W.P.eF _ = 0
    rw [hx, hF]
  · rw [W.hst, hx, hF]
    have hlat : ∀ i : Fin 5, W.P.elastNEtoC 0 i.castSucc = 0 := by
      intro i
      show W.P.detVRi * W.P.elastNEtoT 0 i.castSucc = 0
      rw [C72_cubic W.P 168.4 121.4 75.2 (by rw [W.hP]; rfl), mul_zero]
    unfold Step.stressOf
    simp only [hlat]
    simp [vecdsToSvecP, vecsVMa]

/-- **C97, an idle root finder.** With a root finder that gives up at once and returns its starting point, the developer's
    script reports 41 vanishing stresses for a crystal pulled in tension. -/
theorem C97_refuted_idle (S : Solver 1) (hS : Finds S) (a b : ℝ) :
    devScript S (fun _ _ x0 => (x0, x0)) a b = .ok (List.replicate 41 0) := by
  set R : Root := fun _ _ x0 => (x0, x0) with hR
  have he : ∀ j, j ≤ 41 → (histOf (runOf S R j)).e = 0 := by
    intro j
    induction j with
    | zero =>
      intro _
      show (Hist.ofArray scriptStart.hist).e = 0
      unfold scriptStart
      rw [Hist.ofArray_toArray]
    | succ j ih =>
      intro hj
      exact (idle_step S (ih (by omega)) ((runOf_ok S hS R j (by omega)).2 (by omega))).1
  have h : pyScript S (trust R) = .ok (List.replicate 41 0) := by
    refine (C86_script S (trust R) _).2 ⟨runOf S R, fun j => nextOf S R j (runOf S R j), rfl,
      fun j hj => (runOf_ok S hS R j hj.le).2 hj, fun _ => rfl, ?_⟩
    rw [eq_comm, List.eq_replicate_iff]
    refine ⟨by simp, ?_⟩
    intro x hx
    obtain ⟨j, hj, rfl⟩ := List.mem_map.1 hx
    have hj' := List.mem_range.1 hj
    exact (idle_step S (he j hj'.le) ((runOf_ok S hS R j hj'.le).2 hj')).2
  exact C97_script S (trust R) R (fun _ => rfl) _ h a b

end Ecm.Props
