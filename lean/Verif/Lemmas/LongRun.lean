/- Histories of every length of a concrete material, used to show that hypotheses can be met. -/
import Verif.Lemmas.Example
import Verif.Props.Response

namespace Ecm
open Spec Props Classical

/-- a solver that finds an exact root whenever there is one -/
noncomputable def exactSolver (n : ℕ) : Solver n := fun P _ _ x0 =>
  if h : ∃ x J, P x = some (0, J) then
    { converged := true, x := h.choose, xLast := h.choose, nFEvals := 1 }
  else { converged := false, x := x0, xLast := x0, nFEvals := 1 }

theorem exactSolver_spec {n : ℕ} {P : Problem n} {x : Vec n} {J : Mat n n} (h : P x = some (0, J))
    (tol : ℝ) (k : ℕ) (x0 : Vec n) :
    (exactSolver n P tol k x0).converged = true ∧
      ∃ J', P (exactSolver n P tol k x0).x = some (0, J') := by
  have hx : ∃ x J, P x = some (0, J) := ⟨x, J, h⟩
  unfold exactSolver
  rw [dif_pos hx]
  exact ⟨rfl, hx.choose_spec⟩

/-- the linear Voce update with an exact solver succeeds and solves the backward Euler equation -/
theorem exact_voce {n : ℕ} (k : Voce) (hk : k.nonlinear = false) (hθ : 0 ≤ k.h0) (hg : 0 < k.gamss0)
    (hsO : Vec 1) {dt : ℝ} (hdt : 0 ≤ dt) (gdot : Vec n) :
    ∃ h' c, k.updateH (exactSolver 1) hsO dt gdot = .ok (h', c) ∧
      h' 0 - hsO 0 = dt * voceRate k.h0 k.tausi
        (voceSat k.taus0 k.gamss0 k.xms (∑ i, |gdot i|)) (∑ i, |gdot i|) (h' 0) := by
  have hγ : 0 ≤ ∑ i, |gdot i| := Finset.sum_nonneg fun i _ => abs_nonneg _
  obtain ⟨⟨z, hz, -⟩, -⟩ := C27_solution k.h0 k.tausi
    (voceSat k.taus0 k.gamss0 k.xms (∑ i, |gdot i|)) (∑ i, |gdot i|) (hsO 0) dt hθ hγ hdt
  have hlaw := C27_law k hk gdot
  set f := voceRate k.h0 k.tausi
    (voceSat k.taus0 k.gamss0 k.xms (∑ i, |gdot i|)) (∑ i, |gdot i|) with hf
  set law := k.getSdot1 (k.getEvolVals gdot) with hl
  set P : H1Problem := { law := law, hO := hsO 0, dt := dt } with hP
  have hxs : 0 < max (hsO 0) 1 := lt_of_lt_of_le one_pos (le_max_right _ _)
  have hl2 : ∀ h, ∃ d, law h = some (f h, d) := by
    intro h
    have := hlaw h
    simp only [Option.map_eq_some_iff] at this
    obtain ⟨⟨a, d⟩, h1, h2⟩ := this
    exact ⟨d, by rw [h1]; exact congrArg (fun x => some (x, d)) h2⟩
  have hres : ∀ x : ℝ, ∃ r J, P.problem (fun _ => x) = some ((fun _ => r), J) ∧
      r = (x * max (hsO 0) 1 - f (hsO 0 + x * max (hsO 0) 1) * dt) * (1 / max (hsO 0) 1) := by
    intro x
    obtain ⟨d, hd⟩ := hl2 (hsO 0 + x * max (hsO 0) 1)
    unfold H1Problem.problem
    rw [H1Problem.computeRJ_some (s := f (hsO 0 + x * max (hsO 0) 1)) (d := d)]
    · exact ⟨_, _, rfl, rfl⟩
    · exact hd
  have hroot : ∃ J, P.problem (fun _ => (z - hsO 0) / max (hsO 0) 1) = some (0, J) := by
    obtain ⟨r, J, h1, h2⟩ := hres ((z - hsO 0) / max (hsO 0) 1)
    have e : (z - hsO 0) / max (hsO 0) 1 * max (hsO 0) 1 = z - hsO 0 := by field_simp
    rw [e, show hsO 0 + (z - hsO 0) = z by ring, hz, mul_comm dt, sub_self, zero_mul] at h2
    refine ⟨J, ?_⟩
    rw [h1, h2]; rfl
  obtain ⟨J, hJ⟩ := hroot
  obtain ⟨hc, J', hJ'⟩ := exactSolver_spec hJ (1 / 10 ^ 10) 100 (fun _ => 0)
  set r := exactSolver 1 P.problem (1 / 10 ^ 10) 100 (fun _ => 0) with hr
  refine ⟨fun _ => P.getHn (r.x 0), r.nFEvals, ?_, ?_⟩
  · unfold Voce.updateH
    rw [if_neg (not_le.2 hg)]
    simp only [updateH1, ← hl, ← hP, ← hr, hc, Out.bind, if_true]
  · obtain ⟨r1, J1, h1, h2⟩ := hres (r.x 0)
    have hx : (fun _ : Fin 1 => r.x 0) = r.x := by
      funext i; rw [Subsingleton.elim i 0]
    rw [hx, hJ'] at h1
    have h3 : r1 = 0 := by
      have := congrFun (congrArg Prod.fst (Option.some.inj h1)) 0
      exact this.symm
    rw [h3] at h2
    have h4 : r.x 0 * max (hsO 0) 1 = f (hsO 0 + r.x 0 * max (hsO 0) 1) * dt := by
      rcases mul_eq_zero.1 h2.symm with h | h
      · linarith
      · exact absurd h (by positivity)
    show hsO 0 + r.x 0 * max (hsO 0) 1 - hsO 0 = dt * f (hsO 0 + r.x 0 * max (hsO 0) 1)
    linarith

/-- the example material with an exact solver for the hardening -/
noncomputable def runMat : Material 12 1 where
  geom := slipPQ fccM fccS
  kin := voceExample.kin (exactSolver 1) 12
  el := exEl
  eos := { isothermal := false, rho0 := 1, bulkMod := 2, cvav := 1, gamma := 1, ec0 := -300 }

/-- memory from which the next step can be taken -/
structure RunInv (m : Mem 1 12) : Prop where
  q : (histOf m).q ≠ 0
  h : 1 ≤ (histOf m).h 0
  h2 : (histOf m).h 0 ≤ 2
  mtan : m.mtan = none

/-- velocity gradient of slip at the elastic strain of the problem -/
noncomputable def steadyL (P : Updst 12) : T3 :=
  ∑ i, ((P.gd i (P.taua 0 i)).gdot) • dyad ((quatToTensor P.cN).mulVec (fccS i))
    ((quatToTensor P.cN).mulVec (fccM i))

/-- from every such memory there is a step of unit length at constant volume that succeeds, after which
    another can be taken; elastic strain, orientation are kept, and the strength does not fall -/
theorem run_step (m : Mem 1 12) (hm : RunInv m) : ∃ (inp : Inputs) (m' : Mem 1 12),
    inp.dt = 1 ∧ inp.vr = ![1, 1, 0, 0] ∧ getResponseSngl exExt runMat inp m = .ok m' ∧ RunInv m' ∧
    (histOf m').e = (histOf m).e ∧ (histOf m).h 0 ≤ (histOf m').h 0 ∧ IsDev (devOfSvecP inp.d) := by
  obtain ⟨h', c, hH, hz⟩ := exact_voce voceExample rfl (by norm_num [voceExample])
    (by norm_num [voceExample]) (histOf m).h (zero_le_one' ℝ) (histOf m).gdot
  have hγ : 0 ≤ ∑ i, |(histOf m).gdot i| := Finset.sum_nonneg fun i _ => abs_nonneg _
  have hsat : voceSat voceExample.taus0 voceExample.gamss0 voceExample.xms
      (∑ i, |(histOf m).gdot i|) = 2 := by
    unfold voceSat
    split_ifs <;> simp [voceExample]
  rw [hsat] at hz
  have hz1 := ((C27_solution voceExample.h0 voceExample.tausi 2 (∑ i, |(histOf m).gdot i|)
    ((histOf m).h 0) 1 (by norm_num [voceExample]) hγ zero_le_one).2 (h' 0) hz)
  have hz2 := hz1.2.1
  replace hz1 := hz1.1
  rw [max_eq_right hm.h2] at hz2
  have hh1 : 1 ≤ h' 0 := (le_min hm.h (by norm_num)).trans hz1
  -- the problem without loading
  let P0 : Updst 12 :=
    { geom := slipPQ fccM fccS, el := exEl, gd := (voceExample.kin (exactSolver 1) 12).evalGdot (h' 0)
      adotsRef := 1, hdnScale := h' 0, dt := 1, detV := 1
      eVref := m.eInt - 0 * m.stress 6
      pEos := (Eos.updateSimple runMat.eos 1 0 m.eInt (m.stress 6)).press
      tK := (runMat.eos.evalPT 1 m.eInt).2, eN := (histOf m).e, cN := Step.quatN m
      dSm := 0, wSm := 0 }
  let L := steadyL P0
  let inp : Inputs := { dt := 1, tol := 1 / 10 ^ 10, d := svecP (sym L), w := axial L
                        vr := ![1, 1, 0, 0] }
  have hset := Step.setup_eq_ok (M := runMat) (inp := inp) (m := m) (hU := h') (kU := c)
    (v := (h' 0 : ℝ)) (scale := h' 0) hm.q (by norm_num [runMat]) (by norm_num [inp])
    (by norm_num [inp]) hH (by
      show (if (0 : ℝ) < h' 0 then (Out.ok ((h' 0 : ℝ), (h' 0 : ℝ)) : Out (ℝ × ℝ)) else _) = _
      rw [if_pos (by linarith)]
      rfl)
  have hd : svecToVecd inp.d = symmToVecd (dev (sym L)) := by
    rw [symmToVecd_dev]
    exact (C01_tensor_round_trip _ (sym_isSymm _)).2.2.2
  set P : Updst 12 := { P0 with dSm := symmToVecd (dev (sym L)), wSm := axial L } with hP
  have hset' : Step.setup runMat inp m = .ok (h', P) := by
    rw [hset, hd]; rfl
  have hcn : dot P.cN P.cN = 1 := by
    show dot (Step.quatN m) (Step.quatN m) = 1
    rw [dot_self_quat]
    exact qn_quatN hm.q
  obtain ⟨hstat, he, hq⟩ := C59_stationary P fccM fccS rfl hcn one_pos one_pos
    (fun i => (P.gd i (P.taua 0 i)).gdot) (fun i => rfl) L rfl
  have hres : P.resid 0 = 0 := hstat.2 ⟨rfl, rfl⟩
  have hsol : Step.solve exExt inp P = { converged := true, x := 0, xLast := 0, nFEvals := 1 } := by
    show probe 8 P.problem inp.tol 200 0 = _
    refine probe_zero (J := P.jac 0) ?_ (by norm_num [inp]) 200
    show some (P.resid 0, _) = some _
    rw [hres]
  have hgm : runMat.el.getGmod = .ok exEl.kGmod := by
    show exEl.getGmod = _
    unfold Elast.getGmod
    rw [if_neg (not_le.2 exEl_pos)]
  have hok : ∃ m', getResponseSngl exExt runMat inp m = .ok m' ∧ m'.mtan = none ∧
      m'.hist = (Step.newHist exExt inp (histOf m) h' P
        { converged := true, x := 0, xLast := 0, nFEvals := 1 } false).toArray := by
    unfold getResponseSngl
    rw [hset']
    simp only [Step.run, hsol, hgm, hm.mtan]
    exact ⟨_, rfl, rfl, rfl⟩
  obtain ⟨m', h1, h2, h3⟩ := hok
  have h4 : histOf m' = Step.newHist exExt inp (histOf m) h' P
        { converged := true, x := 0, xLast := 0, nFEvals := 1 } false := by
    unfold histOf; rw [h3, Hist.ofArray_toArray]
  refine ⟨inp, m', rfl, rfl, h1, ⟨?_, ?_, ?_, h2⟩, ?_, ?_, ?_⟩
  · have := (C07_step _ _ _ _ _ h1).1
    intro h0
    rw [h0] at this
    simp [dot] at this
  · rw [h4]; exact hh1
  · rw [h4]; exact hz2
  · rw [h4]; exact he
  · rw [h4]
    show (histOf m).h 0 ≤ h' 0
    rwa [min_eq_left hm.h2] at hz1
  · show IsDev (devOfSvecP (svecP (sym L)))
    rw [isDev_iff]
    simp [devOfSvecP, svecP, sym, dev, Matrix.trace_fin_three]
    ring

/-- inputs and result of the next step -/
noncomputable def runNext (m : { m : Mem 1 12 // RunInv m }) : Inputs × { m : Mem 1 12 // RunInv m } :=
  ((run_step m.1 m.2).choose, ⟨(run_step m.1 m.2).choose_spec.choose,
    (run_step m.1 m.2).choose_spec.choose_spec.2.2.2.1⟩)

theorem runNext_spec (m : { m : Mem 1 12 // RunInv m }) :
    (runNext m).1.dt = 1 ∧ (runNext m).1.vr = ![1, 1, 0, 0] ∧
    getResponseSngl exExt runMat (runNext m).1 m.1 = .ok (runNext m).2.1 ∧
    (histOf (runNext m).2.1).e = (histOf m.1).e ∧
    (histOf m.1).h 0 ≤ (histOf (runNext m).2.1).h 0 ∧ IsDev (devOfSvecP (runNext m).1.d) := by
  have := (run_step m.1 m.2).choose_spec.choose_spec
  exact ⟨this.1, this.2.1, this.2.2.1, this.2.2.2.2.1, this.2.2.2.2.2⟩

theorem exMem_inv (e : Vec 5) : RunInv (exMem e none) := by
  refine ⟨?_, ?_, ?_, rfl⟩
  · unfold histOf
    rw [ex_ofArray]
    intro h
    have := congrFun h 2
    simp [exHist] at this
  · unfold histOf; rw [ex_ofArray]; exact le_refl (1 : ℝ)
  · unfold histOf; rw [ex_ofArray]; show (1 : ℝ) ≤ 2; norm_num

/-- the memory before step `k` -/
noncomputable def runState (e : Vec 5) : ℕ → { m : Mem 1 12 // RunInv m }
  | 0 => ⟨exMem e none, exMem_inv e⟩
  | k + 1 => (runNext (runState e k)).2

/-- a history of `N` steps of unit length, starting from elastic strain `e`, in which the whole memory
    is handed on from step to step -/
noncomputable def runTraj (e : Vec 5) (N : ℕ) : Trajectory runMat N where
  X := fun _ => exExt
  inp := fun k => (runNext (runState e k)).1
  m := fun k => (runState e k).1
  m' := fun k => (runState e (k + 1)).1
  ok := fun k _ => (runNext_spec (runState e k)).2.2.1
  link := fun _ _ => rfl

end Ecm
