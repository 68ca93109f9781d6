/- A concrete material with a concrete update, used to show that hypotheses can be met. -/
import Verif.Lemmas.Response
import Verif.Lemmas.Balance
import Verif.Props.Voce
import Verif.Props.Notation
import Verif.Props.Hardening
import Verif.Props.Balance

namespace Ecm
open Spec Props Classical

/-- a solver that accepts the initial guess if its residual is small enough and gives up otherwise -/
noncomputable def probe (n : ℕ) : Solver n := fun P tol _ x0 =>
  match P x0 with
  | some (r, _) => { converged := decide (vecNorm r ≤ tol), x := x0, xLast := x0, nFEvals := 1 }
  | none => { converged := false, x := x0, xLast := x0, nFEvals := 1 }

theorem probe_sound (n : ℕ) : (probe n).Sound := by
  intro P tol k x0
  unfold probe
  cases h : P x0 with
  | none => simp
  | some rj =>
    obtain ⟨r, J⟩ := rj
    simp only [decide_eq_true_eq]
    intro hr
    exact ⟨⟨r, J, h, hr⟩, trivial⟩

theorem probe_zero {n : ℕ} {P : Problem n} {x0 : Vec n} {J : Mat n n} (h : P x0 = some (0, J))
    {tol : ℝ} (ht : 0 ≤ tol) (k : ℕ) :
    probe n P tol k x0 = { converged := true, x := x0, xLast := x0, nFEvals := 1 } := by
  unfold probe
  simp [h, vecNorm, ht]

/-- an FCC slip geometry with elasticity `el`, power-law kinetics (m = 1) and Voce hardening -/
noncomputable def exMat (el : Elast) : Material 12 1 where
  geom := slipPQ fccM fccS
  kin := voceExample.kin (probe 1) 12
  el := el
  eos := { isothermal := false, rho0 := 1, bulkMod := 2, cvav := 1, gamma := 1, ec0 := -300 }

/-- external routines for the examples -/
noncomputable def exExt : Ext where
  solver := probe 8
  lup := fun _ B => some B
  evalCost := 1

/-- history before the example step: elastic strain `e`, lattice turned by 180 degrees (quaternion not
    normalised), unit strength, no slip in the previous step -/
def exHist (e : Vec 5) : Hist 1 12 where
  shrateEff := 5
  shrEff := 7
  flowStr := 11
  nFEval := 13
  e := e
  q := ![0, 0, 2, 0]
  h := fun _ => 1
  gdot := fun _ => 0

/-- memory before the example step -/
def exMem (e : Vec 5) (t : Option (Mat 6 6)) : Mem 1 12 where
  eInt := 4
  stress := ![1, 1, -2, 0, 3, 0, 3]
  hist := (exHist e).toArray
  tkelv := 17
  sdd := ![19, 23]
  mtan := t

/-- the problem of the example step with deformation rate `d` and spin `w` -/
noncomputable def exProb (el : Elast) (e : Vec 5) (d : Vec 5) (w : Vec 3) : Updst 12 where
  geom := slipPQ fccM fccS
  el := el
  gd := fun _ τ => voceExample.evalGdot 1 τ
  adotsRef := 1
  hdnScale := 1
  dt := 1
  detV := 2
  eVref := 4 - 1 * 3
  pEos := 2 * (1 / 2 - 1) + 1 * (4 - 1 * 3)
  tK := 300 + 4
  eN := e
  cN := ![0, 0, 1, 0]
  dSm := d
  wSm := w

/-- velocity gradient of slip at the stress of the elastic strain `e`, in the lattice of the example -/
noncomputable def exL (el : Elast) (e : Vec 5) : T3 :=
  ∑ i, ((exProb el e 0 0).gdot 0 i) • dyad ((quatToTensor ![0, 0, 1, 0]).mulVec (fccS i))
    ((quatToTensor ![0, 0, 1, 0]).mulVec (fccM i))

/-- inputs of the example step: that velocity gradient, together with a volume increase -/
noncomputable def exInp (el : Elast) (e : Vec 5) : Inputs where
  dt := 1
  tol := 1 / 10 ^ 10
  d := svecP (sym (exL el e))
  w := axial (exL el e)
  vr := ![1, 2, 0, 1]

theorem sym_isSymm (A : T3) : (sym A).IsSymm := by
  ext i j; simp [sym]; ring

theorem ex_svecToVecd (el : Elast) (e : Vec 5) : svecToVecd (exInp el e).d = symmToVecd (dev (sym (exL el e))) := by
  rw [symmToVecd_dev]
  exact (C01_tensor_round_trip _ (sym_isSymm _)).2.2.2

theorem ex_norm : vecNorm (![0, 0, 2, 0] : Vec 4) = 2 := by
  have : (∑ i, (![0, 0, 2, 0] : Vec 4) i * (![0, 0, 2, 0] : Vec 4) i) = 2 ^ 2 := by
    simp [Fin.sum_univ_four]; norm_num
  unfold vecNorm
  rw [this, Real.sqrt_sq (by norm_num)]

theorem ex_ofArray (e : Vec 5) (t : Option (Mat 6 6)) :
    Hist.ofArray (exMem e t).hist = exHist e := Hist.ofArray_toArray _

theorem ex_quatN (e : Vec 5) (t : Option (Mat 6 6)) : Step.quatN (exMem e t) = ![0, 0, 1, 0] := by
  unfold Step.quatN
  rw [ex_ofArray]
  unfold vecsVNormalize
  show vecsVsa ![0, 0, 2, 0] (1 / vecNorm ![0, 0, 2, 0]) = _
  rw [ex_norm]
  ext i; fin_cases i <;> simp [vecsVsa]

theorem ex_updateH (el : Elast) : (exMat el).kin.updateH (fun _ => 1) 1 (fun _ => 0) = .ok ((fun _ => 1), 1) := by
  have hev : voceExample.getEvolVals (fun _ : Fin 12 => 0) = (0, 2) := by
    unfold Voce.getEvolVals
    have h0 : vecsssumabs (fun _ : Fin 12 => (0 : ℝ)) = 0 := by simp [vecsssumabs]
    simp only [h0]
    rw [if_neg (not_lt.2 idpTinySqrt_pos.le)]
    rfl
  have hlaw : voceExample.getSdot1 (0, 2) 1 = some (0, 0) := by
    norm_num [Voce.getSdot1, voceExample]
  show voceExample.updateH (probe 1) (fun _ => 1) 1 (fun _ : Fin 12 => 0) = _
  unfold Voce.updateH
  rw [if_neg (by norm_num [voceExample]), hev]
  have hp : ∃ J, ({ law := voceExample.getSdot1 (0, 2), hO := 1, dt := 1 } : H1Problem).problem
      (fun _ => 0) = some ((0 : Vec 1), J) := by
    unfold H1Problem.problem
    rw [H1Problem.computeRJ_some (s := 0) (d := 0)]
    · simp only [Option.map_some]
      refine ⟨_, congrArg some (Prod.ext ?_ rfl)⟩
      funext i
      simp
    · simp only [zero_mul, add_zero]
      exact hlaw
  obtain ⟨J, hJ⟩ := hp
  simp only [updateH1, probe_zero hJ (by norm_num : (0 : ℝ) ≤ 1 / 10 ^ 10), Out.bind, if_true,
    H1Problem.getHn, zero_mul, add_zero]

theorem ex_setup (el : Elast) (e : Vec 5) (t : Option (Mat 6 6)) :
    Step.setup (exMat el) (exInp el e) (exMem e t)
      = .ok ((fun _ => 1), exProb el e (symmToVecd (dev (sym (exL el e)))) (axial (exL el e))) := by
  have h := Step.setup_eq_ok (M := exMat el) (inp := exInp el e) (m := exMem e t) (hU := fun _ => 1)
    (kU := 1) (v := (1 : ℝ)) (scale := 1) ?_ ?_ ?_ ?_ ?_ ?_
  · rw [h, ex_svecToVecd, ex_quatN, ex_ofArray]
    congr 2
    unfold exProb
    congr 1
    · simp [exInp, exMem, Step.tK, Eos.evalPT, Eos.tK0, Eos.dtde0, exMat]
  · rw [ex_ofArray]
    intro h
    have := congrFun h 2
    simp [exHist] at this
  · simp [exMat]
  · simp [exInp]
  · simp [exInp]
  · rw [ex_ofArray]; exact ex_updateH el
  · show (if (0 : ℝ) < 1 then (Out.ok ((1 : ℝ), (1 : ℝ)) : Out (ℝ × ℝ)) else _) = _
    rw [if_pos one_pos]
    rfl

theorem ex_resid (el : Elast) (e : Vec 5) :
    (exProb el e (symmToVecd (dev (sym (exL el e)))) (axial (exL el e))).resid 0 = 0 := by
  refine (C59_stationary (exProb el e (symmToVecd (dev (sym (exL el e)))) (axial (exL el e))) fccM fccS rfl ?_ ?_ ?_ (fun i => (exProb el e 0 0).gdot 0 i) (fun i => rfl)
    (exL el e) rfl).1.2 ⟨rfl, rfl⟩
  · simp [exProb, dot, Fin.sum_univ_four]
  · norm_num [exProb]
  · norm_num [exProb]

theorem ex_solve (el : Elast) (e : Vec 5) :
    Step.solve exExt (exInp el e) (exProb el e (symmToVecd (dev (sym (exL el e)))) (axial (exL el e)))
      = { converged := true, x := 0, xLast := 0, nFEvals := 1 } := by
  set P := exProb el e (symmToVecd (dev (sym (exL el e)))) (axial (exL el e)) with hP
  have ht : 0 ≤ (exInp el e).tol := by norm_num [exInp]
  show probe 8 P.problem (exInp el e).tol 200 0 = _
  refine probe_zero (J := P.jac 0) ?_ ht 200
  show some (P.resid 0, _) = some _
  rw [hP]
  rw [ex_resid el e]

/-- the example step succeeds, with and without a tangent -/
theorem ex_ok (el : Elast) (hg : 0 < el.kGmod) (e : Vec 5) (t : Option (Mat 6 6)) :
    ∃ m', getResponseSngl exExt (exMat el) (exInp el e) (exMem e t) = .ok m' := by
  have hg : (exMat el).el.getGmod = .ok el.kGmod := by
    show el.getGmod = _
    unfold Elast.getGmod
    rw [if_neg (not_le.2 hg)]
  unfold getResponseSngl
  rw [ex_setup]
  simp only [Step.run, ex_solve, hg]
  cases t with
  | none => exact ⟨_, rfl⟩
  | some t => exact ⟨_, rfl⟩

/-- with a shear modulus that is not positive it fails at the very end, with the new state stored -/
theorem ex_fail (el : Elast) (hg : el.kGmod ≤ 0) (e : Vec 5) (t : Option (Mat 6 6)) :
    ∃ s m', getResponseSngl exExt (exMat el) (exInp el e) (exMem e t) = .fail s m' ∧
      Hist.ofArray m'.hist = Step.newHist exExt (exInp el e) (exHist e) (fun _ => 1)
        (exProb el e (symmToVecd (dev (sym (exL el e)))) (axial (exL el e)))
        { converged := true, x := 0, xLast := 0, nFEvals := 1 } t.isSome := by
  have hg : (exMat el).el.getGmod = .fail "effective shear modulus negative -- not initialized?" := by
    show el.getGmod = _
    unfold Elast.getGmod
    rw [if_pos hg]
  unfold getResponseSngl
  rw [ex_setup]
  simp only [Step.run, ex_solve, hg]
  cases t with
  | none => exact ⟨_, _, rfl, by rw [← ex_ofArray e none, Hist.ofArray_toArray]; rfl⟩
  | some t => exact ⟨_, _, rfl, by rw [← ex_ofArray e (some t), Hist.ofArray_toArray]; rfl⟩

/-- cubic elasticity used in the examples -/
noncomputable def exEl : Elast := .cubic 3 1 1

theorem exEl_pos : 0 < exEl.kGmod := by norm_num [exEl, Elast.kGmod]

end Ecm
