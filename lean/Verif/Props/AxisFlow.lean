/- Property theorems C98: a cubic crystal that is pulled along a cube axis (src/ecmech/ECMech_evptn.h, getResponseSngl
   and computeRJ; ECMech_kinetics_VocePL.h).

   By symmetry it should not turn, should be strained and stressed along the axis only, and eight of its twelve slip
   systems should share the work equally.  So the update should come down to one scalar equation, and the stress should
   approach what Taylor's analysis gives: √6 times the resolved stress at which the eight systems together slip at the
   imposed rate. -/
import Verif.Lemmas.AxisStep
import Verif.Lemmas.AxisScalar
import Verif.Props.PlainNewton
import Verif.Props.SlowLoad

namespace Ecm.Props
open Ecm Spec Matrix

/-! ### Solvers and symmetry -/

/-- the equations keep to the axis: there the residual has only an axial part, and the matrix mixes the axial unknown
    with no other -/
def AxisKept (F : Problem 8) : Prop := ∀ x, OnAxis x → ∃ r J, F x = some (r, J) ∧ OnAxis r ∧
  (∀ i, i ≠ 1 → J i 1 = 0) ∧ ∀ j, j ≠ 1 → J 1 j = 0

/-- a solver that keeps its contract and does not leave the axis when the equations keep to it -/
structure AxisSolver (S : Solver 8) : Prop where
  sound : S.Sound
  stays : ∀ F tol maxIter, AxisKept F → (S F tol maxIter fun _ => 0).converged = true →
    OnAxis (S F tol maxIter fun _ => 0).x

/-- ... and finds an acceptable point on the axis if there is one -/
structure AxisFinder (S : Solver 8) : Prop extends AxisSolver S where
  finds : ∀ F tol maxIter, AxisKept F → (∃ x r J, OnAxis x ∧ F x = some (r, J) ∧ len r ≤ tol) →
    (S F tol maxIter fun _ => 0).converged = true

/-- **C98, solver.** Plain Newton iteration does not leave the axis. -/
theorem C98_newton (δ : ℝ) : AxisSolver (newtonSolver δ 8) where
  sound := newtonSolver_sound δ 8
  stays := by
    intro F tol maxIter hF
    have h : ∀ k c x, OnAxis x → OnAxis (newtonRun δ F tol k c x).x := by
      intro k
      induction k with
      | zero => intro c x hx; exact hx
      | succ k ih =>
        intro c x hx
        obtain ⟨r, J, hr, hra, hc, -⟩ := hF x hx
        unfold newtonRun
        simp only [hr]
        split_ifs with h1 h2
        · exact hx
        · exact hx
        · push Not at h2
          refine ih _ _ fun i hi => ?_
          have hdet : IsUnit J.det := isUnit_iff_ne_zero.2 h2.1
          set y := J⁻¹.mulVec r with hy
          -- the axial vector with the right axial residual
          have hJ11 : J 1 1 ≠ 0 := by
            intro h0
            refine h2.1 (Matrix.det_eq_zero_of_column_eq_zero 1 fun i => ?_)
            by_cases hi : i = 1
            · rw [hi, h0]
            · exact hc i hi
          set z : Vec 8 := fun i => if i = 1 then r 1 / J 1 1 else 0 with hz
          have hJz : J.mulVec z = r := by
            funext i
            have e : J.mulVec z i = J i 1 * (r 1 / J 1 1) := by
              rw [Matrix.mulVec, dotProduct, Finset.sum_eq_single 1 (fun b _ hb => by simp [hz, hb]) (by simp)]
              simp [hz]
            rw [e]
            by_cases hi : i = 1
            · subst hi; field_simp
            · rw [hc i hi, hra i hi, zero_mul]
          have hyz : y = z := by
            rw [hy, ← hJz, Matrix.mulVec_mulVec, Matrix.nonsing_inv_mul _ hdet, Matrix.one_mulVec]
          show x i - y i = 0
          rw [hx i hi, hyz, hz]
          simp [hi]
    intro _
    exact h _ _ _ fun i _ => rfl

open Classical in
/-- an acceptable point on the axis, if there is one -/
noncomputable def axisFinder : Solver 8 := fun F tol _ _ =>
  if h : ∃ x r J, OnAxis x ∧ F x = some (r, J) ∧ len r ≤ tol then
    { converged := true, x := h.choose, xLast := h.choose, nFEvals := 1 }
  else { converged := false, x := 0, xLast := 0, nFEvals := 1 }

theorem axisFinder_finds : AxisFinder axisFinder where
  sound := by
    intro F tol maxIter x0 hc
    by_cases h : ∃ x r J, OnAxis x ∧ F x = some (r, J) ∧ len r ≤ tol
    · simp only [axisFinder, dif_pos h]
      obtain ⟨r, J, -, h1, h2⟩ := h.choose_spec
      exact ⟨⟨r, J, h1, h2⟩, trivial⟩
    · simp [axisFinder, dif_neg h] at hc
  stays := by
    intro F tol maxIter _ hc
    by_cases h : ∃ x r J, OnAxis x ∧ F x = some (r, J) ∧ len r ≤ tol
    · simp only [axisFinder, dif_pos h]
      exact h.choose_spec.choose_spec.choose_spec.1
    · simp [axisFinder, dif_neg h] at hc
  finds := by
    intro F tol maxIter _ h
    simp only [axisFinder, dif_pos h]

/-! ### One step -/

/-- a cubic crystal with twelve systems and power-law slip -/
structure AxialCrystal (M : Material 12 1) (k : Voce) (S : Solver 1) (c11 c12 c44 : ℝ) : Prop where
  geom : M.geom = slipPQ fccM fccS ∨ M.geom = slipPQ bccBaseM bccBaseS
  kin : M.kin = k.kin S 12
  el : M.el = .cubic c11 c12 c44
  stable : c12 < c11 ∧ 0 < c44
  xm : 0 < k.xm
  gamW : 0 < k.gamW

/-- one cube axis along the third direction, the crystal turned about it by any angle, and elastic strain along it -/
structure AxialState (E c s : ℝ) (H : Hist 1 12) : Prop where
  e : H.e = ![0, E, 0, 0, 0]
  q : H.q = ![c, 0, 0, s]
  unit : c ^ 2 + s ^ 2 = 1

/-- stretching along the third direction at the rate `D`, with no spin, to the relative volume `J` -/
structure Pull (dt tol D J : ℝ) (inp : Inputs) : Prop where
  dt : inp.dt = dt
  tol : inp.tol = tol
  d : devOfSvecP inp.d = !![-D / 2, 0, 0; 0, -D / 2, 0; 0, 0, D]
  w : inp.w = 0
  vol : inp.vr 1 = J

/-- what the tolerance of the solver amounts to as a rate -/
noncomputable def pullTol (k : Voce) (dt tol D : ℝ) : ℝ := tol * lostScale |Real.sqrt (3 / 2) * D| k.gamW dt

/-- resolved stress on the active systems at the elastic strain `E` and the relative volume `J` -/
noncomputable def axialTau (c11 c12 J E : ℝ) : ℝ := (c11 - c12) * E / (2 * J ^ (1 / 3 : ℝ))

theorem sqr3b2_eq : sqr3b2 = Real.sqrt (3 / 2) := rfl

theorem Pull.dSm {dt tol D J : ℝ} {inp : Inputs} (h : Pull dt tol D J inp) :
    svecToVecd inp.d = ![0, Real.sqrt (3 / 2) * D, 0, 0, 0] := by
  have e := h.d
  have f : ∀ i j, devOfSvecP inp.d i j = !![-D / 2, 0, 0; 0, -D / 2, 0; 0, 0, D] i j := fun i j => by rw [e]
  have h0 := f 0 0; have h1 := f 1 1; have h2 := f 2 2; have h3 := f 1 2; have h4 := f 0 2; have h5 := f 0 1
  simp [devOfSvecP] at h0 h1 h2 h3 h4 h5
  ext i
  fin_cases i <;> simp [svecToVecd, h0, h1, h2, h3, h4, h5, sqr3b2]

theorem vecNorm_axial (d : ℝ) : vecNorm (![0, d, 0, 0, 0] : Vec 5) = |d| := by
  unfold vecNorm
  rw [← Real.sqrt_sq_eq_abs]
  congr 1
  simp [Fin.sum_univ_five, sq]

theorem normalize_axial {c s : ℝ} (hu : c ^ 2 + s ^ 2 = 1) : vecsVNormalize (![c, 0, 0, s] : Vec 4) = ![c, 0, 0, s] := by
  have h : vecNorm (![c, 0, 0, s] : Vec 4) = 1 := by
    unfold vecNorm
    rw [show (∑ i, (![c, 0, 0, s] : Vec 4) i * (![c, 0, 0, s] : Vec 4) i) = 1 by
      simp [Fin.sum_univ_four]; linarith, Real.sqrt_one]
  unfold vecsVNormalize
  rw [h]
  ext i
  fin_cases i <;> simp [vecsVsa]

/-- the problem of a step from an axial state -/
theorem axialProblem {M : Material 12 1} {k : Voce} {S : Solver 1} {c11 c12 c44 : ℝ}
    (hM : AxialCrystal M k S c11 c12 c44) {inp : Inputs} {dt tol D J : ℝ} (hi : Pull dt tol D J inp)
    {m : Mem 1 12} {E c s : ℝ} (hs : AxialState E c s (histOf m)) {hU : Vec 1} {P : Updst 12}
    (h : Step.setup M inp m = .ok (hU, P)) :
    AxialProblem P E (Real.sqrt (3 / 2) * D) c s (c11 - c12) (fun τ => (k.evalGdot (hU 0) τ).gdot)
      (fun τ => (k.evalGdot (hU 0) τ).dtau) ∧ 0 < hU 0 ∧ P.dt = dt ∧ P.detV = J ∧ 0 < J ∧ P.adotsRef = k.gamW := by
  obtain ⟨kU, v, sc, hq, hcv, hdt, hv, hH, hV, hP⟩ := Step.setup_ok h
  obtain ⟨geom, kin, el, eos⟩ := M
  have hk := hM.kin
  simp only at hk
  subst hk
  simp only [Voce.kin] at hV
  split_ifs at hV with hg
  cases hV
  have hgeom : AxialGeom geom := by
    rcases hM.geom with h | h
    · rw [show geom = _ from h]; exact axialGeom_fcc
    · rw [show geom = _ from h]; exact axialGeom_bcc
  refine ⟨⟨?_, ?_, ?_, ?_, ?_, hs.unit, ?_, ?_, ?_, ?_⟩, hg, ?_, ?_, ?_, ?_⟩
  · rw [hP]; exact hgeom
  · rw [hP]; exact ⟨c11, c12, c44, hM.el⟩
  · rw [hP]
    show _ = el.kDiag 1
    rw [show el = _ from hM.el]
    simp [Elast.kDiag]
  · rw [hP]; exact hs.e
  · rw [hP]
    show vecsVNormalize (histOf m).q = _
    rw [hs.q, normalize_axial hs.unit]
  · rw [hP]; exact hi.dSm
  · rw [hP]; exact hi.w
  · intro i τ; rw [hP]; exact ⟨rfl, rfl⟩
  · intro τ
    obtain ⟨h1, h2, -⟩ := C24_odd k hM.xm (hU 0) τ hg
    exact ⟨h1, h2⟩
  · rw [hP]; exact hi.dt
  · rw [hP]; exact hi.vol
  · rw [← hi.vol]; exact hv
  · rw [hP]; rfl

theorem AxialProblem.kept {P : Updst 12} {E d c s κ : ℝ} {f f' : ℝ → ℝ} (h : AxialProblem P E d c s κ f f') :
    AxisKept P.problem := by
  intro x hx
  refine ⟨_, _, rfl, ?_, ?_, ?_⟩
  · rw [hx.eq]
    intro i hi
    rw [h.resid, if_neg hi]
  · rw [hx.eq]; exact fun i hi => h.jac_col _ i hi
  · rw [hx.eq]; exact fun i hi => h.jac_row _ i hi

/-- **C98, step.** From an axial state every successful step leads to an axial state with the same orientation.  The
    resolved stress `τ` on the active systems obeys the backward Euler formula for its rate equation, up to the
    tolerance of the solver; the total rate of slip is eight times that of one system; the stress is that of a bar under
    tension: there is no shear, the lateral stresses are equal, and the axial stress exceeds them by √6 τ / J. -/
theorem C98_step {M : Material 12 1} {k : Voce} {S : Solver 1} {c11 c12 c44 : ℝ}
    (hM : AxialCrystal M k S c11 c12 c44) {X : Ext} (hX : AxisSolver X.solver) {inp : Inputs} {dt tol D J : ℝ}
    (hdt : 0 < dt) (hi : Pull dt tol D J inp) {m m' : Mem 1 12} {E c s : ℝ} (hs : AxialState E c s (histOf m))
    (hok : getResponseSngl X M inp m = .ok m') :
    ∃ E' ρ, AxialState E' c s (histOf m') ∧ 0 < (histOf m').h 0 ∧ |ρ| ≤ pullTol k dt tol D ∧
      axialTau c11 c12 J E' = axialTau c11 c12 J E + (c11 - c12) / 2 * dt * (Real.sqrt (3 / 2) * D + ρ
        - 4 * (k.evalGdot ((histOf m').h 0) (axialTau c11 c12 J E')).gdot) ∧
      ∑ i, |(histOf m').gdot i| = 8 * |(k.evalGdot ((histOf m').h 0) (axialTau c11 c12 J E')).gdot| ∧
      m'.stress 2 - m'.stress 0 = Real.sqrt 6 * axialTau c11 c12 J E' / J ∧ m'.stress 0 = m'.stress 1 ∧
      m'.stress 3 = 0 ∧ m'.stress 4 = 0 ∧ m'.stress 5 = 0 := by
  obtain ⟨W⟩ := getResponseSngl_ok hok
  have hset : Step.setup M inp m = .ok (W.hU, W.P) := by
    rw [W.hP]; exact Step.setup_eq_ok W.hq W.hcv W.hdt W.hv W.hH W.hV
  obtain ⟨hA, hg, hPdt, hPv, hJ, hr⟩ := axialProblem hM hi hs hset
  have hax : OnAxis (Step.solve X inp W.P).x := hX.stays _ _ _ (AxialProblem.kept hA) W.hc
  obtain ⟨⟨r, Jm, hrJ, hrt⟩, hlast⟩ := hX.sound _ _ _ _ W.hc
  have hxl : ∀ w, Step.lastX (Step.solve X inp W.P) w = (Step.solve X inp W.P).x := by
    intro w
    unfold Step.lastX
    split_ifs
    · rfl
    · exact hlast
  have hH' := OkStep.hist_eq W
  set y := (Step.solve X inp W.P).x 1 * eScale with hy
  have hx : (Step.solve X inp W.P).x = axisX y 0 := hax.eq
  have he : (histOf m').e = ![0, E + y, 0, 0, 0] := by
    rw [hH']
    show W.P.eF _ = _
    rw [hx, hA.eF]
  have hq : (histOf m').q = ![c, 0, 0, s] := by
    rw [hH']
    show Step.flipQuat (W.P.cQuat _) _ = _
    rw [hx, hA.cQuat, hA.cN]
    unfold Step.flipQuat
    rw [if_neg]
    simp [vecsyadotb, Fin.sum_univ_four]
    nlinarith [sq_nonneg c, sq_nonneg s]
  have hh : (histOf m').h = W.hU := by rw [hH']; rfl
  have ha : 0 < J ^ (1 / 3 : ℝ) := Real.rpow_pos_of_pos hJ _
  have haV : W.P.aVri = 1 / J ^ (1 / 3 : ℝ) := by unfold Updst.aVri Updst.aV; rw [hPv]
  have hτ : (c11 - c12) * (W.P.aVri * (E + y)) / 2 = axialTau c11 c12 J (E + y) := by
    rw [haV]; unfold axialTau; field_simp
  have hsc : 0 < W.P.epsdotScaleInv := W.P.epsdotScaleInv_pos (by rw [hPdt]; exact hdt) (by rw [hr]; exact hM.gamW)
  set ρ := W.P.aVri * (y / dt) + 4 * (k.evalGdot (W.hU 0) (axialTau c11 c12 J (E + y))).gdot
    - Real.sqrt (3 / 2) * D with hρ
  have hρt : |ρ| ≤ pullTol k dt tol D := by
    have e1 : Step.solve X inp W.P = X.solver W.P.problem inp.tol 200 (fun _ => 0) := rfl
    rw [← e1] at hrJ
    have e2 : r = W.P.resid (axisX y 0) := by
      rw [hx] at hrJ
      exact (congrArg Prod.fst (Option.some.inj hrJ)).symm
    rw [e2, hA.resid_norm, hτ, hPdt, abs_mul, abs_of_pos hsc, hi.tol] at hrt
    unfold pullTol
    have e3 := inv_epsdotScaleInv_eq W.P (by rw [hPdt]; exact hdt) (by rw [hr]; exact hM.gamW)
    rw [hA.dSm, vecNorm_axial, hr, hPdt] at e3
    rw [← e3, mul_one_div, le_div_iff₀ hsc, mul_comm]
    exact hrt
  have hst : m'.stress = vecdsToSvecP ![0, (c11 - c12) * (W.P.aVri * (E + y)) / J, 0, 0, 0,
      W.P.elastNEtoC (W.P.eF (Step.solve X inp W.P).x) 5] := by
    rw [W.hst]
    have e0 : ∀ i : Fin 5, W.P.elastNEtoC (W.P.eF (Step.solve X inp W.P).x) i.castSucc
        = (![0, (c11 - c12) * (W.P.aVri * (E + y)) / J, 0, 0, 0] : Vec 5) i := by
      intro i
      obtain ⟨a, b, c', hel⟩ := hA.el
      have hk := hA.κ
      rw [hel] at hk
      unfold Updst.elastNEtoC Updst.elastNEtoT
      rw [hx, hA.eF, hel, hk]
      unfold Updst.detVRi
      rw [hPv]
      fin_cases i <;> simp [Elast.getCauchy, Elast.eval, vecsVxa, Elast.kDiag]
      field_simp
    have hrot := Updst.rot_axis (c := c) (s := s) hs.unit
    have e1 : ∀ z : ℝ, vecsVMa (getRotMatVecd (quatToTensor ![c, 0, 0, s])) ![0, z, 0, 0, 0] = ![0, z, 0, 0, 0] := by
      intro z
      have e : c * c + s * s = 1 := by nlinarith [hs.unit]
      ext i
      fin_cases i <;> simp [vecsVMa, Fin.sum_univ_five, getRotMatVecd, quatToTensor, e]
      ring
    unfold Step.stressOf
    simp only [funext e0]
    have hq' : W.P.cQuat (Step.solve X inp W.P).x = ![c, 0, 0, s] := by rw [hx, hA.cQuat]
    rw [hq', e1]
    rfl
  refine ⟨E + y, ρ, ⟨he, hq, hs.unit⟩, by rw [hh]; exact hg, hρt, ?_, ?_, ?_, ?_, ?_, ?_, ?_⟩
  · rw [hh]
    have e1 : axialTau c11 c12 J (E + y) - axialTau c11 c12 J E = (c11 - c12) / 2 * dt * (W.P.aVri * (y / dt)) := by
      rw [haV]; unfold axialTau; field_simp; ring
    have e2 : W.P.aVri * (y / dt) = Real.sqrt (3 / 2) * D + ρ
        - 4 * (k.evalGdot (W.hU 0) (axialTau c11 c12 J (E + y))).gdot := by rw [hρ]; ring
    rw [e2] at e1
    linarith
  · rw [hh]
    have : (histOf m').gdot = W.P.gdot (axisX y 0) := by
      rw [hH']
      show W.P.gdot (Step.lastX _ _) = _
      rw [hxl, hx]
    rw [this, hA.gdot_abs, hτ]
  · rw [hst, ← hτ]
    have h6 : Real.sqrt 6 = 2 * (sqr2b3 + sqr6i) := by
      rw [show (6 : ℝ) = 2 * 3 by norm_num, Real.sqrt_mul (by norm_num)]
      show sqr2 * sqr3 = _
      sqr_ring
    rw [h6]
    simp [vecdsToSvecP]
    ring
  all_goals rw [hst]; simp [vecdsToSvecP]

end Ecm.Props
