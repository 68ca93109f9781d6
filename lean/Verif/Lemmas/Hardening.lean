/- Helper lemmas on the implicit hardness update. -/
import Verif.Model.Voce
import Verif.Model.KMBalD
import Verif.Lemmas.FD
import Mathlib.Analysis.SpecialFunctions.Pow.Deriv
import Mathlib.Topology.Order.IntermediateValue

namespace Ecm
open Spec Matrix

theorem H1Problem.xScale_pos (P : H1Problem) : 0 < P.xScale :=
  lt_of_lt_of_le one_pos (le_max_right _ _)

theorem H1Problem.computeRJ_some {P : H1Problem} {x : ℝ} {s d : ℝ}
    (h : P.law (P.hO + x * P.xScale) = some (s, d)) :
    P.computeRJ x = some ((x * P.xScale - s * P.dt) * P.resScale, 1 - d * P.dt) := by
  simp only [H1Problem.computeRJ, h]

theorem H1Problem.hasDerivAt {P : H1Problem} {f f' : ℝ → ℝ} {x : ℝ}
    (hd : HasDerivAt f (f' (P.hO + x * P.xScale)) (P.hO + x * P.xScale)) :
    HasDerivAt (fun y => (y * P.xScale - f (P.hO + y * P.xScale) * P.dt) * P.resScale)
      (1 - f' (P.hO + x * P.xScale) * P.dt) x := by
  have hx := P.xScale_pos.ne'
  have h1 : HasDerivAt (fun y : ℝ => y * P.xScale) P.xScale x := by
    simpa using (hasDerivAt_id x).mul_const P.xScale
  have h2 : HasDerivAt (fun y : ℝ => P.hO + y * P.xScale) P.xScale x := h1.const_add _
  have h3 : HasDerivAt (fun y : ℝ => f (P.hO + y * P.xScale))
      (f' (P.hO + x * P.xScale) * P.xScale) x :=
    HasDerivAt.comp (h₂ := f) x hd h2
  refine ((h1.fun_sub (h3.mul_const P.dt)).mul_const P.resScale).congr_deriv ?_
  unfold H1Problem.resScale
  field_simp

theorem HNProblem.xScale_pos {n : ℕ} (P : HNProblem n) (i : Fin n) : 0 < P.xScale i :=
  lt_of_lt_of_le one_pos (le_max_right _ _)

/-- steepness of the residual of an antitone law -/
theorem resid_mono {f : ℝ → ℝ} (hf : Antitone f) {hO dt xs x y : ℝ} (hdt : 0 ≤ dt) (hxs : 0 < xs)
    (hxy : x ≤ y) :
    y - x ≤ (y * xs - f (hO + y * xs) * dt) * (1 / xs) - (x * xs - f (hO + x * xs) * dt) * (1 / xs) := by
  have h1 : f (hO + y * xs) ≤ f (hO + x * xs) :=
    hf (by linarith [mul_le_mul_of_nonneg_right hxy hxs.le])
  have e : (y * xs - f (hO + y * xs) * dt) * (1 / xs) - (x * xs - f (hO + x * xs) * dt) * (1 / xs)
      = (y - x) + (f (hO + x * xs) - f (hO + y * xs)) * dt * (1 / xs) := by field_simp; ring
  rw [e]
  have : 0 ≤ (f (hO + x * xs) - f (hO + y * xs)) * dt * (1 / xs) := by
    apply mul_nonneg (mul_nonneg (by linarith) hdt) (by positivity)
  linarith

theorem resid_near {f : ℝ → ℝ} (hf : Antitone f) {hO dt xs x y : ℝ} (hdt : 0 ≤ dt) (hxs : 0 < xs)
    (hy : (y * xs - f (hO + y * xs) * dt) * (1 / xs) = 0) :
    |x - y| ≤ |(x * xs - f (hO + x * xs) * dt) * (1 / xs)| := by
  rcases le_total x y with h | h
  · have := resid_mono hf (hO := hO) hdt hxs h
    rw [hy] at this
    rw [abs_of_nonpos (by linarith), abs_of_nonpos (by linarith)]
    linarith
  · have := resid_mono hf (hO := hO) hdt hxs h
    rw [hy] at this
    rw [abs_of_nonneg (by linarith), abs_of_nonneg (by linarith)]
    linarith

/-- a solver that finds a point of small residual whenever there is one -/
noncomputable def idealSolver (n : ℕ) : Solver n := fun P tol _ x0 =>
  open Classical in
  if h : ∃ x r J, P x = some (r, J) ∧ vecNorm r ≤ tol then
    { converged := true, x := h.choose, xLast := h.choose, nFEvals := 1 }
  else { converged := false, x := x0, xLast := x0, nFEvals := 1 }

theorem idealSolver_sound (n : ℕ) : (idealSolver n).Sound := by
  intro P tol m x0
  unfold idealSolver
  split_ifs with h
  · intro _
    exact ⟨h.choose_spec, rfl⟩
  · intro hc; exact absurd hc (by simp)

theorem vecNorm_one (r : Vec 1) : vecNorm r = |r 0| := by
  unfold vecNorm
  rw [Fin.sum_univ_one, ← sq, Real.sqrt_sq_eq_abs]

/-- what a successful update by a sound solver guarantees -/
theorem updateH1_ok {S : Solver 1} (hS : S.Sound) {law : Law1} {hO dt h' : ℝ} {m : ℕ}
    (hok : updateH1 S law hO dt = .ok (h', m)) :
    ∃ x r J, h' = hO + x * max hO 1 ∧
      ({ law := law, hO := hO, dt := dt } : H1Problem).computeRJ x = some (r, J) ∧
      |r| ≤ 1 / 10 ^ 10 := by
  simp only [updateH1] at hok
  split_ifs at hok with hc
  obtain ⟨⟨r, J, hP, hr⟩, -⟩ := hS _ _ _ _ hc
  set x := (S ({ law := law, hO := hO, dt := dt } : H1Problem).problem (1 / 10 ^ 10) 100
    (fun _ => 0)).x with hx
  simp only [H1Problem.problem, Option.map_eq_some_iff] at hP
  obtain ⟨⟨r1, j1⟩, h1, h2⟩ := hP
  have e1 : r = fun _ => r1 := (congrArg Prod.fst h2).symm
  simp only [Out.ok.injEq, Prod.mk.injEq] at hok
  refine ⟨x 0, r1, j1, hok.1.symm, h1, ?_⟩
  rw [vecNorm_one, e1] at hr
  exact hr

/-- for an antitone law the result of a successful update is within the solver tolerance of any
    exact solution of the backward Euler equation -/
theorem updateH1_near {S : Solver 1} (hS : S.Sound) {law : Law1} {f f' : ℝ → ℝ}
    (hl : ∀ h, law h = some (f h, f' h)) (hf : Antitone f) {hO dt h' z : ℝ} {m : ℕ} (hdt : 0 ≤ dt)
    (hok : updateH1 S law hO dt = .ok (h', m)) (hz : z - hO = dt * f z) :
    |h' - z| ≤ 1 / 10 ^ 10 * max hO 1 := by
  obtain ⟨x, r, J, hx, hP, hr⟩ := updateH1_ok hS hok
  have hxs : 0 < max hO 1 := lt_of_lt_of_le one_pos (le_max_right _ _)
  rw [H1Problem.computeRJ_some (hl _)] at hP
  simp only [Option.some.injEq, Prod.mk.injEq, H1Problem.resScale, H1Problem.xScale] at hP
  set y := (z - hO) / max hO 1 with hy
  have hyz : hO + y * max hO 1 = z := by rw [hy]; field_simp; ring
  have h0 : (y * max hO 1 - f (hO + y * max hO 1) * dt) * (1 / max hO 1) = 0 := by
    rw [hyz]
    have : y * max hO 1 = z - hO := by rw [hy]; field_simp
    rw [this, hz]; ring
  have hn := resid_near hf (x := x) hdt hxs h0
  rw [hP.1] at hn
  have e : h' - z = (x - y) * max hO 1 := by rw [hx, ← hyz]; ring
  rw [e, abs_mul, abs_of_pos hxs]
  exact mul_le_mul_of_nonneg_right (hn.trans hr) hxs.le

theorem backwardEuler_unique {f : ℝ → ℝ} (hf : Antitone f) {hO dt y z : ℝ} (hdt : 0 ≤ dt)
    (hy : y - hO = dt * f y) (hz : z - hO = dt * f z) : y = z := by
  rcases le_total y z with h | h
  · have := mul_le_mul_of_nonneg_left (hf h) hdt; linarith
  · have := mul_le_mul_of_nonneg_left (hf h) hdt; linarith

/-- a continuous antitone law has a backward Euler solution, between the old value and any zero of
    the law -/
theorem backwardEuler_exists {f : ℝ → ℝ} (hf : Antitone f) (hc : Continuous f) {hO dt : ℝ}
    (hdt : 0 ≤ dt) : ∃ z, z - hO = dt * f z := by
  have hg : Continuous fun z => z - hO - dt * f z := by fun_prop
  rcases le_total 0 (f hO) with h | h
  · have h1 : hO - hO - dt * f hO ≤ 0 := by nlinarith
    have h2 : 0 ≤ (hO + dt * f hO) - hO - dt * f (hO + dt * f hO) := by
      have := hf (show hO ≤ hO + dt * f hO by nlinarith)
      nlinarith
    obtain ⟨z, -, hz⟩ := intermediate_value_Icc (show hO ≤ hO + dt * f hO by nlinarith)
      hg.continuousOn ⟨h1, h2⟩
    exact ⟨z, by simp only at hz; linarith⟩
  · have h1 : 0 ≤ hO - hO - dt * f hO := by nlinarith
    have h2 : (hO + dt * f hO) - hO - dt * f (hO + dt * f hO) ≤ 0 := by
      have := hf (show hO + dt * f hO ≤ hO by nlinarith)
      nlinarith
    obtain ⟨z, -, hz⟩ := intermediate_value_Icc (show hO + dt * f hO ≤ hO by nlinarith)
      hg.continuousOn ⟨h2, h1⟩
    exact ⟨z, by simp only at hz; linarith⟩

theorem backwardEuler_between {f : ℝ → ℝ} (hf : Antitone f) {hO dt z hs : ℝ} (hdt : 0 ≤ dt)
    (hz : z - hO = dt * f z) (h0 : f hs = 0) : min hO hs ≤ z ∧ z ≤ max hO hs := by
  constructor
  · by_contra h
    push Not at h
    obtain ⟨a, b⟩ := lt_min_iff.1 h
    have := hf b.le
    nlinarith
  · by_contra h
    push Not at h
    obtain ⟨a, b⟩ := max_lt_iff.1 h
    have := hf b.le
    nlinarith

end Ecm
