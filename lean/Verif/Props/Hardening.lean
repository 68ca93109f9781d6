/- Property theorems C12, C27, C31 and the hardening part of C13: implicit update of strengths and
   dislocation density (src/ecmech/ECMech_kinetics.h:81-313, the evolution laws of
   ECMech_kinetics_VocePL.h and ECMech_kinetics_KMBalD.h). -/
import Verif.Lemmas.Hardening
import Verif.Lemmas.Emap

namespace Ecm.Props
open Ecm Spec Matrix

/-! ### C12 Jacobians of the hardening residuals -/

/-- C12, one variable: if near the trial point the law reports `(f h, f' h)` and `f'` is the
    derivative of `f` there, then the Jacobian handed to the solver is the derivative of the residual
    handed to the solver. -/
theorem C12_single (P : H1Problem) (f f' : ℝ → ℝ) (x : ℝ)
    (hlaw : ∀ᶠ y in nhds x, P.law (P.hO + y * P.xScale) =
      some (f (P.hO + y * P.xScale), f' (P.hO + y * P.xScale)))
    (hd : HasDerivAt f (f' (P.hO + x * P.xScale)) (P.hO + x * P.xScale)) :
    ∃ (R : ℝ → ℝ) (J : ℝ → ℝ), (∀ᶠ y in nhds x, P.computeRJ y = some (R y, J y)) ∧
      HasDerivAt R (J x) x := by
  refine ⟨fun y => (y * P.xScale - f (P.hO + y * P.xScale) * P.dt) * P.resScale,
    fun y => 1 - f' (P.hO + y * P.xScale) * P.dt, ?_, H1Problem.hasDerivAt hd⟩
  filter_upwards [hlaw] with y hy
  exact H1Problem.computeRJ_some hy

/-- C12, several variables. -/
theorem C12_several {n : ℕ} (P : HNProblem n) (f : Vec n → Vec n) (D : Vec n → Mat n n) (x : Vec n)
    (hlaw : ∀ᶠ y in nhds x, P.law (P.getHn y) = some (f (P.getHn y), D (P.getHn y)))
    (hd : HasJacobian f (D (P.getHn x)) (P.getHn x)) :
    ∃ (R : Vec n → Vec n) (J : Vec n → Mat n n),
      (∀ᶠ y in nhds x, P.computeRJ y = some (R y, J y)) ∧ HasJacobian R (J x) x := by
  refine ⟨fun y i => (y i * P.xScale i - f (P.getHn y) i * P.dt) * P.resScale i,
    fun y i j => D (P.getHn y) i j * (-P.xScale j * P.resScale i * P.dt) + if i = j then 1 else 0,
    ?_, ?_⟩
  · filter_upwards [hlaw] with y hy
    unfold HNProblem.getHn at hy
    simp only [HNProblem.computeRJ, hy]
    rfl
  · apply hasJacobian_of_FD
    intro i
    have hg : HasFDerivAt P.getHn
        (ContinuousLinearMap.pi fun j => P.xScale j • ContinuousLinearMap.proj (R := ℝ)
          (φ := fun _ : Fin n => ℝ) j) x := by
      rw [hasFDerivAt_pi]
      intro j
      exact ((hasFDerivAt_apply (𝕜 := ℝ) (F' := fun _ : Fin n => ℝ) j x).mul_const
        (P.xScale j)).const_add _
    have h1 : FD (fun y => f (P.getHn y) i) x
        (fun v => ∑ j, D (P.getHn x) i j * (P.xScale j * v j)) := by
      refine ⟨_, (hd i).comp x hg, fun v => ?_⟩
      simp [lin_apply]
    have h2 := (((FD.coord i x).mul_const (P.xScale i)).sub (h1.mul_const P.dt)).mul_const
      (P.resScale i)
    refine h2.congr fun v => ?_
    have hx := (P.xScale_pos i).ne'
    have hr : P.resScale i = 1 / P.xScale i := rfl
    have e1 : ∑ j, (D (P.getHn x) i j * (-P.xScale j * P.resScale i * P.dt)
        + if i = j then 1 else 0) * v j
        = -(∑ j, D (P.getHn x) i j * (P.xScale j * v j)) * P.dt * P.resScale i + v i := by
      simp only [add_mul, Finset.sum_add_distrib, ite_mul, one_mul, zero_mul, Finset.sum_ite_eq,
        Finset.mem_univ, if_true]
      rw [neg_mul, neg_mul, Finset.sum_mul, Finset.sum_mul, ← Finset.sum_neg_distrib]
      congr 1
      exact Finset.sum_congr rfl fun j _ => by ring
    rw [e1]
    have e2 : v i * P.xScale i * P.resScale i = v i := by rw [hr]; field_simp
    linear_combination e2

/-- C12 the linear saturation law reports its true derivative everywhere. -/
theorem C12_voce_linear (k : Voce) (hk : k.nonlinear = false) (evol : ℝ × ℝ) :
    ∃ f f' : ℝ → ℝ, (∀ h, k.getSdot1 evol h = some (f h, f' h)) ∧ ∀ h, HasDerivAt f (f' h) h := by
  set t2 : ℝ := if evol.2 ≤ k.tausi then 0 else 1 / (evol.2 - k.tausi) with ht
  refine ⟨fun h => k.h0 * ((evol.2 - h) * t2) * evol.1, fun _ => -k.h0 * t2 * evol.1,
    fun h => by simp only [Voce.getSdot1, hk]; rfl, fun h => ?_⟩
  have h1 : HasDerivAt (fun h : ℝ => evol.2 - h) (-1) h := (hasDerivAt_id h).const_sub _
  refine (((h1.mul_const t2).const_mul k.h0).mul_const evol.1).congr_deriv ?_
  ring

/-- C12 the nonlinear saturation law reports its true derivative wherever the strength is below a
    saturation strength that exceeds the initial strength. -/
theorem C12_voce_nonlinear (k : Voce) (hk : k.nonlinear = true) (evol : ℝ × ℝ)
    (hsat : k.tausi < evol.2) (h : ℝ) (hh : h < evol.2) :
    ∃ f f' : ℝ → ℝ, (∀ᶠ y in nhds h, k.getSdot1 evol y = some (f y, f' y)) ∧
      HasDerivAt f (f' h) h := by
  set t2 : ℝ := 1 / (evol.2 - k.tausi) with ht
  have ht0 : 0 < t2 := by rw [ht]; apply one_div_pos.2; linarith
  refine ⟨fun y => k.h0 * ((evol.2 - y) * t2) ^ k.xmprime1 * (evol.2 - y) * t2 * evol.1,
    fun y => -k.h0 * t2 * evol.1 * k.xmprime * ((evol.2 - y) * t2) ^ k.xmprime1, ?_, ?_⟩
  · filter_upwards [eventually_lt_nhds hh] with y hy
    have hb : 0 < (evol.2 - y) * t2 := mul_pos (by linarith) ht0
    simp only [Voce.getSdot1, hk, if_true]
    rw [if_neg (not_le.2 hsat), if_pos (Or.inl hb)]
  · have hb : 0 < (evol.2 - h) * t2 := mul_pos (by linarith) ht0
    have h1 : HasDerivAt (fun y : ℝ => (evol.2 - y) * t2) (-1 * t2) h :=
      ((hasDerivAt_id h).const_sub _).mul_const _
    have h2 := h1.rpow_const (p := k.xmprime1) (Or.inl hb.ne')
    have h3 : HasDerivAt (fun y : ℝ => evol.2 - y) (-1) h := (hasDerivAt_id h).const_sub _
    have h4 := ((((h2.const_mul k.h0).fun_mul h3).mul_const t2).mul_const evol.1)
    refine h4.congr_deriv ?_
    beta_reduce
    have e1 : ((evol.2 - h) * t2) ^ (k.xmprime1 - 1) * ((evol.2 - h) * t2)
        = ((evol.2 - h) * t2) ^ k.xmprime1 := by
      rw [← Real.rpow_add_one hb.ne']; congr 1; ring
    have e2 : k.xmprime1 = k.xmprime - 1 := by simp [Voce.xmprime1, hk]
    generalize ((evol.2 - h) * t2) ^ (k.xmprime1 - 1) = Q at e1 ⊢
    generalize ((evol.2 - h) * t2) ^ k.xmprime1 = R at e1 ⊢
    linear_combination (-k.h0 * evol.1 * t2 * k.xmprime1) * e1 + (-k.h0 * evol.1 * t2 * R) * e2

/-- C12 the dislocation density law (in the logarithm of the density) reports its true derivative. -/
theorem C12_density {nV : ℕ} (k : KMBalD nV) (evol : ℝ × ℝ) :
    ∃ f f' : ℝ → ℝ, (∀ h, k.getSdot1 evol h = some (f h, f' h)) ∧ ∀ h, HasDerivAt f (f' h) h := by
  refine ⟨fun h => (k.k1 * Real.exp (-(1 / 2) * h) - evol.2) * evol.1,
    fun h => -k.k1 * (1 / 2) * Real.exp (-(1 / 2) * h) * evol.1, fun h => rfl, fun h => ?_⟩
  have h1 : HasDerivAt (fun h : ℝ => -(1 / 2) * h) (-(1 / 2) * 1) h :=
    (hasDerivAt_id h).const_mul _
  refine (((h1.exp.const_mul k.k1).sub_const evol.2).mul_const evol.1).congr_deriv ?_
  ring

/-- C12 the law with one strength per slip system reports its true (diagonal) derivative wherever all
    strengths are below a saturation strength that exceeds the initial strengths, and everywhere in
    the linear case. -/
theorem C12_voce_per_system {n : ℕ} (k : Voce) (tausi : Vec n) (evol : ℝ × ℝ) (h : Vec n)
    (hk : k.nonlinear = false ∨ ∀ i, tausi i < evol.2 ∧ h i < evol.2) :
    ∃ (f : Vec n → Vec n) (D : Vec n → Mat n n),
      (∀ᶠ y in nhds h, k.getSdotN tausi evol y = some (f y, D y)) ∧ HasJacobian f (D h) h := by
  have key : ∀ i, ∃ f f' : ℝ → ℝ,
      (∀ᶠ y in nhds (h i), ({ k with tausi := tausi i } : Voce).getSdot1 evol y = some (f y, f' y)) ∧
      HasDerivAt f (f' (h i)) (h i) := by
    intro i
    by_cases hn : k.nonlinear = false
    · obtain ⟨f, f', h1, h2⟩ := C12_voce_linear { k with tausi := tausi i } hn evol
      exact ⟨f, f', Filter.Eventually.of_forall h1, h2 _⟩
    · have hk' : ∀ i, tausi i < evol.2 ∧ h i < evol.2 := by
        rcases hk with hk | hk
        · exact absurd hk hn
        · exact hk
      exact C12_voce_nonlinear { k with tausi := tausi i } (by simpa using hn) evol (hk' i).1 (h i) (hk' i).2
  choose f f' h1 h2 using key
  refine ⟨fun y i => f i (y i), fun y i j => if i = j then f' i (y i) else 0, ?_, ?_⟩
  · have hev : ∀ᶠ y in nhds h, ∀ i, ({ k with tausi := tausi i } : Voce).getSdot1 evol (y i)
        = some (f i (y i), f' i (y i)) := by
      rw [Filter.eventually_all]
      intro i
      exact (continuous_apply i).continuousAt.eventually (h1 i)
    filter_upwards [hev] with y hy
    unfold Voce.getSdotN
    rw [if_pos (fun i => by rw [hy i]; simp)]
    simp only [hy, Option.getD_some]
  · apply hasJacobian_of_FD
    intro i
    refine ((FD.coord i h).comp (h2 i)).congr fun v => ?_
    simp [ite_mul]

/-- the hypotheses of C12 are met by a concrete nonlinear problem -/
example : ∃ (k : Voce) (evol : ℝ × ℝ) (h : ℝ), k.nonlinear = true ∧ k.tausi < evol.2 ∧ h < evol.2 :=
  ⟨{ nonlinear := true, mu := 1, xm := 1, gamW := 1, h0 := 1, tausi := 1, taus0 := 2, xmprime := 2,
     xms := 1, gamss0 := 1, hdnInit := 1 }, (1, 3), 2, rfl, by norm_num, by norm_num⟩

/-! ### C13, hardening part -/

/-- C13 a zero hardening residual is exactly the backward Euler equation for the new strength,
    whatever the scale factors. -/
theorem C13_hardening_single (P : H1Problem) (x s d : ℝ)
    (hl : P.law (P.getHn x) = some (s, d)) :
    (∃ J, P.computeRJ x = some (0, J)) ↔ P.getHn x - P.hO = P.dt * s := by
  have hx := P.xScale_pos.ne'
  rw [H1Problem.computeRJ_some hl]
  simp only [H1Problem.getHn, H1Problem.resScale]
  constructor
  · rintro ⟨J, hJ⟩
    simp only [Option.some.injEq, Prod.mk.injEq] at hJ
    have := hJ.1
    field_simp at this
    linarith
  · intro h
    have : (x * P.xScale - s * P.dt) * (1 / P.xScale) = 0 := by
      have : x * P.xScale - s * P.dt = 0 := by linarith
      rw [this, zero_mul]
    exact ⟨1 - d * P.dt, by rw [this]⟩

/-- C13 the same for several hardness variables. -/
theorem C13_hardening_several {n : ℕ} (P : HNProblem n) (x s : Vec n) (D : Mat n n)
    (hl : P.law (P.getHn x) = some (s, D)) :
    (∃ J, P.computeRJ x = some (0, J)) ↔ ∀ i, P.getHn x i - P.hO i = P.dt * s i := by
  have e : P.computeRJ x = some (fun i => (x i * P.xScale i - s i * P.dt) * P.resScale i,
      fun i j => D i j * (-P.xScale j * P.resScale i * P.dt) + if i = j then 1 else 0) := by
    unfold HNProblem.getHn at hl
    simp only [HNProblem.computeRJ, hl]
    rfl
  rw [e]
  simp only [HNProblem.getHn, HNProblem.resScale]
  constructor
  · rintro ⟨J, hJ⟩ i
    have := congrFun (congrArg Prod.fst (Option.some.inj hJ)) i
    have hx := (P.xScale_pos i).ne'
    change (x i * P.xScale i - s i * P.dt) * (1 / P.xScale i) = 0 at this
    field_simp at this
    linarith
  · intro h
    have : (fun i => (x i * P.xScale i - s i * P.dt) * (1 / P.xScale i)) = 0 := by
      ext i
      have : x i * P.xScale i - s i * P.dt = 0 := by linarith [h i]
      simp [this]
    rw [this]
    exact ⟨_, rfl⟩

/-- the update of a strength of 2 with rate `3 - h`, `dt = 1`: solution 5/2, unknown 1/4 -/
example : ∃ (P : H1Problem) (x s d : ℝ), P.law (P.getHn x) = some (s, d) ∧
    P.getHn x - P.hO = P.dt * s ∧ x ≠ 0 := by
  refine ⟨{ law := fun h => some (3 - h, -1), hO := 2, dt := 1 }, 1 / 4, 1 / 2, -1, ?_, ?_, ?_⟩
  · simp [H1Problem.getHn, H1Problem.xScale]; norm_num
  · simp [H1Problem.getHn, H1Problem.xScale]; norm_num
  · norm_num

/-! ### C27 saturation hardening -/

/-- Voce hardening: rate of the strength `h` for slip rate `γ`, initial strength `s0`, saturation
    strength `sat` and hardening rate `θ`; no hardening when the saturation strength does not exceed
    the initial strength -/
noncomputable def voceRate (θ s0 sat γ h : ℝ) : ℝ :=
  open Classical in if sat ≤ s0 then 0 else θ * ((sat - h) / (sat - s0)) * γ

/-- saturation strength at slip rate `γ` (constant below 1e-90) -/
noncomputable def voceSat (sat0 γ0 m γ : ℝ) : ℝ :=
  open Classical in if 1 / 10 ^ 90 < γ then sat0 * (γ / γ0) ^ m else sat0

/-- C27 the evolution law is Voce hardening at the effective slip rate `∑ |gdot|`. -/
theorem C27_law {n : ℕ} (k : Voce) (hk : k.nonlinear = false) (gdot : Vec n) (h : ℝ) :
    (k.getSdot1 (k.getEvolVals gdot) h).map Prod.fst =
      some (voceRate k.h0 k.tausi (voceSat k.taus0 k.gamss0 k.xms (∑ i, |gdot i|)) (∑ i, |gdot i|) h)
      := by
  have e : (k.getEvolVals gdot) = (∑ i, |gdot i|,
      voceSat k.taus0 k.gamss0 k.xms (∑ i, |gdot i|)) := rfl
  rw [e]
  simp only [Voce.getSdot1, hk, voceRate, Bool.false_eq_true, if_false]
  split_ifs <;> simp [div_eq_mul_inv]

theorem voceRate_antitone {θ s0 sat γ : ℝ} (hθ : 0 ≤ θ) (hγ : 0 ≤ γ) :
    Antitone (voceRate θ s0 sat γ) := by
  intro a b hab
  unfold voceRate
  split_ifs with h
  · exact le_refl _
  · push Not at h
    apply mul_le_mul_of_nonneg_right _ hγ
    apply mul_le_mul_of_nonneg_left _ hθ
    apply div_le_div_of_nonneg_right (by linarith) (by linarith)

theorem voceRate_continuous (θ s0 sat γ : ℝ) : Continuous (voceRate θ s0 sat γ) := by
  unfold voceRate
  split_ifs
  · exact continuous_const
  · fun_prop

/-- C27 the implicit equation has exactly one solution; it lies between the old strength and the
    saturation strength; it is the old strength if the saturation strength is not above the initial
    strength, or there is no slip, or the time step is zero. -/
theorem C27_solution (θ s0 sat γ hO dt : ℝ) (hθ : 0 ≤ θ) (hγ : 0 ≤ γ) (hdt : 0 ≤ dt) :
    (∃! z, z - hO = dt * voceRate θ s0 sat γ z) ∧
    ∀ z, z - hO = dt * voceRate θ s0 sat γ z →
      min hO sat ≤ z ∧ z ≤ max hO sat ∧ (sat ≤ s0 ∨ γ = 0 ∨ dt = 0 → z = hO) := by
  have ha := voceRate_antitone (s0 := s0) (sat := sat) hθ hγ
  constructor
  · obtain ⟨z, hz⟩ := backwardEuler_exists ha (voceRate_continuous _ _ _ _) (hO := hO) hdt
    exact ⟨z, hz, fun y hy => backwardEuler_unique ha hdt hy hz⟩
  · intro z hz
    have h0 : voceRate θ s0 sat γ sat = 0 := by unfold voceRate; simp
    obtain ⟨b1, b2⟩ := backwardEuler_between ha hdt hz h0
    refine ⟨b1, b2, ?_⟩
    rintro (h | h | h)
    · simp only [voceRate, if_pos h] at hz; linarith
    · simp only [voceRate, h, mul_zero, ite_self] at hz; linarith
    · rw [h] at hz; linarith

/-- C27 a longer time step brings the strength closer to saturation, on the same side. -/
theorem C27_monotone_in_dt (θ s0 sat γ hO dt dt' z z' : ℝ) (hθ : 0 ≤ θ) (hγ : 0 ≤ γ) (hdt : 0 ≤ dt)
    (hdt' : dt ≤ dt') (hz : z - hO = dt * voceRate θ s0 sat γ z)
    (hz' : z' - hO = dt' * voceRate θ s0 sat γ z') :
    (hO ≤ sat → hO ≤ z ∧ z ≤ z' ∧ z' ≤ sat) ∧ (sat ≤ hO → sat ≤ z' ∧ z' ≤ z ∧ z ≤ hO) := by
  have ha := voceRate_antitone (s0 := s0) (sat := sat) hθ hγ
  have h0 : voceRate θ s0 sat γ sat = 0 := by unfold voceRate; simp
  obtain ⟨a1, a2⟩ := backwardEuler_between ha hdt hz h0
  obtain ⟨b1, b2⟩ := backwardEuler_between ha (hdt.trans hdt') hz' h0
  constructor
  · intro h
    rw [min_eq_left h] at a1 b1
    rw [max_eq_right h] at a2 b2
    refine ⟨a1, ?_, b2⟩
    by_contra hc
    push Not at hc
    have f1 := ha hc.le
    have f2 := ha a2
    rw [h0] at f2
    nlinarith
  · intro h
    rw [min_eq_right h] at a1 b1
    rw [max_eq_left h] at a2 b2
    refine ⟨b1, ?_, a2⟩
    by_contra hc
    push Not at hc
    have f1 := ha hc.le
    have f2 := ha a1
    rw [h0] at f2
    nlinarith

/-- C27 the strength stored by a successful update is within the solver tolerance (1e-10 relative to
    the larger of the old strength and one) of the exact solution. -/
theorem C27_update {n : ℕ} (k : Voce) (hk : k.nonlinear = false) (hθ : 0 ≤ k.h0) (S : Solver 1)
    (hS : S.Sound) (hsO : Vec 1) (dt : ℝ) (hdt : 0 ≤ dt) (gdot : Vec n) (h' : Vec 1) (m : ℕ)
    (hok : k.updateH S hsO dt gdot = .ok (h', m)) :
    ∃ z, z - hsO 0 = dt * voceRate k.h0 k.tausi
        (voceSat k.taus0 k.gamss0 k.xms (∑ i, |gdot i|)) (∑ i, |gdot i|) z ∧
      |h' 0 - z| ≤ 1 / 10 ^ 10 * max (hsO 0) 1 := by
  have hγ : 0 ≤ ∑ i, |gdot i| := Finset.sum_nonneg fun i _ => abs_nonneg _
  obtain ⟨⟨z, hz, -⟩, -⟩ := C27_solution k.h0 k.tausi
    (voceSat k.taus0 k.gamss0 k.xms (∑ i, |gdot i|)) (∑ i, |gdot i|) (hsO 0) dt hθ hγ hdt
  refine ⟨z, hz, ?_⟩
  unfold Voce.updateH at hok
  split_ifs at hok
  generalize hu : updateH1 S (k.getSdot1 (k.getEvolVals gdot)) (hsO 0) dt = u at hok
  cases u with
  | fail _ => exact absurd hok (by simp [Out.bind])
  | undef _ => exact absurd hok (by simp [Out.bind])
  | ok r =>
    obtain ⟨h1, h2⟩ := r
    simp only [Out.bind, Out.ok.injEq, Prod.mk.injEq] at hok
    obtain ⟨f, f', hl, -⟩ := C12_voce_linear k hk (k.getEvolVals gdot)
    have hf : f = voceRate k.h0 k.tausi (voceSat k.taus0 k.gamss0 k.xms (∑ i, |gdot i|))
        (∑ i, |gdot i|) := by
      funext h
      have := C27_law k hk gdot h
      rw [hl] at this
      simpa using this
    rw [← hok.1]
    exact updateH1_near hS hl (hf ▸ voceRate_antitone hθ hγ) hdt hu (hf ▸ hz)

/-- a concrete softening and a concrete hardening case -/
example : ∃ z : ℝ, z - 5 = 2 * voceRate 1 1 3 1 z ∧ 3 ≤ z ∧ z < 5 := by
  refine ⟨4, ?_, by norm_num, by norm_num⟩
  unfold voceRate; norm_num

example : ∃ z : ℝ, z - 2 = 2 * voceRate 1 1 3 1 z ∧ 2 < z ∧ z < 3 := by
  refine ⟨5 / 2, ?_, by norm_num, by norm_num⟩
  unfold voceRate; norm_num

/-- sound solvers exist -/
example : (idealSolver 1).Sound := idealSolver_sound 1

/-! ### C31 dislocation density -/

/-- Kocks-Mecking evolution of the logarithm `y` of the density at slip rate `γ` -/
noncomputable def kmRate (k1 k2 γ y : ℝ) : ℝ := (k1 * Real.exp (-(1 / 2) * y) - k2) * γ

/-- recovery coefficient at slip rate `γ` (constant below 1e-90) -/
noncomputable def kmRecovery (k2o γ0 ninv γ : ℝ) : ℝ :=
  open Classical in if 1 / 10 ^ 90 < γ then k2o * (γ0 / γ) ^ ninv else k2o

theorem kmRate_antitone {k1 k2 γ : ℝ} (h1 : 0 ≤ k1) (hγ : 0 ≤ γ) : Antitone (kmRate k1 k2 γ) := by
  intro a b hab
  unfold kmRate
  apply mul_le_mul_of_nonneg_right _ hγ
  have : Real.exp (-(1 / 2) * b) ≤ Real.exp (-(1 / 2) * a) := Real.exp_le_exp.2 (by linarith)
  nlinarith

/-- C31 the updated density is positive, for any solver, inputs and parameters. -/
theorem C31_positive {nV n : ℕ} (k : KMBalD nV) (S : Solver 1) (hsO : Vec 1) (dt : ℝ)
    (gdot : Vec n) (h' : Vec 1) (m : ℕ) (hok : k.updateH S hsO dt gdot = .ok (h', m)) :
    0 < h' 0 := by
  unfold KMBalD.updateH at hok
  split_ifs at hok
  generalize hu : updateH1 S (k.getSdot1 (k.getEvolVals gdot))
    (Real.log (max (hsO 0) k.hdnMin)) dt = u at hok
  cases u with
  | fail _ => exact absurd hok (by simp [Out.bind])
  | undef _ => exact absurd hok (by simp [Out.bind])
  | ok r =>
    simp only [Out.bind, Out.ok.injEq, Prod.mk.injEq] at hok
    rw [← hok.1]
    exact Real.exp_pos _

/-- C31 the implicit equation for the logarithm of the density has exactly one solution; the density
    lies between the old one and the steady state `(k1/k2)²`; without slip it is the old one. -/
theorem C31_solution (k1 k2 γ rhoO dt : ℝ) (h1 : 0 < k1) (h2 : 0 < k2) (hγ : 0 ≤ γ) (hr : 0 < rhoO)
    (hdt : 0 ≤ dt) :
    (∃! y, y - Real.log rhoO = dt * kmRate k1 k2 γ y) ∧
    ∀ y, y - Real.log rhoO = dt * kmRate k1 k2 γ y →
      min rhoO ((k1 / k2) ^ 2) ≤ Real.exp y ∧ Real.exp y ≤ max rhoO ((k1 / k2) ^ 2) ∧
      (γ = 0 ∨ dt = 0 → Real.exp y = rhoO) := by
  have ha := kmRate_antitone (k2 := k2) h1.le hγ
  have hc : Continuous (kmRate k1 k2 γ) := by unfold kmRate; fun_prop
  constructor
  · obtain ⟨z, hz⟩ := backwardEuler_exists ha hc (hO := Real.log rhoO) hdt
    exact ⟨z, hz, fun y hy => backwardEuler_unique ha hdt hy hz⟩
  · intro y hy
    have hs : 0 < (k1 / k2) ^ 2 := by positivity
    have h0 : kmRate k1 k2 γ (Real.log ((k1 / k2) ^ 2)) = 0 := by
      have e : Real.exp (-(1 / 2) * Real.log ((k1 / k2) ^ 2)) = k2 / k1 := by
        rw [Real.log_pow]
        have : -(1 / 2) * (((2 : ℕ) : ℝ) * Real.log (k1 / k2)) = Real.log (k2 / k1) := by
          rw [show k2 / k1 = (k1 / k2)⁻¹ by rw [inv_div], Real.log_inv]; push_cast; ring
        rw [this, Real.exp_log (by positivity)]
      unfold kmRate
      rw [e]
      have : k1 * (k2 / k1) - k2 = 0 := by field_simp; ring
      rw [this, zero_mul]
    obtain ⟨b1, b2⟩ := backwardEuler_between ha hdt hy h0
    refine ⟨?_, ?_, ?_⟩
    · rcases min_le_iff.1 b1 with h | h
      · exact min_le_iff.2 (Or.inl (by rw [← Real.exp_log hr]; exact Real.exp_le_exp.2 h))
      · exact min_le_iff.2 (Or.inr (by
          rw [show (k1 / k2) ^ 2 = Real.exp (Real.log ((k1 / k2) ^ 2)) from (Real.exp_log hs).symm]
          exact Real.exp_le_exp.2 h))
    · rcases le_max_iff.1 b2 with h | h
      · exact le_max_iff.2 (Or.inl (by rw [← Real.exp_log hr]; exact Real.exp_le_exp.2 h))
      · exact le_max_iff.2 (Or.inr (by
          rw [show (k1 / k2) ^ 2 = Real.exp (Real.log ((k1 / k2) ^ 2)) from (Real.exp_log hs).symm]
          exact Real.exp_le_exp.2 h))
    · rintro (h | h)
      · rw [h] at hy; simp only [kmRate, mul_zero] at hy
        rw [show y = Real.log rhoO by linarith, Real.exp_log hr]
      · rw [h] at hy
        rw [show y = Real.log rhoO by linarith, Real.exp_log hr]

/-- C31 the stored density agrees with the exact solution for the old density (not smaller than the
    floor, 1e-4 of the initial density) up to the solver tolerance in the logarithm. -/
theorem C31_update {nV n : ℕ} (k : KMBalD nV) (h1 : 0 ≤ k.k1) (S : Solver 1) (hS : S.Sound)
    (hsO : Vec 1) (dt : ℝ) (hdt : 0 ≤ dt) (gdot : Vec n) (h' : Vec 1) (m : ℕ)
    (hok : k.updateH S hsO dt gdot = .ok (h', m)) (y : ℝ)
    (hy : y - Real.log (max (hsO 0) (k.hdnInit / 10 ^ 4)) = dt * kmRate k.k1
      (kmRecovery k.k2o k.gammaO k.ninv (∑ i, |gdot i|)) (∑ i, |gdot i|) y) :
    |Real.log (h' 0) - y| ≤
      1 / 10 ^ 10 * max (Real.log (max (hsO 0) (k.hdnInit / 10 ^ 4))) 1 := by
  have hm : k.hdnMin = k.hdnInit / 10 ^ 4 := by unfold KMBalD.hdnMin; norm_num; ring
  have hγ : 0 ≤ ∑ i, |gdot i| := Finset.sum_nonneg fun i _ => abs_nonneg _
  unfold KMBalD.updateH at hok
  split_ifs at hok
  rw [hm] at hok
  generalize hu : updateH1 S (k.getSdot1 (k.getEvolVals gdot))
    (Real.log (max (hsO 0) (k.hdnInit / 10 ^ 4))) dt = u at hok
  cases u with
  | fail _ => exact absurd hok (by simp [Out.bind])
  | undef _ => exact absurd hok (by simp [Out.bind])
  | ok r =>
    obtain ⟨r1, r2⟩ := r
    simp only [Out.bind, Out.ok.injEq, Prod.mk.injEq] at hok
    rw [← hok.1, Real.log_exp]
    exact updateH1_near hS
      (f := kmRate k.k1 (kmRecovery k.k2o k.gammaO k.ninv (∑ i, |gdot i|)) (∑ i, |gdot i|))
      (f' := fun h => -k.k1 * (1 / 2) * Real.exp (-(1 / 2) * h) * (∑ i, |gdot i|))
      (fun h => rfl) (kmRate_antitone h1 hγ) hdt hu hy

example : ∃ y : ℝ, y - Real.log 1 = 1 * kmRate 1 1 1 y ∧ Real.exp y = 1 := by
  refine ⟨0, ?_, Real.exp_zero⟩
  simp [kmRate]

/-- growth from a density of 1 with recovery too weak to balance: the steady state is 4 -/
example : min (1 : ℝ) ((2 / 1) ^ 2) = 1 ∧ max (1 : ℝ) ((2 / 1) ^ 2) = 4 := by norm_num

end Ecm.Props
