/- Property theorem C76: the expected values of the unit tests of the hardening laws
   (test/test_hardening.cxx, test/test_aniso_hardening.cxx). -/
import Verif.Lemmas.Numeric
import Verif.Props.Units
import Verif.Props.VoceNonlinear

namespace Ecm.Props
open Ecm Spec

/-- test/test_hardening.cxx:22: `double gdot[nslip] = { 1.0 / nslip }` sets the first entry, the others are
    zero -/
noncomputable def testGdot : Vec 12 := fun i => if i = 0 then 1 / 12 else 0

/-- test/setup_kin_VocePL.h:8-13, 41-45, and with `KIN_NONLINEAR` 24-28 -/
noncomputable def testVoce (nl : Bool) : Voce where
  nonlinear := nl
  mu := 1
  xm := 1 / 100
  gamW := 1
  h0 := 200 / 10 ^ 5
  tausi := 100 / 10 ^ 5
  taus0 := 400 / 10 ^ 5
  xmprime := if nl then 2 else 1
  xms := 5 / 100
  gamss0 := 1 / 10 ^ 6
  hdnInit := 100 / 10 ^ 5

/-- test/setup_kin_VocePL_NS.h:8-9 -/
noncomputable def testVoceNS (nl : Bool) : Voce := { testVoce nl with taus0 := 100 / 10 ^ 5, xms := 0 }

/-- test/setup_kin_KMBalD_FFF.h with Kin_KMBalD_FFF (src/ecmech/ECMech_cases.h) -/
noncomputable def testKM : KMBalD 1 where
  withGA := false
  pOne := false
  qOne := false
  perSS := false
  muRef := 1
  tKRef := 300
  c1 := fun _ => 20000
  tauA := 4 / 1000
  p := 28 / 100
  q := 134 / 100
  gamWo := 20
  gamRo := 1000
  wrD := 2 / 100
  go := fun _ => 10 / 10 ^ 5
  s := fun _ => 5 / 10 ^ 5
  k1 := 100
  k2o := 10
  ninv := 5 / 100
  gammaO := 1 / 10 ^ 6
  hdnInit := 25 / 100

/-- test/test_hardening.cxx:16 -/
noncomputable def expLinear : ℝ := 1016620868315 / 10 ^ 15
/-- test/test_hardening.cxx:14 -/
noncomputable def expNonlinear : ℝ := 1016575445448 / 10 ^ 15
/-- test/test_hardening.cxx:96 -/
noncomputable def expKM : ℝ := 6633659171982 / 10 ^ 13

theorem testGdot_sum : vecsssumabs testGdot = 1 / 12 := by
  unfold vecsssumabs testGdot
  rw [Finset.sum_eq_single 0] <;> simp +contextual

theorem root1 : (17621421425637 / 10 ^ 13 : ℝ) ≤ (250000 / 3 : ℝ) ^ ((1 : ℝ) / (20 : ℕ)) ∧
    (250000 / 3 : ℝ) ^ ((1 : ℝ) / (20 : ℕ)) ≤ 17621421425638 / 10 ^ 13 := by
  apply root_between <;> norm_num

theorem root2 : (5674911097382186 / 10 ^ 16 : ℝ) ≤ (12 / 10 ^ 6 : ℝ) ^ ((1 : ℝ) / (20 : ℕ)) ∧
    (12 / 10 ^ 6 : ℝ) ^ ((1 : ℝ) / (20 : ℕ)) ≤ 5674911097382187 / 10 ^ 16 := by
  apply root_between <;> norm_num

/-- the saturation strength in the test -/
noncomputable def testSat : ℝ := 400 / 10 ^ 5 * (250000 / 3 : ℝ) ^ ((1 : ℝ) / (20 : ℕ))

theorem testSat_bounds : (70485685702548 / 10 ^ 16 : ℝ) ≤ testSat ∧ testSat ≤ 70485685702552 / 10 ^ 16 := by
  unfold testSat
  obtain ⟨h1, h2⟩ := root1
  constructor <;> linarith

theorem testVoce_evol (nl : Bool) : (testVoce nl).getEvolVals testGdot = (1 / 12, testSat) := by
  simp only [Voce.getEvolVals, testGdot_sum]
  rw [if_pos (by unfold idpTinySqrt; norm_num)]
  simp only [testVoce, testSat]
  norm_num

theorem lin_law (k : Voce) (hk : k.nonlinear = false) {γ sat : ℝ} (hs : k.tausi < sat) (h : ℝ) :
    k.getSdot1 (γ, sat) h = some (k.h0 * ((sat - h) * (1 / (sat - k.tausi))) * γ,
      -k.h0 * (1 / (sat - k.tausi)) * γ) := by
  simp only [Voce.getSdot1, hk, Bool.false_eq_true, if_false]
  rw [if_neg (not_le.2 hs)]

/-- the linear law in the test -/
theorem testVoce_lin (h : ℝ) : (testVoce false).getSdot1 (1 / 12, testSat) h
    = some ((testSat - h) / (testSat - 1 / 1000) / 6000, -(1 / (testSat - 1 / 1000)) / 6000) := by
  have hs := testSat_bounds.1
  have ht : (testVoce false).tausi = 1 / 1000 := by norm_num [testVoce]
  have hh : (testVoce false).h0 = 1 / 500 := by norm_num [testVoce]
  rw [lin_law _ rfl (by rw [ht]; linarith), ht, hh]
  congr 2 <;> ring

/-- the nonlinear law in the test, up to the saturation strength -/
theorem testVoce_nl {h : ℝ} (hh : h ≤ testSat) : ((testVoce true).getSdot1 (1 / 12, testSat) h).map Prod.fst
    = some (((testSat - h) / (testSat - 1 / 1000)) ^ 2 / 6000) := by
  have hs := testSat_bounds.1
  have hd : 0 < testSat - 1 / 1000 := by linarith
  have ht : (testVoce true).tausi = 1 / 1000 := by norm_num [testVoce]
  have hb : 0 ≤ (testSat - h) * (1 / (testSat - (testVoce true).tausi)) := by
    rw [ht]; exact mul_nonneg (by linarith) (one_div_nonneg.2 hd.le)
  rw [nl_law (testVoce true) rfl (by rw [ht]; linarith)]
  · rw [ht]
    simp only [testVoce]
    norm_num
    ring
  · rcases hb.lt_or_eq with h1 | h1
    · exact Or.inl h1
    · exact Or.inr (Or.inl ⟨h1.symm, by norm_num [testVoce]⟩)

/-- C76 linear Voce hardening: the only strength solving the equation of the step differs from the expected
    value by less than 1e-15. -/
theorem C76_voce_linear :
    (∃ z s d, (testVoce false).getSdot1 ((testVoce false).getEvolVals testGdot) z = some (s, d) ∧
      z - (testVoce false).hdnInit = 1 / 10 * s) ∧
    ∀ z s d, (testVoce false).getSdot1 ((testVoce false).getEvolVals testGdot) z = some (s, d) →
      z - (testVoce false).hdnInit = 1 / 10 * s → |z - expLinear| < 1 / 10 ^ 15 := by
  obtain ⟨h1, h2⟩ := testSat_bounds
  have hd : 0 < testSat - 1 / 1000 := by linarith
  rw [testVoce_evol]
  have hi : (testVoce false).hdnInit = 1 / 1000 := by norm_num [testVoce]
  simp only [testVoce_lin, hi]
  constructor
  · refine ⟨(1 / 1000 * (testSat - 1 / 1000) + 1 / 60000 * testSat) / (testSat - 1 / 1000 + 1 / 60000), _, _, rfl, ?_⟩
    have h3 : testSat - 1 / 1000 + 1 / 60000 ≠ 0 := by linarith
    have e : testSat = (testSat - 1 / 1000) + 1 / 1000 := by ring
    generalize testSat - 1 / 1000 = u at *
    rw [e]
    have hu := hd.ne'
    have h4 : u * 60000 + 1 ≠ 0 := by linarith
    field_simp
    ring
  · intro z s d e hz
    simp only [Option.some.injEq, Prod.mk.injEq] at e
    rw [← e.1] at hz
    have hq : (z - 1 / 1000) * (testSat - 1 / 1000) = (testSat - z) / 60000 := by
      rw [hz]
      have hu := hd.ne'
      generalize testSat - 1 / 1000 = u at *
      field_simp; ring
    unfold expLinear
    rw [abs_lt]
    generalize testSat = t at *
    constructor
    · by_contra hc
      push Not at hc
      nlinarith
    · by_contra hc
      push Not at hc
      nlinarith

/-- C76 nonlinear Voce hardening: the only strength up to the saturation strength that solves the equation
    of the step differs from the expected value by less than 1e-15. -/
theorem C76_voce_nonlinear (z s d : ℝ)
    (hs : (testVoce true).getSdot1 ((testVoce true).getEvolVals testGdot) z = some (s, d))
    (hz : z - (testVoce true).hdnInit = 1 / 10 * s) (hle : z ≤ satOf (testVoce true) testGdot) :
    |z - expNonlinear| < 1 / 10 ^ 15 := by
  obtain ⟨h1, h2⟩ := testSat_bounds
  have hd : 0 < testSat - 1 / 1000 := by linarith
  have hsat : satOf (testVoce true) testGdot = testSat := by
    have := testVoce_evol true
    rw [getEvolVals_eq] at this
    exact congrArg Prod.snd this
  rw [testVoce_evol] at hs
  rw [hsat] at hle
  have hi : (testVoce true).hdnInit = 1 / 1000 := by norm_num [testVoce]
  have e := testVoce_nl hle
  rw [hs] at e
  simp only [Option.map_some, Option.some.injEq] at e
  rw [hi, e] at hz
  have hq : (z - 1 / 1000) * (testSat - 1 / 1000) ^ 2 = (testSat - z) ^ 2 / 60000 := by
    rw [hz]
    have hu := hd.ne'
    generalize testSat - 1 / 1000 = u at *
    field_simp; ring
  unfold expNonlinear
  rw [abs_lt]
  generalize testSat = t at *
  constructor
  · by_contra hc
    push Not at hc
    have a : (z - 1 / 1000) * (t - 1 / 1000) ^ 2 ≤ (1016575445448 / 10 ^ 15 - 1 / 10 ^ 15 - 1 / 1000) * (t - 1 / 1000) ^ 2 :=
      mul_le_mul_of_nonneg_right (by linarith) (sq_nonneg _)
    have b : (t - (1016575445448 / 10 ^ 15 - 1 / 10 ^ 15)) ^ 2 ≤ (t - z) ^ 2 := by
      apply pow_le_pow_left₀ <;> linarith
    nlinarith
  · by_contra hc
    push Not at hc
    have a : (1016575445448 / 10 ^ 15 + 1 / 10 ^ 15 - 1 / 1000) * (t - 1 / 1000) ^ 2 ≤ (z - 1 / 1000) * (t - 1 / 1000) ^ 2 :=
      mul_le_mul_of_nonneg_right (by linarith) (sq_nonneg _)
    have b : (t - z) ^ 2 ≤ (t - (1016575445448 / 10 ^ 15 + 1 / 10 ^ 15)) ^ 2 := by
      apply pow_le_pow_left₀ <;> linarith
    nlinarith

/-- C76 the same values for one strength per slip system (test/test_aniso_hardening.cxx): linear law. -/
theorem C76_voce_per_system (h s : Vec 12) (D : Mat 12 12)
    (hs : (testVoce false).getSdotN (fun _ => (testVoce false).tausi) ((testVoce false).getEvolVals testGdot) h
      = some (s, D))
    (hz : ∀ i, h i - (testVoce false).hdnInit = 1 / 10 * s i) : ∀ i, |h i - expLinear| < 1 / 10 ^ 15 := by
  intro i
  unfold Voce.getSdotN at hs
  split_ifs at hs with hc
  have hsi := congrArg (fun p : Vec 12 × Mat 12 12 => p.1 i) (Option.some.inj hs)
  have e : (testVoce false).getSdot1 ((testVoce false).getEvolVals testGdot) (h i) =
      some (((testVoce false).getSdot1 ((testVoce false).getEvolVals testGdot) (h i)).getD (0, 0)) := by
    have h1 := hc i
    obtain ⟨v, hv⟩ := Option.ne_none_iff_exists'.1 h1
    have hv' : (testVoce false).getSdot1 ((testVoce false).getEvolVals testGdot) (h i) = some v := hv
    rw [hv']; rfl
  refine C76_voce_linear.2 (h i) _ _ e ?_
  rw [hz i]
  exact congrArg (fun y => 1 / 10 * y) hsi.symm

/-- C76 the same for the nonlinear law. -/
theorem C76_voce_per_system_nonlinear (h s : Vec 12) (D : Mat 12 12)
    (hs : (testVoce true).getSdotN (fun _ => (testVoce true).tausi) ((testVoce true).getEvolVals testGdot) h
      = some (s, D))
    (hz : ∀ i, h i - (testVoce true).hdnInit = 1 / 10 * s i)
    (hle : ∀ i, h i ≤ satOf (testVoce true) testGdot) : ∀ i, |h i - expNonlinear| < 1 / 10 ^ 15 := by
  intro i
  unfold Voce.getSdotN at hs
  split_ifs at hs with hc
  have hsi := congrArg (fun p : Vec 12 × Mat 12 12 => p.1 i) (Option.some.inj hs)
  have e : (testVoce true).getSdot1 ((testVoce true).getEvolVals testGdot) (h i) =
      some (((testVoce true).getSdot1 ((testVoce true).getEvolVals testGdot) (h i)).getD (0, 0)) := by
    have h1 := hc i
    obtain ⟨v, hv⟩ := Option.ne_none_iff_exists'.1 h1
    have hv' : (testVoce true).getSdot1 ((testVoce true).getEvolVals testGdot) (h i) = some v := hv
    rw [hv']; rfl
  refine C76_voce_nonlinear (h i) _ _ e ?_ (hle i)
  rw [hz i]
  exact congrArg (fun y => 1 / 10 * y) hsi.symm

/-- C76 equal initial and saturation strength (test hard_voce_nostr): the only solution of the equation of the
    step is the expected value, the initial strength. -/
theorem C76_voce_no_strengthening (nl : Bool) (z s d : ℝ)
    (hs : (testVoceNS nl).getSdot1 ((testVoceNS nl).getEvolVals testGdot) z = some (s, d))
    (hz : z - (testVoceNS nl).hdnInit = 1 / 10 * s) : z = 1 / 1000 := by
  have hi : (testVoceNS nl).hdnInit = 1 / 1000 := by norm_num [testVoceNS, testVoce]
  have hsat : ((testVoceNS nl).getEvolVals testGdot).2 = (testVoceNS nl).tausi := by
    simp only [Voce.getEvolVals]
    split_ifs
    · simp [testVoceNS, testVoce]
    · rfl
  have h0 : s = 0 := by
    unfold Voce.getSdot1 at hs
    simp only [hsat, le_refl, if_true, mul_zero, zero_mul] at hs
    by_cases hn : (testVoceNS nl).nonlinear = true
    · simp only [hn, if_true, Option.ite_none_right_eq_some] at hs
      exact (congrArg Prod.fst (Option.some.inj hs.2)).symm
    · rw [if_neg hn] at hs
      exact (congrArg Prod.fst (Option.some.inj hs)).symm
  rw [hi, h0] at hz
  linarith

/-- the half difference of the logarithms of the expected and the initial density -/
noncomputable def kmHalf : ℝ := 48793291569310330 / 10 ^ 17

theorem kmHalf_exp : |Real.exp kmHalf - 1628945569622606 / 10 ^ 15| ≤ 1 / 10 ^ 14 := by
  have h := exp_taylor (x := kmHalf) (by unfold kmHalf; rw [abs_of_nonneg] <;> norm_num)
  have e : |kmHalf| = kmHalf := abs_of_nonneg (by unfold kmHalf; norm_num)
  rw [e] at h
  unfold kmHalf at h ⊢
  simp only [Finset.sum_range_succ, Finset.sum_range_zero, Nat.factorial] at h
  norm_num at h
  rw [abs_le] at h ⊢
  constructor <;> norm_num <;> linarith [h.1, h.2]

theorem testKM_evol : testKM.getEvolVals testGdot
    = (1 / 12, 10 * (12 / 10 ^ 6 : ℝ) ^ ((1 : ℝ) / (20 : ℕ))) := by
  simp only [KMBalD.getEvolVals, testGdot_sum]
  rw [if_pos (by unfold idpTinySqrt; norm_num)]
  simp only [testKM]
  norm_num

/-- the residual of the density update in the test -/
noncomputable def kmG (h : ℝ) : ℝ := h - Real.log (25 / 100) -
  (100 * Real.exp (-(1 / 2) * h) - 10 * (12 / 10 ^ 6 : ℝ) ^ ((1 : ℝ) / (20 : ℕ))) / 120

theorem kmG_expand (a b : ℝ) : |a - b| ≤ |kmG a - kmG b| := by
  rcases le_total a b with h | h
  · have : Real.exp (-(1 / 2) * b) ≤ Real.exp (-(1 / 2) * a) := Real.exp_le_exp.2 (by linarith)
    rw [abs_of_nonpos (by linarith), abs_of_nonpos] <;> unfold kmG <;> linarith
  · have : Real.exp (-(1 / 2) * a) ≤ Real.exp (-(1 / 2) * b) := Real.exp_le_exp.2 (by linarith)
    rw [abs_of_nonneg (by linarith), abs_of_nonneg] <;> unfold kmG <;> linarith

theorem kmG_zero : |kmG (Real.log (25 / 100) + 2 * kmHalf)| ≤ 1 / 10 ^ 13 := by
  have hE := kmHalf_exp
  have hr := root2
  have e1 : Real.exp (-(1 / 2) * (Real.log (25 / 100) + 2 * kmHalf)) = 2 / Real.exp kmHalf := by
    rw [show -(1 / 2) * (Real.log (25 / 100) + 2 * kmHalf) = Real.log 2 - kmHalf from ?_, Real.exp_sub,
      Real.exp_log (by norm_num)]
    rw [show (25 / 100 : ℝ) = (2 ^ 2)⁻¹ by norm_num, Real.log_inv, Real.log_pow]
    push_cast
    ring
  unfold kmG
  rw [e1]
  generalize (12 / 10 ^ 6 : ℝ) ^ ((1 : ℝ) / (20 : ℕ)) = r at *
  rw [abs_le] at hE
  have hp := Real.exp_pos kmHalf
  generalize Real.exp kmHalf = E at *
  have h1 : 2 / E ≤ 2 / (1628945569622606 / 10 ^ 15 - 1 / 10 ^ 14) := by
    apply div_le_div_of_nonneg_left <;> linarith
  have h2 : 2 / (1628945569622606 / 10 ^ 15 + 1 / 10 ^ 14) ≤ 2 / E := by
    apply div_le_div_of_nonneg_left <;> linarith
  generalize 2 / E = F at *
  norm_num at h1 h2
  unfold kmHalf
  rw [abs_le]
  constructor <;> linarith [hr.1, hr.2]

/-- C76 dislocation density: with any solver that keeps its contract, the updated density differs from the
    expected value by less than 1e-10, so the test (tolerance 1e-8) passes. -/
theorem C76_density (S : Solver 1) (hS : S.Sound) (h' : Vec 1) (m : ℕ)
    (hok : testKM.updateH S (fun _ => testKM.hdnInit) (1 / 10) testGdot = .ok (h', m)) :
    |h' 0 - expKM| < 1 / 10 ^ 10 := by
  have hmax : max testKM.hdnInit testKM.hdnMin = 25 / 100 := by
    unfold KMBalD.hdnMin testKM; norm_num
  unfold KMBalD.updateH at hok
  rw [if_neg (by norm_num [testKM]), hmax, if_neg (by norm_num), testKM_evol] at hok
  cases hu : updateH1 S (testKM.getSdot1 (1 / 12, 10 * (12 / 10 ^ 6 : ℝ) ^ ((1 : ℝ) / (20 : ℕ))))
      (Real.log (25 / 100)) (1 / 10) with
  | undef w => rw [hu] at hok; cases hok
  | fail s => rw [hu] at hok; cases hok
  | ok r =>
    obtain ⟨u, k⟩ := r
    rw [hu] at hok
    have hh : h' 0 = Real.exp u := by
      have := Out.ok.inj hok
      exact (congrFun (congrArg Prod.fst this) 0).symm
    obtain ⟨x, r, J, hx, hP, hr⟩ := updateH1_ok hS hu
    have hlog : Real.log (25 / 100) < 0 := Real.log_neg (by norm_num) (by norm_num)
    have hm1 : max (Real.log (25 / 100)) 1 = 1 := max_eq_right (by linarith)
    rw [H1Problem.computeRJ_some rfl] at hP
    simp only [Option.some.injEq, Prod.mk.injEq, H1Problem.resScale, H1Problem.xScale] at hP
    rw [hm1] at hx hP
    have hg : kmG u = r := by
      rw [← hP.1, hx]
      unfold kmG
      simp only [testKM, mul_one]
      ring
    have hd := kmG_expand u (Real.log (25 / 100) + 2 * kmHalf)
    rw [hg] at hd
    have hd2 : |u - (Real.log (25 / 100) + 2 * kmHalf)| ≤ 1 / 10 ^ 10 + 1 / 10 ^ 13 := by
      refine hd.trans ((abs_sub _ _).trans ?_)
      linarith [kmG_zero]
    have he : Real.exp u = Real.exp kmHalf ^ 2 / 4 * Real.exp (u - (Real.log (25 / 100) + 2 * kmHalf)) := by
      have h4 : (25 / 100 : ℝ) = Real.exp (Real.log (25 / 100)) := (Real.exp_log (by norm_num)).symm
      rw [show Real.exp kmHalf ^ 2 / 4 = Real.exp kmHalf ^ 2 * (25 / 100) by norm_num; ring]
      conv_rhs => rw [h4]
      rw [← Real.exp_nat_mul, ← Real.exp_add, ← Real.exp_add, Real.log_exp]
      congr 1
      push_cast
      ring
    have hE := kmHalf_exp
    have hδ : |Real.exp (u - (Real.log (25 / 100) + 2 * kmHalf)) - 1| ≤ 101 / 10 ^ 12 := by
      have h5 := Real.abs_exp_sub_one_sub_id_le (x := u - (Real.log (25 / 100) + 2 * kmHalf))
        (hd2.trans (by norm_num))
      generalize u - (Real.log (25 / 100) + 2 * kmHalf) = δ at *
      have h6 : δ ^ 2 ≤ 1 / 10 ^ 15 := by
        rw [← sq_abs]
        nlinarith [abs_nonneg δ]
      have h7 := abs_add_le (Real.exp δ - 1 - δ) δ
      rw [show Real.exp δ - 1 - δ + δ = Real.exp δ - 1 by ring] at h7
      linarith
    rw [hh, he]
    unfold expKM
    generalize Real.exp (u - (Real.log (25 / 100) + 2 * kmHalf)) = F at *
    generalize Real.exp kmHalf = E at *
    rw [abs_le] at hE hδ
    rw [abs_lt]
    have hE1 : (66336591719827 / 10 ^ 14 : ℝ) ≤ E ^ 2 / 4 := by nlinarith [hE.1, hE.2]
    have hE2 : E ^ 2 / 4 ≤ 66336591719829 / 10 ^ 14 := by nlinarith [hE.1, hE.2]
    generalize E ^ 2 / 4 = Q at *
    constructor <;> nlinarith [hδ.1, hδ.2]

/-- what a sound solver's result for the linear law satisfies, in terms of the residual -/
theorem testVoce_update {S : Solver 1} (hS : S.Sound) {h' : Vec 1} {m : ℕ}
    (hok : (testVoce false).updateH S (fun _ => (testVoce false).hdnInit) (1 / 10) testGdot = .ok (h', m)) :
    |(h' 0 - 1 / 1000) - (testSat - h' 0) / (testSat - 1 / 1000) / 60000| ≤ 1 / 10 ^ 10 := by
  have hi : (testVoce false).hdnInit = 1 / 1000 := by norm_num [testVoce]
  unfold Voce.updateH at hok
  rw [if_neg (by norm_num [testVoce]), hi, testVoce_evol] at hok
  cases hu : updateH1 S ((testVoce false).getSdot1 (1 / 12, testSat)) (1 / 1000) (1 / 10) with
  | undef w => rw [hu] at hok; cases hok
  | fail s => rw [hu] at hok; cases hok
  | ok r =>
    obtain ⟨u, k⟩ := r
    rw [hu] at hok
    have hh : h' 0 = u := (congrFun (congrArg Prod.fst (Out.ok.inj hok)) 0).symm
    obtain ⟨x, r, J, hx, hP, hr⟩ := updateH1_ok hS hu
    have hm1 : max (1 / 1000 : ℝ) 1 = 1 := by norm_num
    rw [H1Problem.computeRJ_some (testVoce_lin _)] at hP
    simp only [Option.some.injEq, Prod.mk.injEq, H1Problem.resScale, H1Problem.xScale] at hP
    rw [hm1] at hx hP
    rw [hh, hx]
    refine le_trans (le_of_eq ?_) hr
    rw [← hP.1]
    congr 1
    simp only [mul_one]
    ring

/-- C76 linear Voce hardening: a solver that keeps its contract gives the expected value to 1.01e-10, ten
    times the tolerance of the test. -/
theorem C76_voce_update (S : Solver 1) (hS : S.Sound) (h' : Vec 1) (m : ℕ)
    (hok : (testVoce false).updateH S (fun _ => (testVoce false).hdnInit) (1 / 10) testGdot = .ok (h', m)) :
    |h' 0 - expLinear| < 101 / 10 ^ 12 := by
  have hr := testVoce_update hS hok
  obtain ⟨h1, h2⟩ := testSat_bounds
  have hd : 0 < testSat - 1 / 1000 := by linarith
  have hq : |(h' 0 - 1 / 1000) * (testSat - 1 / 1000) - (testSat - h' 0) / 60000|
      ≤ 1 / 10 ^ 10 * (testSat - 1 / 1000) := by
    have e : (h' 0 - 1 / 1000) * (testSat - 1 / 1000) - (testSat - h' 0) / 60000
        = ((h' 0 - 1 / 1000) - (testSat - h' 0) / (testSat - 1 / 1000) / 60000) * (testSat - 1 / 1000) := by
      have hu := hd.ne'
      generalize testSat - 1 / 1000 = u at *
      field_simp
    rw [e, abs_mul, abs_of_pos hd]
    exact mul_le_mul_of_nonneg_right hr hd.le
  unfold expLinear
  rw [abs_le] at hq
  rw [abs_lt]
  generalize testSat = t at *
  generalize h' 0 = z at *
  constructor
  · by_contra hc
    push Not at hc
    nlinarith [hq.1, hq.2]
  · by_contra hc
    push Not at hc
    nlinarith [hq.1, hq.2]

theorem problem_some {P : H1Problem} {x s d : ℝ} (h : P.law (P.hO + x * P.xScale) = some (s, d)) :
    P.problem (fun _ => x) = some (fun _ => (x * P.xScale - s * P.dt) * P.resScale, fun _ _ => 1 - d * P.dt) := by
  unfold H1Problem.problem
  rw [H1Problem.computeRJ_some h]
  rfl

/-- C76 refuted for the tolerance of the Voce test: a solver may keep its contract, report success and still
    miss the expected value by more than the 1e-11 which the test allows, because the tolerance handed to the
    solver is an absolute 1e-10 for strengths below one. -/
theorem C76_refuted_voce_tolerance :
    ∃ S : Solver 1, S.Sound ∧ ∃ h' m,
      (testVoce false).updateH S (fun _ => (testVoce false).hdnInit) (1 / 10) testGdot = .ok (h', m) ∧
      1 / 10 ^ 11 < |h' 0 - expLinear| := by
  obtain ⟨h1, h2⟩ := testSat_bounds
  have hd : 0 < testSat - 1 / 1000 := by linarith
  set x : ℝ := 16620868315 / 10 ^ 15 + 5 / 10 ^ 11 with hx
  have hi : (testVoce false).hdnInit = 1 / 1000 := by norm_num [testVoce]
  have hm1 : max (1 / 1000 : ℝ) 1 = 1 := by norm_num
  refine ⟨tryAt fun _ => x, tryAt_sound _, fun _ => 1 / 1000 + x * 1, 1, ?_, ?_⟩
  · unfold Voce.updateH
    rw [if_neg (by norm_num [testVoce]), hi, testVoce_evol]
    obtain ⟨J, hJ⟩ : ∃ J, (⟨(testVoce false).getSdot1 (1 / 12, testSat), 1 / 1000, 1 / 10⟩ : H1Problem).problem
        (fun _ => x) = some (fun _ => x - (testSat - (1 / 1000 + x)) / (testSat - 1 / 1000) / 60000, J) := by
      refine ⟨_, (problem_some (testVoce_lin _)).trans (congrArg some (Prod.ext ?_ rfl))⟩
      funext _
      simp only [H1Problem.resScale, H1Problem.xScale, hm1, mul_one]
      ring
    unfold updateH1 tryAt
    simp only [probe, hJ, vecNorm_one]
    rw [if_pos]
    · simp only [Out.bind, H1Problem.getHn, H1Problem.xScale, hm1]
    · rw [decide_eq_true_eq, abs_le]
      have hq : (testSat - (1 / 1000 + x)) / (testSat - 1 / 1000) = 1 - x / (testSat - 1 / 1000) := by
        have hu := hd.ne'
        have e : testSat - (1 / 1000 + x) = (testSat - 1 / 1000) - x := by ring
        rw [e, sub_div, div_self hu]
      rw [hq]
      have hb1 : x / (testSat - 1 / 1000) ≤ x / (60485685702548 / 10 ^ 16) := by
        apply div_le_div_of_nonneg_left <;> first | (rw [hx]; norm_num) | linarith
      have hb2 : x / (60485685702552 / 10 ^ 16) ≤ x / (testSat - 1 / 1000) := by
        apply div_le_div_of_nonneg_left <;> first | (rw [hx]; norm_num) | linarith
      generalize x / (testSat - 1 / 1000) = y at *
      rw [hx] at hb1 hb2 ⊢
      norm_num at hb1 hb2 ⊢
      constructor <;> linarith
  · show 1 / 10 ^ 11 < |1 / 1000 + x * 1 - expLinear|
    unfold expLinear
    rw [hx, lt_abs]
    left
    norm_num

/-- the hypotheses of C76_density can be met -/
theorem testKM_ok : ∃ h' m, testKM.updateH (tryAt fun _ => 2 * kmHalf) (fun _ => testKM.hdnInit) (1 / 10) testGdot
    = .ok (h', m) := by
  have hmax : max testKM.hdnInit testKM.hdnMin = 25 / 100 := by
    unfold KMBalD.hdnMin testKM; norm_num
  have hlog : Real.log (25 / 100) < 0 := Real.log_neg (by norm_num) (by norm_num)
  have hm1 : max (Real.log (25 / 100)) 1 = 1 := max_eq_right (by linarith)
  unfold KMBalD.updateH
  rw [if_neg (by norm_num [testKM]), hmax, if_neg (by norm_num), testKM_evol]
  obtain ⟨J, hJ⟩ : ∃ J, (⟨testKM.getSdot1 (1 / 12, 10 * (12 / 10 ^ 6 : ℝ) ^ ((1 : ℝ) / (20 : ℕ))),
      Real.log (25 / 100), 1 / 10⟩ : H1Problem).problem (fun _ => 2 * kmHalf)
        = some (fun _ => kmG (Real.log (25 / 100) + 2 * kmHalf), J) := by
    refine ⟨_, (problem_some rfl).trans (congrArg some (Prod.ext ?_ rfl))⟩
    funext _
    unfold kmG
    simp only [H1Problem.resScale, H1Problem.xScale, hm1, mul_one, testKM]
    ring
  unfold updateH1 tryAt
  simp only [probe, hJ, vecNorm_one]
  rw [if_pos]
  · exact ⟨_, _, rfl⟩
  · rw [decide_eq_true_eq]
    exact kmG_zero.trans (by norm_num)

example : ∃ S : Solver 1, S.Sound ∧ ∃ h' m,
    testKM.updateH S (fun _ => testKM.hdnInit) (1 / 10) testGdot = .ok (h', m) :=
  ⟨_, tryAt_sound _, testKM_ok⟩

/-- the hypotheses of C76_voce_update can be met -/
example : ∃ S : Solver 1, S.Sound ∧ ∃ h' m,
    (testVoce false).updateH S (fun _ => (testVoce false).hdnInit) (1 / 10) testGdot = .ok (h', m) :=
  let ⟨S, hS, h', m, h, _⟩ := C76_refuted_voce_tolerance
  ⟨S, hS, h', m, h⟩

/-- the hypotheses of C76_voce_nonlinear and of C76_voce_per_system_nonlinear can be met -/
theorem testVoce_nl_solution : ∃ z s d,
    (testVoce true).getSdot1 ((testVoce true).getEvolVals testGdot) z = some (s, d) ∧
      z - (testVoce true).hdnInit = 1 / 10 * s ∧ z ≤ satOf (testVoce true) testGdot := by
  obtain ⟨h1, -⟩ := testSat_bounds
  have hsat : satOf (testVoce true) testGdot = testSat := by
    have := testVoce_evol true
    rw [getEvolVals_eq] at this
    exact congrArg Prod.snd this
  have hi : (testVoce true).hdnInit = 1 / 1000 := by norm_num [testVoce]
  have hS := C63_solution (200 / 10 ^ 5) (1 / 1000) testSat 2 (1 / 12) (1 / 1000) (1 / 10) (by norm_num)
    (by norm_num) (by norm_num) (by norm_num) (by linarith) (by linarith)
  obtain ⟨z, ⟨hz, he⟩, -⟩ := hS.1
  have e := testVoce_nl hz
  rw [← testVoce_evol] at e
  obtain ⟨⟨s, d⟩, hv, hs⟩ := Option.map_eq_some_iff.1 e
  refine ⟨z, s, d, hv, ?_, by rw [hsat]; exact hz⟩
  simp only at hs
  rw [hi, he, hs]
  unfold voceRateNL
  rw [if_neg (by linarith), Real.rpow_two]
  ring

/-- equal strengths of all systems -/
theorem getSdotN_const {k : Voce} {evol : ℝ × ℝ} {z s d : ℝ} (hv : k.getSdot1 evol z = some (s, d)) :
    k.getSdotN (fun _ : Fin 12 => k.tausi) evol (fun _ => z) = some (fun _ => s, fun i j => if i = j then d else 0) := by
  have hv' : ∀ i : Fin 12, ({ k with tausi := (fun _ : Fin 12 => k.tausi) i } : Voce).getSdot1 evol z
      = some (s, d) := fun _ => hv
  unfold Voce.getSdotN
  rw [if_pos fun i => by rw [hv' i]; simp]
  show some ((fun _ => ((k.getSdot1 evol z).getD (0, 0)).1 : Vec 12),
    (fun i j => if i = j then ((k.getSdot1 evol z).getD (0, 0)).2 else 0 : Mat 12 12)) = _
  rw [hv]
  rfl

example : ∃ (h s : Vec 12) (D : Mat 12 12),
    (testVoce true).getSdotN (fun _ => (testVoce true).tausi) ((testVoce true).getEvolVals testGdot) h
      = some (s, D) ∧ (∀ i, h i - (testVoce true).hdnInit = 1 / 10 * s i) ∧
    ∀ i, h i ≤ satOf (testVoce true) testGdot := by
  obtain ⟨z, s, d, hv, he, hz⟩ := testVoce_nl_solution
  exact ⟨fun _ => z, _, _, getSdotN_const hv, fun _ => he, fun _ => hz⟩

example : ∃ (h s : Vec 12) (D : Mat 12 12),
    (testVoce false).getSdotN (fun _ => (testVoce false).tausi) ((testVoce false).getEvolVals testGdot) h
      = some (s, D) ∧ ∀ i, h i - (testVoce false).hdnInit = 1 / 10 * s i := by
  obtain ⟨z, s, d, hv, he⟩ := C76_voce_linear.1
  exact ⟨fun _ => z, _, _, getSdotN_const hv, fun _ => he⟩

/-- the hypotheses of C76_voce_no_strengthening can be met -/
example : ∃ s d, (testVoceNS false).getSdot1 ((testVoceNS false).getEvolVals testGdot) (1 / 1000) = some (s, d) ∧
    1 / 1000 - (testVoceNS false).hdnInit = 1 / 10 * s := by
  have hi : (testVoceNS false).hdnInit = 1 / 1000 := by norm_num [testVoceNS, testVoce]
  have hsat : ((testVoceNS false).getEvolVals testGdot).2 = (testVoceNS false).tausi := by
    simp only [Voce.getEvolVals]
    split_ifs
    · simp [testVoceNS, testVoce]
    · rfl
  have hn : (testVoceNS false).nonlinear = false := rfl
  refine ⟨0, 0, ?_, by rw [hi]; ring⟩
  simp only [Voce.getSdot1, hn, hsat, le_refl, if_true, mul_zero, zero_mul, Bool.false_eq_true, if_false]

end Ecm.Props
