/- Property theorems C114: the tests of the hardening laws (test/test_hardening.cxx, test/test_aniso_hardening.cxx) count the
   evaluations of Newton's method. -/
import Verif.Lemmas.TestNewton

namespace Ecm.Props
open Ecm Spec Classical

/-! ### The objects of the tests -/

/-- the object of the law of the test -/
noncomputable def hardLaw (nl ns : Bool) : Voce := if ns then testVoceNS nl else testVoce nl

theorem hardRates_eq : hardRates = testGdot := by
  funext i
  unfold hardRates testGdot
  by_cases h : i = 0
  · subst h; rfl
  · have h' : ¬i.val = 0 := fun h' => h (Fin.ext h')
    rw [if_neg h, if_neg h']

/-- the parameters of the tests are accepted and give these objects -/
theorem C114_material_voce (nl ns : Bool) : Voce.setParams nl (hardVocePars nl ns) = .ok (hardLaw nl ns) := by
  cases nl <;> cases ns <;>
    [refine (Voce.setParams_lin 1 0.01 1 200e-5 100e-5 400e-5 0.05 1e-6 100e-5).trans (congrArg Out.ok ?_);
     refine (Voce.setParams_lin 1 0.01 1 200e-5 100e-5 100e-5 0 1e-6 100e-5).trans (congrArg Out.ok ?_);
     refine (Voce.setParams_nonlin 1 0.01 1 200e-5 100e-5 400e-5 2 0.05 1e-6 100e-5).trans (congrArg Out.ok ?_);
     refine (Voce.setParams_nonlin 1 0.01 1 200e-5 100e-5 100e-5 2 0 1e-6 100e-5).trans (congrArg Out.ok ?_)] <;>
    (simp only [hardLaw, testVoceNS, testVoce, Bool.false_eq_true, if_true, if_false]; norm_num)

/-- the parameters of the test with the density are accepted and give this object -/
theorem C114_material_density : KMBalD.setParams false false false false 1 hardKMPars = .ok testKM := by
  have e : hardKMPars = testKM.getParams := by
    simp [hardKMPars, KMBalD.getParams, testKM]
    norm_num
  rw [e]
  have := KMBalD.setParams_getParams testKM
  have f1 : testKM.withGA = false := rfl
  have f2 : testKM.pOne = false := rfl
  have f3 : testKM.qOne = false := rfl
  have f4 : testKM.perSS = false := rfl
  rw [f1, f2, f3, f4] at this
  rw [this]
  simp

/-- the parameters of the tests with one strength for each system are accepted and give these objects -/
theorem C114_material_aniso (nl ns : Bool) : AnisoVoce.setParams nl 12 (hardAnisoPars nl ns)
    = .ok ⟨{ hardLaw nl ns with tausi := 0 }, fun _ => 1 / 1000⟩ := by
  have hv : (fun i : Fin 12 => (![(100e-5 : ℝ), 100e-5, 100e-5, 100e-5, 100e-5, 100e-5, 100e-5, 100e-5, 100e-5, 100e-5, 100e-5,
      100e-5] : Vec 12) i) = fun _ => 1 / 1000 := by
    funext i
    fin_cases i <;> norm_num
  cases nl <;> cases ns <;>
    [refine (show _ = Out.ok (⟨⟨false, 1, 0.01, 1, 200e-5, 0, 400e-5, 1, 0.05, 1e-6, 100e-5⟩, _⟩ : AnisoVoce 12) from rfl).trans
       (congrArg Out.ok (congrArg₂ AnisoVoce.mk ?_ ?_));
     refine (show _ = Out.ok (⟨⟨false, 1, 0.01, 1, 200e-5, 0, 100e-5, 1, 0, 1e-6, 100e-5⟩, _⟩ : AnisoVoce 12) from rfl).trans
       (congrArg Out.ok (congrArg₂ AnisoVoce.mk ?_ ?_));
     refine (show _ = Out.ok (⟨⟨true, 1, 0.01, 1, 200e-5, 0, 400e-5, 2, 0.05, 1e-6, 100e-5⟩, _⟩ : AnisoVoce 12) from rfl).trans
       (congrArg Out.ok (congrArg₂ AnisoVoce.mk ?_ ?_));
     refine (show _ = Out.ok (⟨⟨true, 1, 0.01, 1, 200e-5, 0, 100e-5, 2, 0, 1e-6, 100e-5⟩, _⟩ : AnisoVoce 12) from rfl).trans
       (congrArg Out.ok (congrArg₂ AnisoVoce.mk ?_ ?_))] <;>
    first
    | exact hv
    | (simp only [hardLaw, testVoceNS, testVoce, Bool.false_eq_true, if_true, if_false]; norm_num)

/-! ### The equations of the tests -/

theorem hardLaw_init (nl ns : Bool) : (hardLaw nl ns).hdnInit = 1 / 1000 := by
  cases ns <;> norm_num [hardLaw, testVoceNS, testVoce]

theorem hardLaw_gamss0 (nl ns : Bool) : ¬(hardLaw nl ns).gamss0 ≤ 0 := by
  cases ns <;> norm_num [hardLaw, testVoceNS, testVoce]

theorem hardLaw_tausi (nl ns : Bool) : (hardLaw nl ns).tausi = 1 / 1000 := by
  cases ns <;> norm_num [hardLaw, testVoceNS, testVoce]

theorem uniform_one {law : Law1} {hO x s d : ℝ} (hO1 : hO ≤ 1) (h : law (hO + x) = some (s, d)) :
    Uniform (⟨law, hO, 1 / 10⟩ : H1Problem).problem x (x - s / 10) (1 - d / 10) := by
  have hm : max hO 1 = 1 := max_eq_right hO1
  unfold Uniform
  refine (problem_some (s := s) (d := d) ?_).trans (congrArg some (Prod.ext ?_ ?_))
  · simp only [H1Problem.xScale, hm, mul_one]; exact h
  · funext _
    simp only [H1Problem.resScale, H1Problem.xScale, hm, mul_one]
    ring
  · funext i j
    rw [Subsingleton.elim i j]
    show 1 - d * (1 / 10) = Matrix.diagonal (fun _ => 1 - d / 10) j j
    rw [Matrix.diagonal_apply_eq]
    ring

theorem uniform_many {k : Voce} {ev : ℝ × ℝ} {x s d : ℝ} (h : k.getSdot1 ev (1 / 1000 + x) = some (s, d)) :
    Uniform (⟨k.getSdotN (fun _ => k.tausi) ev, fun _ => 1 / 1000, 1 / 10⟩ : HNProblem 12).computeRJ x (x - s / 10) (1 - d / 10) := by
  have hm : max (1 / 1000 : ℝ) 1 = 1 := by norm_num
  have e : k.getSdotN (fun _ => k.tausi) ev (fun _ : Fin 12 => 1 / 1000 + x * max (1 / 1000) 1)
      = some (fun _ => s, fun i j => if i = j then d else 0) := by
    rw [hm, mul_one]
    exact getSdotN_const h
  unfold Uniform HNProblem.computeRJ
  simp only [HNProblem.resScale, HNProblem.xScale]
  rw [e, hm]
  refine congrArg some (Prod.ext ?_ ?_)
  · funext i
    show (x * 1 - s * (1 / 10)) * (1 / 1) = _
    ring
  · funext i j
    show (if i = j then d else 0) * (-1 * (1 / 1) * (1 / 10)) + (if i = j then 1 else 0) = Matrix.diagonal (fun _ => 1 - d / 10) i j
    by_cases hij : i = j
    · subst hij
      rw [Matrix.diagonal_apply_eq, if_pos rfl, if_pos rfl]
      ring
    · rw [Matrix.diagonal_apply_ne _ hij, if_neg hij, if_neg hij]
      ring

/-- what Newton's method has to solve in the test: the law as a residual and its derivative -/
def Solves (nl ns : Bool) (x f g : ℝ) : Prop :=
  ∃ s d, (hardLaw nl ns).getSdot1 ((hardLaw nl ns).getEvolVals testGdot) (1 / 1000 + x) = some (s, d) ∧
    x - s / 10 = f ∧ 1 - d / 10 = g

theorem solves_linear (x : ℝ) : Solves false false x (x - (1 - x / (testSat - 1 / 1000)) / 60000)
    (1 + 1 / (60000 * (testSat - 1 / 1000))) := by
  have h1 := testSat_bounds.1
  have hd : 0 < testSat - 1 / 1000 := by linarith
  refine ⟨_, _, by rw [show hardLaw false false = testVoce false from rfl, testVoce_evol]; exact testVoce_lin _, ?_, ?_⟩
  · rw [show testSat - (1 / 1000 + x) = (testSat - 1 / 1000) - x by ring, sub_div, div_self hd.ne']
    ring
  · generalize testSat - 1 / 1000 = w at *
    rw [one_div, one_div, mul_inv]
    ring

theorem solves_nonlinear {x : ℝ} (hx : x ≤ testSat - 1 / 1000) : Solves true false x (x - (1 - x / (testSat - 1 / 1000)) ^ 2 / 60000)
    (1 + (1 - x / (testSat - 1 / 1000)) / (30000 * (testSat - 1 / 1000))) := by
  have h1 := testSat_bounds.1
  have hd : 0 < testSat - 1 / 1000 := by linarith
  have ht : (testVoce true).tausi = 1 / 1000 := by norm_num [testVoce]
  have hh : (testVoce true).h0 = 1 / 500 := by norm_num [testVoce]
  have hp : (testVoce true).xmprime = 2 := rfl
  have hp1 : (testVoce true).xmprime1 = 1 := by norm_num [testVoce, Voce.xmprime1]
  have hn : (testVoce true).nonlinear = true := rfl
  have hb : (testSat - (1 / 1000 + x)) * (1 / (testSat - 1 / 1000)) = 1 - x / (testSat - 1 / 1000) := by
    rw [mul_one_div, show testSat - (1 / 1000 + x) = (testSat - 1 / 1000) - x by ring, sub_div, div_self hd.ne']
  have hb0 : 0 ≤ 1 - x / (testSat - 1 / 1000) := by
    rw [sub_nonneg, div_le_one hd]; exact hx
  refine ⟨1 / 6000 * (1 - x / (testSat - 1 / 1000)) ^ 2, -(1 - x / (testSat - 1 / 1000)) / (3000 * (testSat - 1 / 1000)), ?_, ?_, ?_⟩
  · rw [show hardLaw true false = testVoce true from rfl, testVoce_evol]
    simp only [Voce.getSdot1, hn, if_true, ht, hh, hp, hp1, if_neg (show ¬testSat ≤ 1 / 1000 by linarith), hb, Real.rpow_one]
    rw [if_pos]
    · congr 2
      · rw [mul_assoc, mul_assoc, ← mul_assoc (testSat - (1 / 1000 + x)), hb]
        ring
      · rw [one_div, div_eq_mul_inv _ (3000 * _), mul_inv]
        ring
    · rcases hb0.lt_or_eq with h | h
      · exact Or.inl h
      · exact Or.inr (Or.inl ⟨h.symm, by norm_num⟩)
  · ring
  · rw [div_eq_mul_inv _ (3000 * _), div_eq_mul_inv _ (30000 * _), mul_inv, mul_inv]
    ring

theorem solves_none (nl : Bool) (x : ℝ) : Solves nl true x x 1 := by
  have hsat : ((testVoceNS nl).getEvolVals testGdot).2 = (testVoceNS nl).tausi := by
    simp only [Voce.getEvolVals]
    split_ifs
    · simp [testVoceNS, testVoce]
    · rfl
  have h1 : (testVoceNS true).xmprime1 = 1 := by norm_num [testVoceNS, testVoce, Voce.xmprime1]
  refine ⟨0, 0, ?_, by ring, by ring⟩
  rw [show hardLaw nl true = testVoceNS nl from rfl]
  cases nl
  · have hn : (testVoceNS false).nonlinear = false := rfl
    simp only [Voce.getSdot1, hn, hsat, le_refl, if_true, mul_zero, zero_mul, Bool.false_eq_true, if_false]
  · have hn : (testVoceNS true).nonlinear = true := rfl
    simp only [Voce.getSdot1, hn, hsat, le_refl, if_true, mul_zero, zero_mul, h1]
    simp

/-! ### The tests with Newton's method -/

/-- the run of Newton's method in all six tests with the Voce law -/
theorem newton_hard {n : ℕ} (hn : 1 ≤ n) (hn4 : n ≤ 16) (nl ns : Bool) {F : Problem n}
    (hF : ∀ x f g, Solves nl ns x f g → Uniform F x f g) :
    ∃ y, newtonAfter 1 n F (1 / 10 ^ 10) 100 (fun _ => 0) = ⟨true, fun _ => y, fun _ => y, hardEvals nl ns⟩ ∧
      |1 / 1000 + y - hardVal nl ns| < hardTol ns := by
  obtain ⟨b1, b2⟩ := testSat_bounds
  have hd : 0 < testSat - 1 / 1000 := by linarith
  cases ns
  · cases nl
    · obtain ⟨y, hy, h0⟩ := newton_linear hn4 hd fun x => hF _ _ _ (solves_linear x)
      refine ⟨y, hy, ?_⟩
      obtain ⟨s, d, hs, he, -⟩ := solves_linear y
      have := C76_voce_linear.2 (1 / 1000 + y) s d hs (by
        have hi : (testVoce false).hdnInit = 1 / 1000 := by norm_num [testVoce]
        rw [hi]; rw [h0] at he; linarith)
      refine lt_of_lt_of_le (lt_of_eq_of_lt ?_ this) ?_
      · norm_num [hardVal, expLinear]
      · norm_num [hardTol]
    · obtain ⟨y, hy, hw, h0⟩ := newton_quadratic hn hn4 (w := testSat - 1 / 1000) (by linarith) (by linarith)
        fun x hx => hF _ _ _ (solves_nonlinear hx)
      refine ⟨y, hy, ?_⟩
      obtain ⟨z, s, d, hv, he, hz⟩ := testVoce_nl_solution
      have hq := C76_voce_nonlinear z s d hv he hz
      have hsat : satOf (testVoce true) testGdot = testSat := by
        have := testVoce_evol true
        rw [getEvolVals_eq] at this
        exact congrArg Prod.snd this
      rw [hsat] at hz
      obtain ⟨s', d', hs', he', -⟩ := solves_nonlinear (x := z - 1 / 1000) (by linarith)
      have hi : (testVoce true).hdnInit = 1 / 1000 := by norm_num [testVoce]
      rw [show (1 / 1000 : ℝ) + (z - 1 / 1000) = z by ring, show hardLaw true false = testVoce true from rfl, hv] at hs'
      obtain ⟨rfl, rfl⟩ := Prod.mk.inj (Option.some.inj hs')
      rw [hi] at he
      have hr : (z - 1 / 1000) - (1 - (z - 1 / 1000) / (testSat - 1 / 1000)) ^ 2 / 60000 = 0 := by linarith
      have hclose : |y - (z - 1 / 1000)| ≤ 1 / 10 ^ 18 := by
        have hmono : ∀ a b : ℝ, a ≤ b → b ≤ testSat - 1 / 1000 →
            (1 - b / (testSat - 1 / 1000)) ^ 2 ≤ (1 - a / (testSat - 1 / 1000)) ^ 2 := fun a b hab hb => by
          refine pow_le_pow_left₀ (by rw [sub_nonneg, div_le_one hd]; exact hb) ?_ 2
          linarith [div_le_div_of_nonneg_right hab hd.le]
        rw [abs_le] at h0 ⊢
        rcases le_total y (z - 1 / 1000) with h | h
        · have := hmono _ _ h (by linarith)
          constructor <;> linarith [h0.1]
        · have := hmono _ _ h hw
          constructor <;> linarith [h0.2]
      have e : hardVal true false = expNonlinear := by norm_num [hardVal, expNonlinear]
      have e' : hardTol false = 1 / 10 ^ 11 := by norm_num [hardTol]
      rw [e, e', abs_lt]
      rw [abs_le] at hclose
      rw [abs_lt] at hq
      norm_num at hclose hq ⊢
      constructor <;> linarith [hclose.1, hclose.2, hq.1, hq.2]
  · refine ⟨0, ?_, ?_⟩
    · have h0 := hF _ _ _ (solves_none nl 0)
      rw [newtonAfter_first h0 one_ne_zero (by simp)]
      have e : (fun _ : Fin n => -((0 : ℝ) / 1)) = fun _ => 0 := by simp
      rw [e]
      exact newtonRun_stop h0 (by simp) 99 1
    · norm_num [hardVal, hardTol]

/-- C114 with one strength: Newton's method that takes a step before it looks at the residual passes the tests with the Voce law,
    linear and nonlinear, with and without strengthening.  It evaluates the equation exactly as often as the test expects. -/
theorem C114_voce (nl ns : Bool) : ∃ o, hardVoce nl ns (newtonAfter 1 1) = .ok o ∧
    HardPasses 0 (hardEvals nl ns) (hardVal nl ns) (hardTol ns) o := by
  obtain ⟨y, hy, hv⟩ := newton_hard (n := 1) le_rfl (by norm_num) nl ns
    (F := (⟨(hardLaw nl ns).getSdot1 ((hardLaw nl ns).getEvolVals testGdot), 1 / 1000, 1 / 10⟩ : H1Problem).problem)
    (by
      rintro x f g ⟨s, d, h, rfl, rfl⟩
      exact uniform_one (by norm_num) h)
  have hm : max (1 / 1000 : ℝ) 1 = 1 := by norm_num
  refine ⟨(fun _ => 1 / 1000 + y, hardEvals nl ns), ?_, rfl, hv⟩
  unfold hardVoce
  rw [C114_material_voce, hardRates_eq, show (1e-1 : ℝ) = 1 / 10 by norm_num]
  simp only [Out.bind]
  unfold Voce.updateH
  rw [if_neg (hardLaw_gamss0 nl ns)]
  have hi : ((hardLaw nl ns).histInfo.map HistEntry.init).getD (0 : Fin 1).val 0 = 1 / 1000 := hardLaw_init nl ns
  simp only [hi]
  unfold updateH1
  simp only [hy, if_true, Out.bind, H1Problem.getHn, H1Problem.xScale, hm, mul_one]

/-- C114 with one strength for each system: the same, and every entry has the expected value, not only the last one, which is the
    one that the test looks at. -/
theorem C114_aniso (nl ns : Bool) : ∃ o, hardAniso nl ns (newtonAfter 1 12) = .ok o ∧
    ∀ i, HardPasses i (hardEvals nl ns) (hardVal nl ns) (hardTol ns) o := by
  obtain ⟨y, hy, hv⟩ := newton_hard (n := 12) (by norm_num) (by norm_num) nl ns
    (F := (⟨(hardLaw nl ns).getSdotN (fun _ => (hardLaw nl ns).tausi) ((hardLaw nl ns).getEvolVals testGdot), fun _ => 1 / 1000,
      1 / 10⟩ : HNProblem 12).computeRJ)
    (by
      rintro x f g ⟨s, d, h, rfl, rfl⟩
      exact uniform_many h)
  have hm : max (1 / 1000 : ℝ) 1 = 1 := by norm_num
  refine ⟨(fun _ => 1 / 1000 + y, hardEvals nl ns), ?_, fun _ => ⟨rfl, hv⟩⟩
  unfold hardAniso
  rw [C114_material_aniso, hardRates_eq, show (1e-1 : ℝ) = 1 / 10 by norm_num]
  simp only [Out.bind]
  unfold AnisoVoce.updateH
  rw [if_neg (hardLaw_gamss0 nl ns)]
  have hi : ((⟨{ hardLaw nl ns with tausi := 0 }, fun _ => 1 / 1000⟩ : AnisoVoce 12).histInfo.map HistEntry.init).getD 0 0
      = 1 / 1000 := hardLaw_init nl ns
  rw [hi]
  rw [hardLaw_tausi] at hy
  show updateHN (newtonAfter 1 12) ((hardLaw nl ns).getSdotN (fun _ => 1 / 1000) ((hardLaw nl ns).getEvolVals testGdot))
    (fun _ => 1 / 1000) (1 / 10) = _
  unfold updateHN
  simp only [hy, if_true]
  refine congrArg Out.ok (Prod.ext ?_ rfl)
  funext i
  show 1 / 1000 + y * max (1 / 1000) 1 = 1 / 1000 + y
  rw [hm, mul_one]

/-- C114 with the dislocation density: the same with five evaluations. -/
theorem C114_density : ∃ o, hardKM (newtonAfter 1 1) = .ok o ∧ HardPasses 0 5 hardKMVal 1e-8 o := by
  obtain ⟨r1, r2⟩ := root2
  have hlog : Real.log (25 / 100) < 0 := Real.log_neg (by norm_num) (by norm_num)
  have he : ∀ x : ℝ, Real.exp (-(1 / 2) * (Real.log (25 / 100) + x)) = 2 * Real.exp (-(x / 2)) := fun x => by
    rw [show -(1 / 2) * (Real.log (25 / 100) + x) = Real.log 2 + -(x / 2) from ?_, Real.exp_add, Real.exp_log (by norm_num)]
    rw [show (25 / 100 : ℝ) = (2 ^ 2)⁻¹ by norm_num, Real.log_inv, Real.log_pow]
    push_cast
    ring
  obtain ⟨y, hy⟩ := newton_density (F := (⟨testKM.getSdot1 (1 / 12, 10 * (12 / 10 ^ 6 : ℝ) ^ ((1 : ℝ) / (20 : ℕ))),
      Real.log (25 / 100), 1 / 10⟩ : H1Problem).problem) (r := (12 / 10 ^ 6 : ℝ) ^ ((1 : ℝ) / (20 : ℕ))) (by linarith) (by linarith)
    (by
      intro x
      have h := uniform_one (hO := Real.log (25 / 100)) (x := x) (by linarith)
        (show testKM.getSdot1 (1 / 12, 10 * (12 / 10 ^ 6 : ℝ) ^ ((1 : ℝ) / (20 : ℕ))) (Real.log (25 / 100) + x) = some (_, _) from rfl)
      convert h using 1
      · simp only [testKM, he, kmR]
        ring
      · simp only [testKM, he, kmS]
        ring)
  have hmax : max testKM.hdnInit testKM.hdnMin = 25 / 100 := by
    unfold KMBalD.hdnMin testKM; norm_num
  have hup : ∃ h', testKM.updateH (newtonAfter 1 1) (fun _ => testKM.hdnInit) (1 / 10) testGdot = .ok (h', 5) := by
    unfold KMBalD.updateH
    rw [if_neg (by norm_num [testKM]), hmax, if_neg (by norm_num), testKM_evol]
    unfold updateH1
    simp only [hy, if_true]
    exact ⟨_, rfl⟩
  obtain ⟨h', hh⟩ := hup
  refine ⟨(h', 5), ?_, rfl, ?_⟩
  · unfold hardKM
    rw [C114_material_density, hardRates_eq, show (1e-1 : ℝ) = 1 / 10 by norm_num]
    rw [← hh]
    simp only [Out.bind]
    congr 1
    funext i
    rw [Subsingleton.elim i 0]
    rfl
  · have := C76_density _ (newtonAfter_sound 1 1) h' 5 hh
    have e : hardKMVal = expKM := by norm_num [hardKMVal, expKM]
    rw [e]
    exact this.trans (by norm_num)

/-- C114 the count is part of the contract that these tests ask for: Newton's method that looks at the residual first stops after
    one evaluation where there is no strengthening, finds the same strength and fails the test. -/
theorem C114_refuted_first (nl : Bool) : ∃ o, hardVoce nl true (newtonSolver 1 1) = .ok o ∧ o.2 = 1 ∧ |o.1 0 - hardVal nl true| = 0 ∧
    ¬HardPasses 0 (hardEvals nl true) (hardVal nl true) (hardTol true) o := by
  have hm : max (1 / 1000 : ℝ) 1 = 1 := by norm_num
  have hy : newtonSolver 1 1 (⟨(hardLaw nl true).getSdot1 ((hardLaw nl true).getEvolVals testGdot), 1 / 1000, 1 / 10⟩ :
      H1Problem).problem (1 / 10 ^ 10) 100 (fun _ => 0) = ⟨true, fun _ => 0, fun _ => 0, 1⟩ := by
    obtain ⟨s, d, h, hf, hg⟩ := solves_none nl 0
    have := uniform_one (hO := 1 / 1000) (by norm_num) h
    rw [hf] at this
    exact newtonRun_stop this (by simp) 99 0
  refine ⟨(fun _ => 1 / 1000 + 0, 1), ?_, rfl, by norm_num [hardVal], fun h => ?_⟩
  · unfold hardVoce
    rw [C114_material_voce, hardRates_eq, show (1e-1 : ℝ) = 1 / 10 by norm_num]
    simp only [Out.bind]
    unfold Voce.updateH
    rw [if_neg (hardLaw_gamss0 nl true)]
    have hi : ((hardLaw nl true).histInfo.map HistEntry.init).getD (0 : Fin 1).val 0 = 1 / 1000 := hardLaw_init nl true
    simp only [hi]
    unfold updateH1
    simp only [hy, if_true, Out.bind, H1Problem.getHn, H1Problem.xScale, hm, mul_one]
  · have := h.1
    simp [hardEvals] at this

/-- C114 the contract of the solver does not suffice: a solver that keeps it may make the test fail by the tolerance. -/
theorem C114_refuted_contract : ∃ S : Solver 1, S.Sound ∧ ∃ o, hardVoce false false S = .ok o ∧
    ¬HardPasses 0 (hardEvals false false) (hardVal false false) (hardTol false) o := by
  obtain ⟨S, hS, h', m, h, hlt⟩ := C76_refuted_voce_tolerance
  refine ⟨S, hS, (h', m), ?_, fun hp => ?_⟩
  · unfold hardVoce
    rw [C114_material_voce, hardRates_eq, show (1e-1 : ℝ) = 1 / 10 by norm_num, ← h]
    simp only [Out.bind]
    congr 1
    funext i
    rw [Subsingleton.elim i 0]
    rfl
  · have := hp.2
    have e : hardVal false false = expLinear := by norm_num [hardVal, expLinear]
    have e' : hardTol false = 1 / 10 ^ 11 := by norm_num [hardTol]
    rw [e, e'] at this
    exact absurd this (not_lt.2 hlt.le)

theorem newtonRun_evals {n : ℕ} (δ : ℝ) (F : Problem n) (tol : ℝ) : ∀ k c x, c + 1 ≤ (newtonRun δ F tol (k + 1) c x).nFEvals := by
  intro k
  induction k with
  | zero =>
    intro c x
    rw [newtonRun]
    cases F x with
    | none => exact le_rfl
    | some a =>
      simp only
      split_ifs
      · exact le_rfl
      · exact le_rfl
      · exact le_rfl
  | succ k ih =>
    intro c x
    rw [newtonRun]
    cases F x with
    | none => exact le_rfl
    | some a =>
      simp only
      split_ifs
      · exact le_rfl
      · exact le_rfl
      · exact (Nat.le_succ _).trans (ih _ _)

/-- C114 what the count says about the derivative that the law returns: with the linear law and a derivative `g` of the residual
    the method stops after two evaluations exactly if the relative error of the derivative is at most 6e-6 (divided by the
    root of the number of strengths).  So the count is a test of the derivative, which the value alone is not. -/
theorem C114_derivative {n : ℕ} (hn4 : n ≤ 16) {F : Problem n} {g : ℝ} (hg : 1 / 2 ≤ g)
    (hF : ∀ x, Uniform F x (x - (1 - x / (testSat - 1 / 1000)) / 60000) g) :
    (newtonAfter 1 n F (1 / 10 ^ 10) 100 (fun _ => 0)).nFEvals = 2 ↔
      Real.sqrt n * |1 + 1 / (60000 * (testSat - 1 / 1000)) - g| ≤ 6 / 10 ^ 6 * g := by
  obtain ⟨b1, b2⟩ := testSat_bounds
  have hs := sqrt_small hn4
  have hs0 := Real.sqrt_nonneg (n : ℝ)
  have hg0 : 0 < g := by linarith
  set w := testSat - 1 / 1000 with hw
  have hd : 6 / 1000 ≤ w := by rw [hw]; linarith
  have hd0 : 0 < w := by linarith
  have hF0 := hF 0
  rw [zero_div, sub_zero, zero_sub] at hF0
  have hstep : Real.sqrt n * |-(1 / 60000) / g| ≤ 1 := by
    rw [neg_div, abs_neg, abs_of_nonneg (by positivity)]
    have : 1 / 60000 / g ≤ 1 / 4 := by rw [div_le_iff₀ hg0]; linarith
    calc _ ≤ 4 * (1 / 4 : ℝ) := mul_le_mul hs this (by positivity) (by norm_num)
      _ = 1 := by norm_num
  rw [newtonAfter_first hF0 hg0.ne' hstep]
  set G := 1 + 1 / (60000 * w) with hG
  have hGb : 0 < G ∧ G ≤ 2 := by
    have : 1 / (60000 * w) ≤ 1 := by rw [div_le_one (by positivity)]; linarith
    have h' : 0 < 1 / (60000 * w) := by positivity
    constructor <;> rw [hG] <;> linarith
  set x1 := -(-(1 / 60000) / g) with hx1
  have hr : x1 - (1 - x1 / w) / 60000 = (G - g) / (60000 * g) := by
    rw [hx1, hG]
    field_simp
    ring
  have hF1 := hF x1
  rw [hr] at hF1
  have habs : Real.sqrt n * |(G - g) / (60000 * g)| = Real.sqrt n * |G - g| / (60000 * g) := by
    rw [abs_div, abs_of_pos (by positivity : 0 < 60000 * g), mul_div_assoc]
  have hiff : Real.sqrt n * |(G - g) / (60000 * g)| ≤ 1 / 10 ^ 10 ↔ Real.sqrt n * |G - g| ≤ 6 / 10 ^ 6 * g := by
    rw [habs, div_le_iff₀ (by positivity)]
    constructor <;> intro h <;> linarith
  rw [← hiff]
  constructor
  · intro h
    by_contra hc
    push Not at hc
    have hst : Real.sqrt n * |(G - g) / (60000 * g) / g| ≤ 1 := by
      rw [abs_div, abs_div, abs_of_pos hg0, abs_of_pos (by positivity : 0 < 60000 * g)]
      have h1 : |G - g| ≤ 2 + g := by rw [abs_le]; constructor <;> linarith [hGb.1, hGb.2]
      have h2 : |G - g| / (60000 * g) ≤ 5 / 60000 := by
        rw [div_le_iff₀ (by positivity)]
        linarith
      have h3 : |G - g| / (60000 * g) / g ≤ 1 / 4 := by
        rw [div_le_iff₀ hg0]
        linarith
      calc _ ≤ 4 * (1 / 4 : ℝ) := mul_le_mul hs h3 (by positivity) (by norm_num)
        _ = 1 := by norm_num
    rw [newtonRun_step hF1 hg0.ne' hc hst 99 1] at h
    have := newtonRun_evals 1 F (1 / 10 ^ 10) 98 2 (fun _ => x1 - (G - g) / (60000 * g) / g)
    rw [show 98 + 1 = 99 from rfl, h] at this
    omega
  · intro h
    rw [newtonRun_stop hF1 h 99 1]

/-- with the derivative of the law the count is two, without it (`g = 1`) it is not -/
example : ∃ F G : Problem 1, (∀ x, Uniform F x (x - (1 - x / (testSat - 1 / 1000)) / 60000) (1 + 1 / (60000 * (testSat - 1 / 1000)))) ∧
    (newtonAfter 1 1 F (1 / 10 ^ 10) 100 (fun _ => 0)).nFEvals = 2 ∧
    (∀ x, Uniform G x (x - (1 - x / (testSat - 1 / 1000)) / 60000) 1) ∧
    (newtonAfter 1 1 G (1 / 10 ^ 10) 100 (fun _ => 0)).nFEvals ≠ 2 := by
  obtain ⟨b1, b2⟩ := testSat_bounds
  have hd : 0 < testSat - 1 / 1000 := by linarith
  have h0 : 0 < 1 / (60000 * (testSat - 1 / 1000)) := by positivity
  have hF : ∀ g x, Uniform (n := 1) (fun v => some (fun _ => v 0 - (1 - v 0 / (testSat - 1 / 1000)) / 60000, Matrix.diagonal fun _ => g)) x
    (x - (1 - x / (testSat - 1 / 1000)) / 60000) g := fun g x => rfl
  refine ⟨_, _, hF _, (C114_derivative (by norm_num) (by linarith) (hF _)).2 ?_, hF 1, fun h => ?_⟩
  · rw [sub_self, abs_zero, mul_zero]
    linarith
  · have h1 := (C114_derivative (by norm_num) (by norm_num) (hF 1)).1 h
    rw [add_sub_cancel_left, abs_of_pos h0] at h1
    have : 1 / (60000 * (7 / 1000 : ℝ)) ≤ 1 / (60000 * (testSat - 1 / 1000)) :=
      one_div_le_one_div_of_le (by positivity) (by linarith)
    norm_num at this h1
    linarith

/-- an equation of the kind that Newton's method meets in the tests -/
example : Solves false true 0 0 1 ∧ Solves false false 0 (-(1 / 60000)) (1 + 1 / (60000 * (testSat - 1 / 1000))) := by
  refine ⟨solves_none false 0, ?_⟩
  have := solves_linear 0
  norm_num at this ⊢
  exact this

end Ecm.Props
