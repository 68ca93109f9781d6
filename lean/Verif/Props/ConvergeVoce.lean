/- Property theorems C73 (continued): convergence for the power law with saturation hardening
   (src/ecmech/ECMech_kinetics_VocePL.h). -/
import Verif.Props.Converge
import Verif.Lemmas.Steady
import Verif.Props.Hardening
import Verif.Props.Voce
import Mathlib.Analysis.SpecialFunctions.Pow.Deriv

namespace Ecm.Props
open Ecm Spec Matrix

variable {n nH : ℕ}

theorem _root_.Ecm.BL.lipOn {Z : Type*} [PseudoMetricSpace Z] {f : Z → ℝ} {S : Set Z} (h : BL S f) : LipOn f S := by
  obtain ⟨C, h0, -, h2⟩ := h
  exact ⟨⟨C, h0⟩, LipschitzOnWith.of_dist_le_mul fun z hz z' hz' => by
    rw [Real.dist_eq]; exact h2 z hz z' hz'⟩

/-- a power with exponent at least one is Lipschitz on bounded sets -/
theorem rpow_lip {p M x y : ℝ} (hp : 1 ≤ p) (hx : 0 ≤ x) (hy : 0 ≤ y) (hxM : x ≤ M) (hyM : y ≤ M) :
    |x ^ p - y ^ p| ≤ p * M ^ (p - 1) * |x - y| := by
  have hM : 0 ≤ M := hx.trans hxM
  have := (convex_Icc (0 : ℝ) M).norm_image_sub_le_of_norm_hasDerivWithin_le (f := fun x : ℝ => x ^ p)
    (f' := fun x => p * x ^ (p - 1)) (C := p * M ^ (p - 1))
    (fun z _ => (Real.hasDerivAt_rpow_const (Or.inr hp)).hasDerivWithinAt)
    (fun z hz => by
      rw [Real.norm_eq_abs, abs_mul, abs_of_nonneg (by linarith), abs_of_nonneg (Real.rpow_nonneg hz.1 _)]
      exact mul_le_mul_of_nonneg_left (Real.rpow_le_rpow hz.1 hz.2 (by linarith)) (by linarith))
    (⟨hy, hyM⟩ : y ∈ Set.Icc 0 M) (⟨hx, hxM⟩ : x ∈ Set.Icc 0 M)
  simpa [Real.norm_eq_abs] using this

/-- signed power -/
noncomputable def signPow (p x : ℝ) : ℝ := if 0 ≤ x then x ^ p else -(-x) ^ p

theorem signPow_lip {p M x y : ℝ} (hp : 1 ≤ p) (hx : |x| ≤ M) (hy : |y| ≤ M) :
    |signPow p x - signPow p y| ≤ p * M ^ (p - 1) * |x - y| := by
  have hz : (0:ℝ) ^ p = 0 := Real.zero_rpow (by linarith)
  have hx' := abs_le.1 hx
  have hy' := abs_le.1 hy
  have hM : 0 ≤ M := (abs_nonneg _).trans hx
  unfold signPow
  split_ifs with h1 h2 h2
  · exact rpow_lip hp h1 h2 hx'.2 hy'.2
  · push Not at h2
    have a1 := rpow_lip (M := M) hp h1 le_rfl hx'.2 hM
    have a2 := rpow_lip (M := M) (x := -y) hp (by linarith) le_rfl (by linarith) hM
    rw [hz, sub_zero, sub_zero, abs_of_nonneg h1, abs_of_nonneg (Real.rpow_nonneg h1 _)] at a1
    rw [hz, sub_zero, sub_zero, abs_of_nonneg (by linarith : 0 ≤ -y), abs_of_nonneg (Real.rpow_nonneg (by linarith) _)] at a2
    rw [abs_of_nonneg (by linarith : 0 ≤ x - y), abs_of_nonneg (by
      have := Real.rpow_nonneg h1 p
      have := Real.rpow_nonneg (by linarith : 0 ≤ -y) p
      linarith)]
    linarith
  · push Not at h1
    have a1 := rpow_lip (M := M) hp h2 le_rfl hy'.2 hM
    have a2 := rpow_lip (M := M) (x := -x) hp (by linarith) le_rfl (by linarith) hM
    rw [hz, sub_zero, sub_zero, abs_of_nonneg h2, abs_of_nonneg (Real.rpow_nonneg h2 _)] at a1
    rw [hz, sub_zero, sub_zero, abs_of_nonneg (by linarith : 0 ≤ -x), abs_of_nonneg (Real.rpow_nonneg (by linarith) _)] at a2
    rw [abs_of_nonpos (by linarith : x - y ≤ 0), abs_of_nonpos (by
      have := Real.rpow_nonneg h2 p
      have := Real.rpow_nonneg (by linarith : 0 ≤ -x) p
      linarith)]
    linarith
  · push Not at h1 h2
    have := rpow_lip (M := M) (x := -x) (y := -y) hp (by linarith) (by linarith) (by linarith) (by linarith)
    rw [show -(-x) ^ p - -(-y) ^ p = -((-x) ^ p - (-y) ^ p) by ring, abs_neg]
    refine this.trans (le_of_eq ?_)
    rw [show -x - -y = -(x - y) by ring, abs_neg]

theorem powLaw_eq_signPow (k : Voce) {g : ℝ} (hg : 0 < g) (τ : ℝ) :
    k.powLaw g τ = k.gamW * signPow k.xnn (τ / g) := by
  unfold Voce.powLaw signPow
  have : 0 ≤ τ / g ↔ 0 ≤ τ := by
    rw [le_div_iff₀ hg, zero_mul]
  simp only [this]
  split_ifs
  · rfl
  · rw [neg_div]; ring

/-- strengths between two positive bounds -/
def strengths (gmin gmax : ℝ) : Set (Vec 1) := {h | gmin ≤ h 0 ∧ h 0 ≤ gmax}

theorem strengths_bounded (gmin gmax : ℝ) : Bornology.IsBounded (strengths gmin gmax) := by
  refine (Metric.isBounded_Icc (fun _ : Fin 1 => gmin) (fun _ => gmax)).subset fun h hh => ⟨fun i => ?_, fun i => ?_⟩
  · rw [Subsingleton.elim i 0]; exact hh.1
  · rw [Subsingleton.elim i 0]; exact hh.2

/-- the power law in stress and strength -/
noncomputable def powerLaw (k : Voce) (n : ℕ) : Fin n → ℝ → Vec 1 → ℝ := fun _ τ h => k.powLaw (h 0) τ

/-- saturation hardening with a constant saturation strength -/
noncomputable def saturation (k : Voce) (n : ℕ) : Vec 1 → Vec n → Vec 1 :=
  fun h γ _ => voceRate k.h0 k.tausi k.taus0 (∑ i, |γ i|) (h 0)

theorem powerLaw_lip (k : Voce) (hm : 0 < k.xm) (hm1 : k.xm ≤ 1) {gmin gmax : ℝ} (hg : 0 < gmin) (i : Fin n)
    (b : ℝ) : LipOn (fun p : ℝ × Vec 1 => powerLaw k n i p.1 p.2) {p | |p.1| ≤ b ∧ p.2 ∈ strengths gmin gmax} := by
  set S : Set (ℝ × Vec 1) := {p | |p.1| ≤ b ∧ p.2 ∈ strengths gmin gmax} with hS
  have hp : 1 ≤ k.xnn := by unfold Voce.xnn; rw [le_div_iff₀ hm]; linarith
  have h1 : BL S fun p => p.1 := by
    refine ⟨max b 1, zero_le_one.trans (le_max_right _ _), fun p hp => hp.1.trans (le_max_left _ _),
      fun p _ p' _ => ?_⟩
    rw [← Real.dist_eq]
    refine le_trans ?_ (le_mul_of_one_le_left dist_nonneg (le_max_right _ _))
    rw [Prod.dist_eq]; exact le_max_left _ _
  have h2 : BL S fun p => p.2 0 := by
    refine ⟨max gmax 1, zero_le_one.trans (le_max_right _ _), fun p hp => ?_,
      fun p _ p' _ => ?_⟩
    · have := hp.2.1
      rw [abs_of_pos (hg.trans_le hp.2.1)]
      exact hp.2.2.trans (le_max_left _ _)
    · rw [← Real.dist_eq]
      refine le_trans ?_ (le_mul_of_one_le_left dist_nonneg (le_max_right _ _))
      rw [Prod.dist_eq]; exact (dist_le_pi_dist _ _ 0).trans (le_max_right _ _)
  have h3 : BL S fun p => p.1 * (1 / p.2 0) := h1.mul (h2.inv hg fun p hp => hp.2.1)
  obtain ⟨C, C0, c1, c2⟩ := h3
  refine ⟨⟨|k.gamW| * (k.xnn * C ^ (k.xnn - 1) * C), by positivity⟩,
    LipschitzOnWith.of_dist_le_mul fun p hp1 p' hp2 => ?_⟩
  rw [Real.dist_eq]
  show |k.powLaw (p.2 0) p.1 - k.powLaw (p'.2 0) p'.1| ≤ _
  rw [powLaw_eq_signPow k (hg.trans_le hp1.2.1), powLaw_eq_signPow k (hg.trans_le hp2.2.1), ← mul_sub, abs_mul,
    div_eq_mul_one_div, div_eq_mul_one_div p'.1]
  have h4 := signPow_lip hp (c1 p hp1) (c1 p' hp2)
  have h5 := c2 p hp1 p' hp2
  show _ ≤ |k.gamW| * (k.xnn * C ^ (k.xnn - 1) * C) * dist p p'
  rw [mul_assoc]
  refine mul_le_mul_of_nonneg_left (h4.trans ?_) (abs_nonneg _)
  rw [mul_assoc (k.xnn * C ^ (k.xnn - 1))]
  exact mul_le_mul_of_nonneg_left h5 (by positivity)

theorem saturation_lip (k : Voce) {gmin gmax : ℝ} (hg : 0 < gmin) (i : Fin 1) (b : ℝ) :
    LipOn (fun p : Vec 1 × Vec n => saturation k n p.1 p.2 i)
      {p | p.1 ∈ strengths gmin gmax ∧ ∀ s, |p.2 s| ≤ b} := by
  refine BL.lipOn ?_
  have h2 : BL {p : Vec 1 × Vec n | p.1 ∈ strengths gmin gmax ∧ ∀ s, |p.2 s| ≤ b} fun p => p.1 0 := by
    refine ⟨max gmax 1, zero_le_one.trans (le_max_right _ _), fun p hp => ?_,
      fun p _ p' _ => ?_⟩
    · rw [abs_of_pos (hg.trans_le hp.1.1)]
      exact hp.1.2.trans (le_max_left _ _)
    · rw [← Real.dist_eq]
      refine le_trans ?_ (le_mul_of_one_le_left dist_nonneg (le_max_right _ _))
      rw [Prod.dist_eq]; exact (dist_le_pi_dist _ _ 0).trans (le_max_left _ _)
  have h3 : ∀ s, BL {p : Vec 1 × Vec n | p.1 ∈ strengths gmin gmax ∧ ∀ s, |p.2 s| ≤ b} fun p => |p.2 s| := by
    intro s
    refine ⟨max b 1, zero_le_one.trans (le_max_right _ _), fun p hp => ?_,
      fun p _ p' _ => ?_⟩
    · rw [abs_abs]; exact (hp.2 s).trans (le_max_left _ _)
    · refine (abs_abs_sub_abs_le_abs_sub _ _).trans ?_
      rw [← Real.dist_eq]
      refine le_trans ?_ (le_mul_of_one_le_left dist_nonneg (le_max_right _ _))
      rw [Prod.dist_eq]; exact (dist_le_pi_dist _ _ s).trans (le_max_right _ _)
  unfold saturation voceRate
  split_ifs
  · exact BL.const 0
  · exact ((BL.const _).mul (((BL.const _).sub h2).mul (BL.const _))).mul (BL.sum _ h3)

/-- the slip rates of the code follow the power law to within 1e-60 reference rates as long as the
    resolved shear stress stays below the overflow threshold -/
theorem powerLaw_within (k : Voce) (hm : 0 < k.xm) (hw : 0 < k.gamW) (S : Solver 1) {gmin gmax b : ℝ}
    (hg : 0 < gmin) (hb : b ≤ k.tMax * gmin) :
    LawWithin (k.kin S n) (powerLaw k n) (strengths gmin gmax) b (1 / 10 ^ 60 * k.gamW) := by
  intro p T h v sc hv hh s τ hτ
  have hp := hg.trans_le hh.1
  have e : v = h 0 := by
    have : (if 0 < h 0 then (Out.ok ((h 0 : ℝ), (h 0 : ℝ)) : Out (ℝ × ℝ)) else _) = .ok (v, sc) := hv
    rw [if_pos hp] at this
    exact (Prod.mk.inj (Out.ok.inj this)).1.symm
  rw [e]
  refine k.powLaw_close hm hw hp ?_
  rw [div_le_iff₀ hp]
  have h1 := mul_le_mul_of_nonneg_left hh.1 (show 0 ≤ k.tMax from Real.rpow_nonneg (by unfold gamRatioOvf; norm_num) _)
  linarith

/-- the hardening update is a backward Euler step of saturation hardening to within the tolerance of its
    solver -/
theorem saturation_within (k : Voce) (hk : k.nonlinear = false) (hx : k.xms = 0) (S : Solver 1)
    (hS : S.Sound) {gmin gmax : ℝ} (hg : 1 ≤ gmax) :
    HardenWithin (k.kin S n) (saturation k n) (strengths gmin gmax) (gmax / 10 ^ 10) := by
  intro h dt γ h' c hdt hh hok i
  rw [Subsingleton.elim i 0]
  have hok : k.updateH S h dt γ = .ok (h', c) := hok
  unfold Voce.updateH at hok
  split_ifs at hok
  generalize hu : updateH1 S (k.getSdot1 (k.getEvolVals γ)) (h 0) dt = u at hok
  cases u with
  | fail _ => exact absurd hok (by simp [Out.bind])
  | undef _ => exact absurd hok (by simp [Out.bind])
  | ok r =>
    obtain ⟨h1, c1⟩ := r
    simp only [Out.bind, Out.ok.injEq, Prod.mk.injEq] at hok
    obtain ⟨x, r, J, e1, e2, e3⟩ := updateH1_ok hS hu
    have hlaw := C27_law k hk γ h1
    simp only [Option.map_eq_some_iff] at hlaw
    obtain ⟨⟨f, d⟩, hl1, hl2⟩ := hlaw
    have hsat : voceSat k.taus0 k.gamss0 k.xms (∑ i, |γ i|) = k.taus0 := by
      unfold voceSat; split_ifs <;> simp [hx]
    rw [hsat] at hl2
    rw [H1Problem.computeRJ_some (s := f) (d := d)] at e2
    · have e4 : (x * max (h 0) 1 - f * dt) * (1 / max (h 0) 1) = r :=
        congrArg Prod.fst (Option.some.inj e2)
      have hM : 0 < max (h 0) 1 := lt_of_lt_of_le one_pos (le_max_right _ _)
      have hMg : max (h 0) 1 ≤ gmax := max_le hh.2 hg
      have e5 : h' 0 - h 0 - dt * saturation k n h' γ 0 = r * max (h 0) 1 := by
        rw [← e4, ← hok.1]
        show h1 - h 0 - dt * voceRate k.h0 k.tausi k.taus0 (∑ i, |γ i|) h1 = _
        rw [← hl2, e1]
        field_simp
        ring
      rw [e5, abs_mul, abs_of_pos hM]
      have := mul_le_mul e3 hMg hM.le (by positivity)
      linarith
    · show k.getSdot1 (k.getEvolVals γ) (h 0 + x * max (h 0) 1) = _
      rw [← e1]; exact hl1

/-- **C73, power law with saturation hardening.**  For cubic crystals with power-law kinetics of exponent at
    least one and hardening with a constant saturation strength, the updates converge with first order in
    the time step to the rate equations with the exact power law, up to the tolerances of the two solvers,
    as long as strains and strengths stay within bounds that keep the stress below the overflow threshold
    of the kinetics. -/
theorem C73_voce (k : Voce) (hk : k.nonlinear = false) (hx : k.xms = 0) (hm : 0 < k.xm) (hm1 : k.xm ≤ 1)
    (hw : 0 < k.gamW) (hw1 : k.gamW ≤ 10 ^ 60) {c11 c12 c44 : ℝ} {m s : Fin n → V3}
    (hms : ∀ i, dot (m i) (s i) = 0) {D : ℝ → T3} {w : ℝ → V3} {a : ℝ → ℝ} {T B b gmin gmax : ℝ} (hT : 0 < T)
    (hD : ∀ t ∈ Set.Icc 0 T, IsDev (D t)) (hD1 : ∀ i j, LipOn (fun t => D t i j) (Set.Icc 0 T))
    (hwl : ∀ i, LipOn (fun t => w t i) (Set.Icc 0 T)) (ha : LipOn a (Set.Icc 0 T))
    (ha0 : ∀ t ∈ Set.Icc 0 T, 0 < a t) (hg : 0 < gmin) (hg1 : 1 ≤ gmax) (hg2 : gmax ≤ 10 ^ 10)
    (hb : ShearAtMost (.cubic c11 c12 c44) m s a T B b) (hbt : b ≤ k.tMax * gmin) :
    ∃ C, 0 ≤ C ∧ ∃ N0 : ℕ, ∀ N ≥ N0, ∀ (S : Solver 1) (eos : Eos), S.Sound →
      ∀ tol δ : ℝ, 0 ≤ tol → tol ≤ 1 →
      ∀ t : Trajectory { geom := slipPQ m s, kin := k.kin S n, el := .cubic c11 c12 c44, eos := eos } N,
      Follows t D w a T tol → dot (histOf (t.m 0)).q (histOf (t.m 0)).q = 1 →
      (∀ i, (histOf (t.m 0)).gdot i = slipRates (.cubic c11 c12 c44) m s (powerLaw k n) (a 0)
        (vecdToSymm (histOf (t.m 0)).e) (histOf (t.m 0)).h i) →
      Within (histOf (t.m 0)) B (strengths gmin gmax) →
      (∀ k < N, Within (histOf (t.m' k)) B (strengths gmin gmax)) →
      ∀ E R h, CrystalMotion (.cubic c11 c12 c44) m s (powerLaw k n) (saturation k n) D w a T E R h →
      (∀ u ∈ Set.Icc 0 T, (∀ i j, |E u i j| ≤ B) ∧ h u ∈ strengths gmin gmax) →
      Near (histOf (t.m 0)) (E 0) (R 0) (h 0) δ →
      ∀ k' < N, Near (histOf (t.m' k')) (E (T / N * (k' + 1 : ℕ))) (R (T / N * (k' + 1 : ℕ)))
        (h (T / N * (k' + 1 : ℕ)))
        (C * (δ + T / N + tol + 1 / 10 ^ 60 * k.gamW
          + N * (tol / 10 ^ 6 + gmax / 10 ^ 10 + 1 / 10 ^ 88))) := by
  have hreg : RegularData (powerLaw k n) (saturation k n) D w a T (strengths gmin gmax) :=
    ⟨hD, hD1, hwl, ha, ha0, strengths_bounded _ _, fun i b => powerLaw_lip k hm hm1 hg i b,
      fun i b => saturation_lip k hg i b⟩
  obtain ⟨C, C0, N0, h⟩ := C73_convergence (A := k.gamW) hms hT hreg hb
  refine ⟨C, C0, N0, fun N hN S eos hS tol δ ht0 ht1 t hf hq hgd hw0 hw2 E R hh hy hyB hnear =>
    h N hN _ rfl rfl (C69_voce k S hw) (1 / 10 ^ 60 * k.gamW) (gmax / 10 ^ 10) tol δ (by positivity) ?_
      (by positivity) ?_ ht0 ht1 (powerLaw_within k hm hw S hg hbt)
      (saturation_within k hk hx S hS hg1) t hf hq (fun i => ?_) hw0 hw2 E R hh hy hyB hnear⟩
  · have := mul_le_mul_of_nonneg_left hw1 (by positivity : (0:ℝ) ≤ 1 / 10 ^ 60)
    refine this.trans (by norm_num)
  · rw [div_le_one (by positivity)]; exact hg2
  · rw [hgd i, sub_self, abs_zero]; positivity

theorem flow_motion (T : ℝ) : CrystalMotion (.cubic 3 1 1) fccM fccS (powerLaw voceExample 12)
    (saturation voceExample 12) (fun _ => dev (sym flowL)) (fun _ => axial flowL) (fun _ => 1) T
    (fun _ => vecdToSymm flowE) (fun _ => 1) (fun _ _ => 2) ∧
    slipRates (.cubic 3 1 1) fccM fccS (powerLaw voceExample 12) 1 (vecdToSymm flowE) (fun _ => 2)
      = flowRate := by
  have hτ : ∀ i, dot (fccS i) (((1 / (1 : ℝ)) • refStress (.cubic 3 1 1) (vecdToSymm flowE)).mulVec (fccM i))
      = flowTau i := fun i => by
    have h2 := sqr2i_sq
    simp [dot, Fin.sum_univ_three, Matrix.mulVec, dotProduct, refStress, cubicStress, vecdToSymm, ofSvecP,
      vecdsToSvecP, flowE, flowTau]
    ring
  have hr : slipRates (.cubic 3 1 1) fccM fccS (powerLaw voceExample 12) 1 (vecdToSymm flowE) (fun _ => 2)
      = flowRate := by
    funext i
    unfold slipRates powerLaw
    rw [hτ i, powLaw_eq_signPow _ two_pos]
    simp only [voceExample, Voce.xnn, signPow, div_one, Real.rpow_one, flowRate]
    split_ifs <;> ring
  refine ⟨⟨fun t _ => vecdToSymm_isDev _, fun t _ => ⟨by simp, by simp, by simp⟩,
    fun t _ => ⟨0, 0, ⟨?_, ?_⟩, fun i j => hasDerivWithinAt_const _ _ _, fun i j => ?_, fun i => ?_⟩⟩, hr⟩
  · show (1 / (1:ℝ)) • (0 : T3) + dev (sym (slipGrad (slipRates (.cubic 3 1 1) fccM fccS
      (powerLaw voceExample 12) 1 (vecdToSymm flowE) (fun _ => 2)) fccS fccM)) = _
    rw [hr]; simp [flowL]
  · show (0 : V3) = (1:ℝ) • (_ - axial (slipGrad (slipRates (.cubic 3 1 1) fccM fccS
      (powerLaw voceExample 12) 1 (vecdToSymm flowE) (fun _ => 2)) fccS fccM) + _)
    rw [hr]
    ext i; fin_cases i <;> simp [flowL, axial]
  · have : ((1 : T3) * crossMat (0 : V3)) i j = 0 := by
      fin_cases i <;> fin_cases j <;> simp [crossMat]
    rw [this]; exact hasDerivWithinAt_const _ _ _
  · have : saturation voceExample 12 (fun _ => 2) (slipRates (.cubic 3 1 1) fccM fccS
      (powerLaw voceExample 12) 1 (vecdToSymm flowE) (fun _ => 2)) i = 0 := by
      simp [saturation, voceRate, voceExample]
    rw [this]; exact hasDerivWithinAt_const _ _ _

theorem flowE_le (i j : Fin 3) : |vecdToSymm flowE i j| ≤ 1 / 10 := by
  have h2 := sqr2i_sq
  have p2 : 0 < sqr2i := by unfold sqr2i; positivity
  have b : sqr2i ≤ 1 := by nlinarith
  fin_cases i <;> fin_cases j <;> simp [vecdToSymm, ofSvecP, vecdsToSvecP, flowE] <;>
    first
    | positivity
    | (rw [abs_of_pos p2]; exact b)

theorem flow_shear (T B : ℝ) : ShearAtMost (.cubic 3 1 1) fccM fccS (fun _ => 1) T B (18 * B) := by
  intro E hE hB t _ i
  have hbd : ∀ u : Vec 3, dot u u = 1 → ∀ j, |u j| ≤ 1 := by
    intro u hu j
    rw [← sq_le_one_iff_abs_le_one]
    simp only [dot, Fin.sum_univ_three] at hu
    have hj : j = 0 ∨ j = 1 ∨ j = 2 := by fin_cases j <;> simp
    rcases hj with rfl | rfl | rfl <;> nlinarith [sq_nonneg (u 0), sq_nonneg (u 1), sq_nonneg (u 2)]
  have hs := hbd _ (fcc_slip i).2.1
  have hm := hbd _ (fcc_slip i).1
  have hσ : ∀ a b, |((1 / (1:ℝ)) • refStress (.cubic 3 1 1) E) a b| ≤ 2 * B := by
    obtain ⟨h1, h2, h3, h4⟩ := (isDev_iff E).1 hE
    have e : (1 / (1:ℝ)) • refStress (.cubic 3 1 1) E = (2:ℝ) • E := by
      ext a b
      fin_cases a <;> fin_cases b <;> simp [refStress, cubicStress, h1, h2, h3] <;> linarith
    intro a b
    rw [e]
    have := hB a b
    rw [Matrix.smul_apply, smul_eq_mul, abs_mul, abs_of_pos two_pos]
    linarith
  have hd : ∀ {u v : Vec 3} {c : ℝ}, (∀ j, |u j| ≤ 1) → (∀ j, |v j| ≤ c) → |dot u v| ≤ 3 * c := by
    intro u v c hu hv
    unfold dot
    refine (Finset.abs_sum_le_sum_abs _ _).trans ?_
    rw [Fin.sum_univ_three]
    have hk : ∀ j, |u j * v j| ≤ c := fun j => by
      rw [abs_mul]
      have := mul_le_mul (hu j) (hv j) (abs_nonneg _) zero_le_one
      linarith
    linarith [hk 0, hk 1, hk 2]
  have := hd (u := fccS i) hs (v := ((1 / (1:ℝ)) • refStress (.cubic 3 1 1) E).mulVec (fccM i)) (c := 3 * (2 * B))
    fun j => by
      have := hd (u := fccM i) hm (v := ((1 / (1:ℝ)) • refStress (.cubic 3 1 1) E) j) (hσ j)
      have e : (((1 / (1:ℝ)) • refStress (.cubic 3 1 1) E).mulVec (fccM i)) j
          = dot (fccM i) (((1 / (1:ℝ)) • refStress (.cubic 3 1 1) E) j) := by
        simp [Matrix.mulVec, dotProduct, dot, mul_comm]
      rw [e]; exact this
  exact this.trans (by linarith)

/-- the hypotheses hold for steps of every number on a time interval of every length: a crystal in steady
    flow under stress at its saturation strength -/
example (T : ℝ) (hT : 0 < T) (N : ℕ) (hN : 0 < N) :
    voceExample.nonlinear = false ∧ voceExample.xms = 0 ∧ 0 < voceExample.xm ∧ voceExample.xm ≤ 1 ∧
    0 < voceExample.gamW ∧ voceExample.gamW ≤ 10 ^ 60 ∧ (∀ i, dot (fccM i) (fccS i) = 0) ∧
    IsDev (dev (sym flowL)) ∧ ShearAtMost (.cubic 3 1 1) fccM fccS (fun _ => 1) T (1 / 10) 2 ∧
    2 ≤ voceExample.tMax * 1 ∧ (probe 1).Sound ∧
    ∃ (eos : Eos) (t : Trajectory { geom := slipPQ fccM fccS, kin := voceExample.kin (probe 1) 12,
                                    el := .cubic 3 1 1, eos := eos } N),
      Follows t (fun _ => dev (sym flowL)) (fun _ => axial flowL) (fun _ => 1) T (1 / 10 ^ 10) ∧
      dot (histOf (t.m 0)).q (histOf (t.m 0)).q = 1 ∧
      (∀ i, (histOf (t.m 0)).gdot i = slipRates (.cubic 3 1 1) fccM fccS (powerLaw voceExample 12) 1
        (vecdToSymm (histOf (t.m 0)).e) (histOf (t.m 0)).h i) ∧
      Within (histOf (t.m 0)) (1 / 10) (strengths 1 3) ∧
      (∀ k < N, Within (histOf (t.m' k)) (1 / 10) (strengths 1 3)) ∧
      CrystalMotion (.cubic 3 1 1) fccM fccS (powerLaw voceExample 12)
        (saturation voceExample 12) (fun _ => dev (sym flowL)) (fun _ => axial flowL) (fun _ => 1) T
        (fun _ => vecdToSymm flowE) (fun _ => 1) (fun _ _ => 2) ∧
      Near (histOf (t.m 0)) (vecdToSymm flowE) 1 (fun _ => 2) 0 ∧ vecdToSymm flowE ≠ 0 ∧ flowRate 2 ≠ 0 := by
  have hdt : 0 < T / N := by positivity
  have hdev : IsDev (dev (sym flowL)) := isDev_dev_sym _
  have hmem : ∀ {A : Hist 1 12}, A.e = flowE → A.h = (fun _ => 2) → Within A (1 / 10) (strengths 1 3) := by
    intro A h1 h2
    refine ⟨fun i j => ?_, ?_⟩
    · rw [h1]; exact flowE_le i j
    · rw [h2]; constructor <;> norm_num
  refine ⟨rfl, rfl, by norm_num [voceExample], by norm_num [voceExample], by norm_num [voceExample],
    by norm_num [voceExample], fun i => (fcc_slip i).2.2, hdev, ?_, ?_, probe_sound 1,
    (exMat exEl).eos, flowTraj (T / N) hdt N, fun k _ => ⟨probe_sound 8, rfl, le_rfl, ?_, rfl, ?_⟩, ?_, ?_, ?_, ?_,
    (flow_motion T).1, ?_, ?_, ?_⟩
  · have := flow_shear T (1 / 10)
    intro E hE hB t ht i
    exact (this E hE hB t ht i).trans (by norm_num)
  · unfold Voce.tMax gamRatioOvf
    simp only [voceExample, Real.rpow_one]
    norm_num
  · show devOfSvecP (svecP (sym flowL)) = dev (sym flowL)
    ext i j
    fin_cases i <;> fin_cases j <;> simp [devOfSvecP, svecP, sym, dev, Matrix.trace_fin_three] <;> ring
  · show (1:ℝ) = 1 ^ 3
    norm_num
  · show dot (histOf flowMem).q (histOf flowMem).q = 1
    rw [flowMem_inv.q]; simp [dot, Fin.sum_univ_four]
  · intro i
    show (histOf flowMem).gdot i = slipRates _ _ _ _ _ (vecdToSymm (histOf flowMem).e) (histOf flowMem).h i
    rw [flowMem_inv.gdot, flowMem_inv.e, flowMem_inv.h, (flow_motion T).2]
  · exact hmem flowMem_inv.e flowMem_inv.h
  · intro k _
    exact hmem (flowState (T / N) hdt (k + 1)).2.e (flowState (T / N) hdt (k + 1)).2.h
  · show Near (histOf flowMem) _ _ _ _
    refine ⟨fun i j => ?_, fun i j => ?_, fun i => ?_⟩
    · rw [flowMem_inv.e, sub_self, abs_zero]
    · rw [flowMem_inv.q, quatToTensor_one, sub_self, abs_zero]
    · rw [flowMem_inv.h, sub_self, abs_zero]
  · intro h
    have := congrArg symmToVecd h
    rw [symmToVecd_vecdToSymm] at this
    have := congrFun this 0
    simp [flowE, symmToVecd] at this
  · intro h
    have p2 : 0 < sqr2i := by unfold sqr2i; positivity
    have p3 : 0 < sqr3i := by unfold sqr3i; positivity
    simp [flowRate, flowTau, fccM, fccS] at h
    rcases h with h | h
    · exact p2.ne' h
    · nlinarith [mul_pos p2 p3]

end Ecm.Props
