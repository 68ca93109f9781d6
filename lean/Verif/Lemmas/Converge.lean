/- Helper lemmas for the convergence of the updates to the rate equations: functions that are bounded and
   Lipschitz on a set, and the discrete Gronwall estimate. -/
import Mathlib.Analysis.Calculus.MeanValue
import Mathlib.Analysis.SpecialFunctions.Exp
import Mathlib.Topology.MetricSpace.Pseudo.Pi

namespace Ecm

/-- bounded and Lipschitz on a set -/
def BL {Z : Type*} [PseudoMetricSpace Z] (S : Set Z) (f : Z → ℝ) : Prop :=
  ∃ C, 0 ≤ C ∧ (∀ z ∈ S, |f z| ≤ C) ∧ ∀ z ∈ S, ∀ z' ∈ S, |f z - f z'| ≤ C * dist z z'

namespace BL
variable {Z : Type*} [PseudoMetricSpace Z] {S : Set Z} {f g : Z → ℝ}

theorem const (c : ℝ) : BL S fun _ => c :=
  ⟨|c|, abs_nonneg _, fun _ _ => le_rfl, fun z _ z' _ => by
    rw [sub_self, abs_zero]; exact mul_nonneg (abs_nonneg _) dist_nonneg⟩

theorem add (hf : BL S f) (hg : BL S g) : BL S fun z => f z + g z := by
  obtain ⟨C, h0, h1, h2⟩ := hf
  obtain ⟨D, k0, k1, k2⟩ := hg
  refine ⟨C + D, add_nonneg h0 k0, fun z hz => (abs_add_le _ _).trans (add_le_add (h1 z hz) (k1 z hz)),
    fun z hz z' hz' => ?_⟩
  rw [add_mul, show f z + g z - (f z' + g z') = (f z - f z') + (g z - g z') by ring]
  exact (abs_add_le _ _).trans (add_le_add (h2 z hz z' hz') (k2 z hz z' hz'))

theorem mul (hf : BL S f) (hg : BL S g) : BL S fun z => f z * g z := by
  obtain ⟨C, h0, h1, h2⟩ := hf
  obtain ⟨D, k0, k1, k2⟩ := hg
  have hCD := mul_nonneg h0 k0
  refine ⟨2 * (C * D), by positivity, fun z hz => ?_, fun z hz z' hz' => ?_⟩
  · rw [abs_mul]
    have := mul_le_mul (h1 z hz) (k1 z hz) (abs_nonneg _) h0
    linarith
  · rw [show f z * g z - f z' * g z' = f z * (g z - g z') + (f z - f z') * g z' by ring]
    refine (abs_add_le _ _).trans ?_
    rw [abs_mul, abs_mul]
    have a := mul_le_mul (h1 z hz) (k2 z hz z' hz') (abs_nonneg _) h0
    have b := mul_le_mul (h2 z hz z' hz') (k1 z' hz') (abs_nonneg _)
      (mul_nonneg h0 dist_nonneg)
    nlinarith

theorem neg (hf : BL S f) : BL S fun z => -f z := by
  obtain ⟨C, h0, h1, h2⟩ := hf
  refine ⟨C, h0, fun z hz => by rw [abs_neg]; exact h1 z hz, fun z hz z' hz' => ?_⟩
  rw [show -f z - -f z' = -(f z - f z') by ring, abs_neg]
  exact h2 z hz z' hz'

theorem sub (hf : BL S f) (hg : BL S g) : BL S fun z => f z - g z := by
  simpa [sub_eq_add_neg] using hf.add hg.neg

theorem sum {ι : Type*} (s : Finset ι) {F : ι → Z → ℝ} (h : ∀ i, BL S (F i)) :
    BL S fun z => ∑ i ∈ s, F i z := by
  classical
  induction s using Finset.induction_on with
  | empty => simpa using const (S := S) 0
  | insert a s ha ih =>
    simp only [Finset.sum_insert ha]
    exact (h a).add ih

theorem inv (hf : BL S f) {c : ℝ} (hc : 0 < c) (hb : ∀ z ∈ S, c ≤ f z) : BL S fun z => 1 / f z := by
  obtain ⟨C, h0, h1, h2⟩ := hf
  refine ⟨1 / c + C / c ^ 2, by positivity, fun z hz => ?_, fun z hz z' hz' => ?_⟩
  · have hp := hc.trans_le (hb z hz)
    rw [abs_of_pos (by positivity)]
    have := one_div_le_one_div_of_le hc (hb z hz)
    have : 0 ≤ C / c ^ 2 := by positivity
    linarith
  · have hp := hc.trans_le (hb z hz)
    have hp' := hc.trans_le (hb z' hz')
    have e : 1 / f z - 1 / f z' = (f z' - f z) / (f z * f z') := by field_simp
    rw [e, abs_div, abs_of_pos (mul_pos hp hp'), abs_sub_comm]
    have h3 : c ^ 2 ≤ f z * f z' := by nlinarith [hb z hz, hb z' hz']
    have h4 : |f z - f z'| / (f z * f z') ≤ C * dist z z' / c ^ 2 := by
      refine div_le_div₀ (mul_nonneg h0 dist_nonneg) (h2 z hz z' hz') (by positivity) h3
    refine h4.trans ?_
    have : 0 ≤ 1 / c * dist z z' := mul_nonneg (by positivity) dist_nonneg
    calc C * dist z z' / c ^ 2 = C / c ^ 2 * dist z z' := by ring
      _ ≤ _ := by rw [add_mul]; linarith

/-- composition with a map into another space whose image lies in a set -/
theorem comp {W : Type*} [PseudoMetricSpace W] {T : Set W} {φ : W → ℝ} (hφ : BL T φ) {u : Z → W} {L : ℝ}
    (hm : ∀ z ∈ S, u z ∈ T) (hL0 : 0 ≤ L) (hL : ∀ z ∈ S, ∀ z' ∈ S, dist (u z) (u z') ≤ L * dist z z') :
    BL S fun z => φ (u z) := by
  obtain ⟨C, h0, h1, h2⟩ := hφ
  refine ⟨C + C * L, by positivity, fun z hz => (h1 _ (hm z hz)).trans (by nlinarith [mul_nonneg h0 hL0]),
    fun z hz z' hz' => ?_⟩
  refine (h2 _ (hm z hz) _ (hm z' hz')).trans ?_
  have := mul_le_mul_of_nonneg_left (hL z hz z' hz') h0
  have h5 : 0 ≤ C * dist z z' := mul_nonneg h0 dist_nonneg
  nlinarith

theorem mono {T : Set Z} (hf : BL T f) (h : S ⊆ T) : BL S f := by
  obtain ⟨C, h0, h1, h2⟩ := hf
  exact ⟨C, h0, fun z hz => h1 z (h hz), fun z hz z' hz' => h2 z (h hz) z' (h hz')⟩

/-- one constant for finitely many functions -/
theorem common {ι : Type*} [Finite ι] {F : ι → Z → ℝ} (h : ∀ i, BL S (F i)) :
    ∃ C, 0 ≤ C ∧ (∀ i, ∀ z ∈ S, |F i z| ≤ C) ∧
      ∀ i, ∀ z ∈ S, ∀ z' ∈ S, |F i z - F i z'| ≤ C * dist z z' := by
  choose C h0 h1 h2 using h
  cases nonempty_fintype ι
  have hle : ∀ i, C i ≤ ∑ j, C j := fun i =>
    Finset.single_le_sum (f := C) (fun j _ => h0 j) (Finset.mem_univ i)
  exact ⟨∑ j, C j, Finset.sum_nonneg fun j _ => h0 j, fun i z hz => (h1 i z hz).trans (hle i),
    fun i z hz z' hz' => (h2 i z hz z' hz').trans (mul_le_mul_of_nonneg_right (hle i) dist_nonneg)⟩

end BL

/-- discrete Gronwall estimate for an implicit recursion -/
theorem gronwall_implicit {δ : ℕ → ℝ} {N : ℕ} {x ρ : ℝ} (hx : 0 ≤ x) (hx2 : x ≤ 1 / 2) (hρ : 0 ≤ ρ)
    (hδ : ∀ k, 0 ≤ δ k) (h : ∀ k < N, δ (k + 1) ≤ δ k + x * (δ (k + 1) + δ k) + ρ) (k : ℕ) (hk : k ≤ N) :
    δ k ≤ Real.exp (4 * x * k) * (δ 0 + 2 * ρ * k) := by
  induction k with
  | zero => simp
  | succ k ih =>
    have h1 := h k hk
    have h2 := ih (by omega)
    have h3 : δ (k + 1) ≤ (1 + 4 * x) * δ k + 2 * ρ := by
      have : (1 - x) * δ (k + 1) ≤ (1 + x) * δ k + ρ := by linarith
      have h4 : (1 - x) * δ (k + 1) ≤ (1 - x) * ((1 + 4 * x) * δ k + 2 * ρ) := by
        nlinarith [hδ k, mul_nonneg hx (hδ k), mul_nonneg (mul_nonneg hx (hδ k)) (by linarith : (0 : ℝ) ≤ 1 - 2 * x),
          mul_nonneg hρ (by linarith : (0 : ℝ) ≤ 1 - 2 * x)]
      exact le_of_mul_le_mul_left h4 (by linarith)
    have h5 : (1 : ℝ) + 4 * x ≤ Real.exp (4 * x) := by linarith [Real.add_one_le_exp (4 * x)]
    have h6 : Real.exp (4 * x * ((k + 1 : ℕ) : ℝ)) = Real.exp (4 * x) * Real.exp (4 * x * k) := by
      rw [← Real.exp_add]; congr 1; push_cast; ring
    have h7 : 1 ≤ Real.exp (4 * x) * Real.exp (4 * x * k) := by
      rw [← Real.exp_add]; exact Real.one_le_exp (by positivity)
    rw [h6]
    have h8 : (1 + 4 * x) * δ k ≤ Real.exp (4 * x) * (Real.exp (4 * x * k) * (δ 0 + 2 * ρ * k)) :=
      mul_le_mul h5 h2 (hδ k) (Real.exp_pos _).le
    push_cast
    nlinarith [mul_le_mul_of_nonneg_right h7 (by positivity : 0 ≤ 2 * ρ)]

/-- error of one implicit step for a solution of a differential equation whose right-hand side changes
    slowly along it -/
theorem implicit_defect {y f : ℝ → ℝ} {a b M : ℝ} (hab : a ≤ b)
    (hy : ∀ t ∈ Set.Icc a b, HasDerivWithinAt y (f t) (Set.Icc a b) t) (hf : ∀ t ∈ Set.Icc a b, |f t - f b| ≤ M * (b - t)) :
    |y b - y a - (b - a) * f b| ≤ M * (b - a) ^ 2 := by
  have hM : ∀ t ∈ Set.Icc a b, |f t - f b| ≤ M * (b - a) ∨ M < 0 := by
    intro t ht
    rcases le_or_gt 0 M with h | h
    · left; exact (hf t ht).trans (mul_le_mul_of_nonneg_left (by linarith [ht.1]) h)
    · right; exact h
  rcases hab.eq_or_lt with rfl | hlt
  · simp
  have hM0 : 0 ≤ M := by
    have := (abs_nonneg _).trans (hf a ⟨le_rfl, hab⟩)
    by_contra hc
    have := mul_neg_of_neg_of_pos (not_le.1 hc) (by linarith : 0 < b - a)
    linarith
  have h := Convex.norm_image_sub_le_of_norm_hasDerivWithin_le (f := fun t => y t - t * f b)
    (f' := fun t => f t - f b) (C := M * (b - a)) (s := Set.Icc a b) (x := a) (y := b)
    (fun t ht => ((hy t ht).sub ((hasDerivWithinAt_id t _).mul_const (f b))).congr_deriv (by simp))
    (fun t ht => ((hM t ht).resolve_right (not_lt.2 hM0))) (convex_Icc a b) ⟨le_rfl, hab⟩ ⟨hab, le_rfl⟩
  rw [Real.norm_eq_abs, Real.norm_eq_abs, abs_of_nonneg (by linarith : 0 ≤ b - a)] at h
  calc |y b - y a - (b - a) * f b| = |y b - b * f b - (y a - a * f b)| := by congr 1; ring
    _ ≤ _ := h
    _ = _ := by ring

end Ecm
