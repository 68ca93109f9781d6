/- Helper lemmas for C79: slip that follows the resolved shear stresses of one stress is bounded by the
   strain rate it makes, with a constant that depends only on the slip systems. -/
import Verif.Lemmas.Stability
import Mathlib.Data.Sign.Basic
import Mathlib.Topology.Order.Compact

namespace Ecm
open Spec

/-- slip rates `g` that have the sign of the shear stresses `τ` and vanish where these do -/
def Follows {n : ℕ} (g τ : Vec n) : Prop := ∀ i, 0 ≤ g i * τ i ∧ (τ i = 0 → g i = 0)

/-- slip rates that follow the resolved shear stresses of some stress are bounded by the strain rate -/
def SlipBound {n : ℕ} (A : Mat 5 n) (K : ℝ) : Prop :=
  ∀ (g : Vec n) (y : Vec 5), Follows g (vecsVaTM y A) → ∑ i, |g i| ≤ K * vecNorm (vecsVMa A g)

theorem slipSum_smul {m n : ℕ} (A : Mat m n) (c : ℝ) (g : Vec n) : vecsVMa A (c • g) = c • vecsVMa A g := by
  funext k
  simp only [vecsVMa, Pi.smul_apply, smul_eq_mul, Finset.mul_sum]
  exact Finset.sum_congr rfl fun i _ => by ring

theorem vecNorm_eq_zero {n : ℕ} {v : Vec n} (h : vecNorm v = 0) : v = 0 := by
  have h1 : vecNorm v ^ 2 = 0 := by rw [h]; norm_num
  rw [vecNorm_sq, Finset.sum_eq_zero_iff_of_nonneg fun i _ => sq_nonneg _] at h1
  funext i
  exact pow_eq_zero_iff (two_ne_zero) |>.1 (h1 i (Finset.mem_univ i))

theorem slip_power {n : ℕ} (A : Mat 5 n) (y : Vec 5) (g : Vec n) :
    ∑ k, y k * vecsVMa A g k = ∑ i, g i * vecsVaTM y A i := by
  simp only [vecsVMa, vecsVaTM, Finset.mul_sum]
  rw [Finset.sum_comm]
  exact Finset.sum_congr rfl fun i _ => Finset.sum_congr rfl fun k _ => by ring

theorem continuous_vecNorm_slip {n : ℕ} (A : Mat 5 n) : Continuous fun g : Vec n => vecNorm (vecsVMa A g) := by
  unfold vecNorm vecsVMa
  fun_prop

/-- one pattern of signs -/
theorem slipBound_sign {n : ℕ} (A : Mat 5 n) (σ : Fin n → SignType) : ∃ K : ℝ, 0 ≤ K ∧
    ∀ (g : Vec n) (y : Vec 5), (∀ i, SignType.sign (vecsVaTM y A i) = σ i) → Follows g (vecsVaTM y A) →
      ∑ i, |g i| ≤ K * vecNorm (vecsVMa A g) := by
  classical
  by_cases hy : ∃ y₀ : Vec 5, ∀ i, SignType.sign (vecsVaTM y₀ A i) = σ i
  swap
  · exact ⟨0, le_rfl, fun g y h => absurd ⟨y, h⟩ hy⟩
  obtain ⟨y₀, hy₀⟩ := hy
  set S : Set (Vec n) := {g | ∑ i, |g i| = 1 ∧ ∀ i, 0 ≤ g i * (σ i : ℝ) ∧ (σ i = 0 → g i = 0)} with hS
  have hcl : IsClosed S := by
    have h1 : IsClosed {g : Vec n | ∑ i, |g i| = 1} := isClosed_eq
      (continuous_finsetSum _ fun i _ => (continuous_apply i).abs) continuous_const
    have h2 : IsClosed {g : Vec n | ∀ i, 0 ≤ g i * (σ i : ℝ) ∧ (σ i = 0 → g i = 0)} := by
      simp only [Set.setOf_forall]
      refine isClosed_iInter fun i => ?_
      refine IsClosed.inter (isClosed_le (f := fun _ : Vec n => (0 : ℝ)) (g := fun g => g i * (σ i : ℝ))
        continuous_const ((continuous_apply i).mul continuous_const)) ?_
      by_cases h : σ i = 0
      · simp only [h, forall_const]
        exact isClosed_eq (by fun_prop) continuous_const
      · simp only [h, false_imp_iff, Set.setOf_true]
        exact isClosed_univ
    exact h1.inter h2
  have hbd : S ⊆ Metric.closedBall 0 1 := by
    intro g hg
    rw [mem_closedBall_zero_iff, pi_norm_le_iff_of_nonneg zero_le_one]
    intro i
    rw [Real.norm_eq_abs, ← hg.1]
    exact Finset.single_le_sum (f := fun i => |g i|) (fun i _ => abs_nonneg _) (Finset.mem_univ i)
  have hco : IsCompact S := (isCompact_closedBall (0 : Vec n) 1).of_isClosed_subset hcl hbd
  have hpos : ∀ g ∈ S, 0 < vecNorm (vecsVMa A g) := by
    intro g hg
    refine lt_of_le_of_ne (vecNorm_nonneg _) fun h0 => ?_
    have hz := vecNorm_eq_zero h0.symm
    have hp := slip_power A y₀ g
    rw [hz] at hp
    simp only [Pi.zero_apply, mul_zero, Finset.sum_const_zero] at hp
    have hnn : ∀ i, 0 ≤ g i * vecsVaTM y₀ A i := by
      intro i
      have h := (hg.2 i).1
      rw [← hy₀ i] at h
      rcases lt_trichotomy (vecsVaTM y₀ A i) 0 with ht | ht | ht
      · rw [sign_neg ht] at h; simp at h
        exact mul_nonneg_of_nonpos_of_nonpos h ht.le
      · rw [ht, mul_zero]
      · rw [sign_pos ht] at h; simp at h
        exact mul_nonneg h ht.le
    have h0' := (Finset.sum_eq_zero_iff_of_nonneg fun i _ => hnn i).1 hp.symm
    have hgz : ∀ i, g i = 0 := by
      intro i
      rcases mul_eq_zero.1 (h0' i (Finset.mem_univ i)) with h | h
      · exact h
      · refine (hg.2 i).2 ?_
        rw [← hy₀ i, h, sign_zero]
    have : ∑ i, |g i| = 0 := Finset.sum_eq_zero fun i _ => by rw [hgz i, abs_zero]
    rw [hg.1] at this
    exact one_ne_zero this
  have key : ∀ (g : Vec n) (y : Vec 5), (∀ i, SignType.sign (vecsVaTM y A i) = σ i) →
      Follows g (vecsVaTM y A) → 0 < ∑ i, |g i| → (1 / ∑ i, |g i|) • g ∈ S := by
    intro g y hs hf h
    refine ⟨?_, fun i => ⟨?_, fun hi => ?_⟩⟩
    · simp only [Pi.smul_apply, smul_eq_mul, abs_mul, abs_of_pos (one_div_pos.2 h), ← Finset.mul_sum]
      exact one_div_mul_cancel h.ne'
    · rw [Pi.smul_apply, smul_eq_mul, mul_assoc]
      refine mul_nonneg (one_div_pos.2 h).le ?_
      have h1 := (hf i).1
      rw [← hs i]
      rcases lt_trichotomy (vecsVaTM y A i) 0 with ht | ht | ht
      · rw [sign_neg ht]; simp
        exact nonpos_of_mul_nonneg_left h1 ht
      · rw [ht, sign_zero]; simp
      · rw [sign_pos ht]; simp
        exact nonneg_of_mul_nonneg_left h1 ht
    · rw [← hs i, sign_eq_zero_iff] at hi
      rw [Pi.smul_apply, (hf i).2 hi, smul_zero]
  rcases S.eq_empty_or_nonempty with he | hne
  · refine ⟨0, le_rfl, fun g y hs hf => ?_⟩
    rw [zero_mul]
    by_contra hc
    have := key g y hs hf (not_le.1 hc)
    rw [he] at this
    exact this
  · obtain ⟨g₀, hg₀, hmin⟩ := hco.exists_isMinOn hne (continuous_vecNorm_slip A).continuousOn
    have hc := hpos g₀ hg₀
    refine ⟨1 / vecNorm (vecsVMa A g₀), (one_div_pos.2 hc).le, fun g y hs hf => ?_⟩
    rcases (Finset.sum_nonneg fun i (_ : i ∈ Finset.univ) => abs_nonneg (g i)).eq_or_lt with h | h
    · rw [← h]
      exact mul_nonneg (one_div_pos.2 hc).le (vecNorm_nonneg _)
    · have h1 : vecNorm (vecsVMa A g₀) ≤ vecNorm (vecsVMa A ((1 / ∑ i, |g i|) • g)) := hmin (key g y hs hf h)
      rw [slipSum_smul, vecNorm_smul, abs_of_pos (one_div_pos.2 h), one_div, inv_mul_eq_div,
        le_div_iff₀ h] at h1
      rw [one_div, inv_mul_eq_div, le_div_iff₀ hc]
      linarith

/-- a bound exists for every set of slip systems -/
theorem exists_slipBound {n : ℕ} (A : Mat 5 n) : ∃ K : ℝ, 0 < K ∧ SlipBound A K := by
  classical
  choose K hK0 hK using slipBound_sign A
  have hs : ∀ σ, K σ ≤ ∑ σ, K σ := fun σ =>
    Finset.single_le_sum (f := fun σ => K σ) (fun σ _ => hK0 σ) (Finset.mem_univ σ)
  refine ⟨∑ σ, K σ + 1, by have := Finset.sum_nonneg fun σ (_ : σ ∈ Finset.univ) => hK0 σ; linarith, ?_⟩
  intro g y hf
  refine (hK _ g y (fun i => rfl) hf).trans (mul_le_mul_of_nonneg_right ?_ (vecNorm_nonneg _))
  have := hs fun i => SignType.sign (vecsVaTM y A i)
  linarith

end Ecm
