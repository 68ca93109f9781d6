/- Helper lemmas for numerical enclosures: exponentials at rational points and roots of rationals. -/
import Mathlib.Analysis.SpecialFunctions.Pow.Real
import Mathlib.Analysis.Complex.Exponential
import Mathlib.Tactic.NormNum
import Mathlib.Tactic.Linarith

namespace Ecm

/-- enclosure of the exponential by its Taylor polynomial of degree 19 -/
theorem exp_taylor {x : ℝ} (hx : |x| ≤ 1) :
    |Real.exp x - ∑ m ∈ Finset.range 20, x ^ m / m.factorial| ≤ |x| ^ 20 * (21 / (2432902008176640000 * 20)) := by
  have h := Real.exp_bound hx (n := 20) (by norm_num)
  have e : ((Nat.succ 20 : ℕ) : ℝ) / ((Nat.factorial 20 : ℕ) * ((20 : ℕ) : ℝ)) = 21 / (2432902008176640000 * 20) := by
    norm_num [Nat.factorial]
  rwa [e] at h

/-- a root lies between two numbers when the power does -/
theorem root_between {a l u : ℝ} {n : ℕ} (hn : n ≠ 0) (ha : 0 ≤ a) (hl : 0 ≤ l) (hu : 0 ≤ u)
    (h1 : l ^ n ≤ a) (h2 : a ≤ u ^ n) : l ≤ a ^ ((1 : ℝ) / n) ∧ a ^ ((1 : ℝ) / n) ≤ u := by
  have hn' : (n : ℝ) ≠ 0 := Nat.cast_ne_zero.2 hn
  have h0 : (0 : ℝ) ≤ (1 : ℝ) / n := by positivity
  have e : ∀ y : ℝ, 0 ≤ y → (y ^ n) ^ ((1 : ℝ) / n) = y := fun y hy => by
    rw [← Real.rpow_natCast, ← Real.rpow_mul hy, mul_one_div_cancel hn', Real.rpow_one]
  constructor
  · calc l = (l ^ n) ^ ((1 : ℝ) / n) := (e l hl).symm
      _ ≤ _ := Real.rpow_le_rpow (pow_nonneg hl n) h1 h0
  · calc a ^ ((1 : ℝ) / n) ≤ (u ^ n) ^ ((1 : ℝ) / n) := Real.rpow_le_rpow ha h2 h0
      _ = u := e u hu

end Ecm
