/-
  Specification vocabulary for the array interface, independent of the code: how the documentation
  (src/ecmech/ECMech_matModelBase.h:102-165) lays several points out in flat arrays.
-/
import Mathlib.Data.Real.Sqrt

namespace Ecm.Spec

/-- the `w` consecutive entries that belong to point `i` of an array with `s` entries per point -/
def slice (f : ℕ → ℝ) (s i w : ℕ) : Fin w → ℝ := fun j => f (s * i + j)

/-- position `a` belongs to the entry of one of the first `N` points -/
def Owned (s w N a : ℕ) : Prop := ∃ i < N, s * i ≤ a ∧ a < s * i + w

/-- position `a` belongs to the entry of point `i` -/
def OwnedBy (s w i a : ℕ) : Prop := s * i ≤ a ∧ a < s * i + w

/-- the slip systems built from the axial ratio `r` are orthogonal to within the tolerance 1e-8:
    `r` is not negative, or tiny, or huge -/
def RatioOk (r : ℝ) : Prop :=
  0 ≤ r ∨ Real.sqrt 3 * |r| ≤ 1 / 10 ^ 8 * (Real.sqrt (r ^ 2 + 3 / 4) * Real.sqrt (r ^ 2 + 1))

end Ecm.Spec
