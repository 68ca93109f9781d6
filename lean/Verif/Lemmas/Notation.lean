/- Helper lemmas for the tensor notations of ECMech_util.h. -/
import Verif.Spec
import Verif.Model.Util
import Verif.Lemmas.Sqrt
import Mathlib.Tactic.FinCases
import Mathlib.Tactic.LinearCombination
import Mathlib.LinearAlgebra.Matrix.Notation

namespace Ecm
open Spec Matrix

/-- generic symmetric traceless matrix -/
theorem isDev_iff (A : T3) : IsDev A ↔
    A 1 0 = A 0 1 ∧ A 2 0 = A 0 2 ∧ A 2 1 = A 1 2 ∧ A 2 2 = -A 0 0 - A 1 1 := by
  unfold IsDev
  constructor
  · rintro ⟨hs, ht⟩
    rw [Matrix.trace_fin_three] at ht
    have h := fun i j => hs.apply i j
    exact ⟨h 0 1, h 0 2, h 1 2, by linarith⟩
  · rintro ⟨h1, h2, h3, h4⟩
    constructor
    · ext i j
      fin_cases i <;> fin_cases j <;> simp [Matrix.transpose_apply, h1, h2, h3]
    · rw [Matrix.trace_fin_three]; linarith

end Ecm
