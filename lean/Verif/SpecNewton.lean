/- Plain Newton iteration: the textbook method, as a yardstick for the residual and the Jacobian the code hands to its
   solver (C96).  It is not a model of the solver library, which is not part of the repository. -/
import Verif.Spec
import Verif.Model.Hardening
import Mathlib.LinearAlgebra.Matrix.NonsingularInverse

namespace Ecm.Props
open Ecm Spec Matrix

variable {n : ℕ}

open Classical in
/-- Plain Newton iteration with at most the given number of evaluations: stop where the residual is within the
    tolerance, otherwise take the full Newton step.  No damping, no other direction.  It gives up when the residual
    has no value, when the matrix is singular, or when a step is longer than `δ`. -/
noncomputable def newtonRun (δ : ℝ) (F : Problem n) (tol : ℝ) : ℕ → ℕ → Vec n → SolveResult n
  | 0, c, x => { converged := false, x := x, xLast := x, nFEvals := c }
  | k + 1, c, x =>
    match F x with
    | none => { converged := false, x := x, xLast := x, nFEvals := c + 1 }
    | some (r, J) =>
      if len r ≤ tol then { converged := true, x := x, xLast := x, nFEvals := c + 1 }
      else if J.det = 0 ∨ δ < len (J⁻¹.mulVec r) then
        { converged := false, x := x, xLast := x, nFEvals := c + 1 }
      else newtonRun δ F tol k (c + 1) (x - J⁻¹.mulVec r)

/-- plain Newton iteration as the solver of the update -/
noncomputable def newtonSolver (δ : ℝ) (n : ℕ) : Solver n := fun F tol maxIter x0 => newtonRun δ F tol maxIter 0 x0

end Ecm.Props
