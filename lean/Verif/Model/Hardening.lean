/-
  Model of src/ecmech/ECMech_kinetics.h:81-313: the implicit update of hardness variables, and of
  the nonlinear solver it calls.

  The solver (snls::SNLSTrDlDenseG, an external library that is not part of this repository) is an
  arbitrary function of the problem it is given; nothing is assumed about it here.  Theorems that
  need the solver to do its job say so through `Solver.Sound`.
-/
import Verif.Model.Util
import Verif.Model.Outcome

namespace Ecm
open Classical

/-- what is read back from the solver: whether the status is `converged`, the unknowns `_x`, the
    argument of its last call of `computeRJ` and the number of function evaluations
    (ECMech_kinetics.h:178-184, ECMech_evptn.h:1130-1140) -/
structure SolveResult (n : ℕ) where
  converged : Bool
  x : Vec n
  xLast : Vec n
  nFEvals : ℕ

/-- a problem as the solver sees it: residual and Jacobian at a trial point; `none` when
    `computeRJ` produces no usable numbers -/
abbrev Problem (n : ℕ) := Vec n → Option (Vec n × Mat n n)

/-- the external solver: arguments are the problem, the tolerance, the maximum number of
    iterations and the initial value of `_x` -/
abbrev Solver (n : ℕ) := Problem n → ℝ → ℕ → Vec n → SolveResult n

/-- contract of the solver: when it reports convergence, its `_x` is a point where the residual
    exists and its euclidean norm is at most the tolerance, and that point is also the last one it
    evaluated -/
def Solver.Sound {n : ℕ} (S : Solver n) : Prop :=
  ∀ P tol maxIter x0, (S P tol maxIter x0).converged = true →
    (∃ r J, P (S P tol maxIter x0).x = some (r, J) ∧ vecNorm r ≤ tol) ∧
    (S P tol maxIter x0).xLast = (S P tol maxIter x0).x

/-- an evolution law for one variable at fixed evolution values: rate and derivative of the rate
    (`getSdot1`, ECMech_kinetics.h:65-70) -/
abbrev Law1 := ℝ → Option (ℝ × ℝ)

/-- Kinetics_H1Problem, data members set by the constructor (ECMech_kinetics.h:93-102) -/
structure H1Problem where
  law : Law1
  hO : ℝ
  dt : ℝ

/-- ECMech_kinetics.h:99 -/
noncomputable def H1Problem.xScale (P : H1Problem) : ℝ := max P.hO 1
/-- ECMech_kinetics.h:101 -/
noncomputable def H1Problem.resScale (P : H1Problem) : ℝ := 1 / P.xScale
/-- ECMech_kinetics.h:110-112 getHn -/
noncomputable def H1Problem.getHn (P : H1Problem) (x : ℝ) : ℝ := P.hO + x * P.xScale
/-- ECMech_kinetics.h:116-137 computeRJ, returning (resid, Jacobian) -/
noncomputable def H1Problem.computeRJ (P : H1Problem) (x : ℝ) : Option (ℝ × ℝ) :=
  let hDelta := x * P.xScale
  let h := P.hO + hDelta
  match P.law h with
  | none => none
  | some (sdot, dsdotDs) =>
    some ((hDelta - sdot * P.dt) * P.resScale, 1 - dsdotDs * P.dt)
/-- the one-dimensional problem in the form the solver sees -/
noncomputable def H1Problem.problem (P : H1Problem) : Problem 1 := fun x =>
  (P.computeRJ (x 0)).map fun rj => (fun _ => rj.1, fun _ _ => rj.2)

/-- ECMech_kinetics.h:153-187 updateH1, returning the new value and the number of evaluations -/
noncomputable def updateH1 (S : Solver 1) (law : Law1) (hsO dt : ℝ) : Out (ℝ × ℕ) :=
  let prob : H1Problem := { law := law, hO := hsO, dt := dt }
  let res := S prob.problem (1 / 10 ^ 10) 100 (fun _ => 0)
  if res.converged then .ok (prob.getHn (res.x 0), res.nFEvals)
  else .fail "Solver failed to converge!"

/-- an evolution law for several variables: rates and their derivatives
    (`getSdotN`, ECMech_kinetics.h:74-78) -/
abbrev LawN (n : ℕ) := Vec n → Option (Vec n × Mat n n)

/-- Kinetics_HNProblem, data members set by the constructor (ECMech_kinetics.h:200-211) -/
structure HNProblem (n : ℕ) where
  law : LawN n
  hO : Vec n
  dt : ℝ

/-- ECMech_kinetics.h:207 -/
noncomputable def HNProblem.xScale {n : ℕ} (P : HNProblem n) : Vec n := fun i => max (P.hO i) 1
/-- ECMech_kinetics.h:209 -/
noncomputable def HNProblem.resScale {n : ℕ} (P : HNProblem n) : Vec n := fun i => 1 / P.xScale i
/-- ECMech_kinetics.h:219-223 getHn -/
noncomputable def HNProblem.getHn {n : ℕ} (P : HNProblem n) (x : Vec n) : Vec n :=
  fun i => P.hO i + x i * P.xScale i
/-- ECMech_kinetics.h:227-261 computeRJ -/
noncomputable def HNProblem.computeRJ {n : ℕ} (P : HNProblem n) : Problem n := fun x =>
  let h : Vec n := fun i => P.hO i + x i * P.xScale i
  match P.law h with
  | none => none
  | some (sdot, ds) =>
    some (fun i => (x i * P.xScale i - sdot i * P.dt) * P.resScale i,
      fun i j => ds i j * (-P.xScale j * P.resScale i * P.dt) + if i = j then 1 else 0)

/-- ECMech_kinetics.h:278-312 updateHN -/
noncomputable def updateHN {n : ℕ} (S : Solver n) (law : LawN n) (hsO : Vec n) (dt : ℝ) :
    Out (Vec n × ℕ) :=
  let prob : HNProblem n := { law := law, hO := hsO, dt := dt }
  let res := S prob.computeRJ (1 / 10 ^ 10) 100 (fun _ => 0)
  if res.converged then .ok (prob.getHn res.x, res.nFEvals)
  else .fail "Solver failed to converge!"

end Ecm
