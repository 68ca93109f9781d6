/- Property theorems C102: crystallographically equivalent orientations, continued (C55): the Newton matrix, the
   iteration and the tangent (src/ecmech/ECMech_evptn.h:717-912, 1097-1166). -/
import Verif.Lemmas.SymTangent
import Verif.Props.ObjTangent
import Verif.Props.SharedSymRuns
import Verif.Props.NewtonMatrix

namespace Ecm.Props
open Ecm Spec Matrix

variable {n nH : ℕ}

/-- slopes of the slip law (at temperature `T`) that do not tell the systems `i` and `π i` apart, nor the sense of
    slip -/
def SlopeSym (K : Kin n nH) (T : ℝ) (π : Equiv.Perm (Fin n)) (ε : Fin n → ℝ) : Prop :=
  ∀ p h v sc, K.getVals p T h = .ok (v, sc) → ∀ i τ,
    (K.evalGdot v (π i) (ε i * τ)).dtau = (K.evalGdot v i τ).dtau

/-! ### The matrix -/

theorem jac_mulVec (P : Updst n) (x u : Vec 8) : (P.jac x).mulVec u
    = block8 (P.epsdotScaleInv • fun i => (P.jacU x).mulVec (block8 (eScale • fun i => u (iE i)) (rScale • fun i => u (iR i))) (iE i))
      (P.rotincrScaleInv • fun i => (P.jacU x).mulVec (block8 (eScale • fun i => u (iE i)) (rScale • fun i => u (iR i))) (iR i)) := by
  have hE : ∀ i : Fin 5, (iE i).val < 5 := fun i => i.isLt
  have hR : ∀ i : Fin 3, ¬ (iR i).val < 5 := fun i => by simp [iR]
  rw [← block8_eta ((P.jac x).mulVec u)]
  congr 1 <;> funext i <;>
    simp only [Matrix.mulVec, dotProduct, Pi.smul_apply, smul_eq_mul, sum_Fin8, Updst.jac, block8_iE, block8_iR,
      if_pos (hE _), if_neg (hR _), mul_add, Finset.mul_sum] <;>
    congr 1 <;> exact Finset.sum_congr rfl fun j _ => by ring

/-- **C102, the matrix.** In turned lattice axes the Newton matrix is the turned one: applied to the turned change of
    the unknowns it gives the turned change of the equations, before and after scaling.  Its determinant is the same. -/
theorem C102_matrix (P : Updst n) (m s : Fin n → V3) (h : Vec 4) (hh : dot h h = 1)
    (S : P.Symmetry m s (quatToTensor h)) (hv : 0 < P.detV) (hdt : 0 < P.dt)
    (hd : ∀ i τ, (P.gd (S.π i) (S.ε i * τ)).dtau = (P.gd i τ).dtau) (x : Vec 8)
    (hx : Updst.xiF x = 0 ∨ 1 / 10 ^ 90 < len (Updst.xiF x)) :
    (∀ u, ((P.turn h).jacU (turnX h x)).mulVec (turnX h u) = turnX h ((P.jacU x).mulVec u)) ∧
    (∀ u, ((P.turn h).jac (turnX h x)).mulVec (turnX h u) = turnX h ((P.jac x).mulVec u)) ∧
    ((P.turn h).jacU (turnX h x)).det = (P.jacU x).det ∧ ((P.turn h).jac (turnX h x)).det = (P.jac x).det := by
  rw [dot_self_quat] at hh
  have h1 := fun u => P.turn_jacU S hh hv hdt hd x u hx
  have hsc : ∀ (a b : ℝ) (u : Vec 8), block8 (a • fun i => turnX h u (iE i)) (b • fun i => turnX h u (iR i))
      = turnX h (block8 (a • fun i => u (iE i)) (b • fun i => u (iR i))) := by
    intro a b u
    rw [turnX_block, turnX_e, turnX_r, turnE_eq hh, turnE_eq hh, Matrix.mulVec_smul, Matrix.mulVec_smul]
  have h2 : ∀ u, ((P.turn h).jac (turnX h x)).mulVec (turnX h u) = turnX h ((P.jac x).mulVec u) := by
    intro u
    rw [jac_mulVec, jac_mulVec, hsc, h1, hsc]
    rfl
  have hdet : ∀ A B : Mat 8 8, (∀ u, A.mulVec (turnX h u) = turnX h (B.mulVec u)) → A.det = B.det := by
    intro A B hAB
    have e : A * turnM h = turnM h * B := by
      apply mat_ext_mulVec
      intro u
      rw [← Matrix.mulVec_mulVec, ← Matrix.mulVec_mulVec, turnM_mulVec hh, turnM_mulVec hh, hAB]
    have := congrArg Matrix.det e
    rw [Matrix.det_mul, Matrix.det_mul, mul_comm] at this
    exact mul_left_cancel₀ (turnM_det hh) this
  exact ⟨h1, h2, hdet _ _ h1, hdet _ _ h2⟩

/-! ### The iteration -/

/-- Two systems of equations, the second being the first in unknowns turned by `T`, at the point `x`. -/
def TurnedAt (T : Mat n n) (F F' : Problem n) (x : Vec n) : Prop :=
  ∃ r J, F x = some (r, J) ∧ F' (T.mulVec x) = some (T.mulVec r, T * J * T.transpose)

/-- the points that plain Newton iteration visits -/
noncomputable def newtonSeq (F : Problem n) : ℕ → Vec n → Vec n
  | 0, x => x
  | k + 1, x =>
    match F x with
    | none => x
    | some (r, J) => newtonSeq F k (x - J⁻¹.mulVec r)

/-- the points that an iteration combining Newton and gradient steps visits -/
noncomputable def mixSeq (coef : ℕ → Vec n → Vec n → Mat n n → ℝ × ℝ) (keep : ℕ → Vec n → Vec n → Bool) (F : Problem n) :
    ℕ → ℕ → Vec n → Vec n
  | 0, _, x => x
  | k + 1, c, x =>
    match F x with
    | none => x
    | some (r, J) =>
      let y := x - ((coef c x r J).1 • J⁻¹.mulVec r + (coef c x r J).2 • J.transpose.mulVec r)
      mixSeq coef keep F k (c + 1) (if keep c x y then y else x)

theorem len_orth {T : Mat n n} (hT : T.transpose * T = 1) (v : Vec n) : len (T.mulVec v) = len v := by
  unfold len
  congr 1
  have e : (T.mulVec v) ⬝ᵥ (T.mulVec v) = v ⬝ᵥ v := by
    rw [Matrix.dotProduct_mulVec, Matrix.vecMul_mulVec, hT, Matrix.vecMul_one]
  exact e

theorem inv_conj {T : Mat n n} (hT : T.transpose * T = 1) (J : Mat n n) :
    (T * J * T.transpose)⁻¹ = T * J⁻¹ * T.transpose := by
  have hT' : T * T.transpose = 1 := mul_eq_one_comm.1 hT
  have i1 : T⁻¹ = T.transpose := Matrix.inv_eq_left_inv hT
  have i2 : T.transpose⁻¹ = T := Matrix.inv_eq_left_inv hT'
  rw [Matrix.mul_inv_rev, Matrix.mul_inv_rev, i1, i2, Matrix.mul_assoc]

theorem det_conj_orth {T : Mat n n} (hT : T.transpose * T = 1) (J : Mat n n) : (T * J * T.transpose).det = J.det := by
  have := congrArg Matrix.det hT
  rw [Matrix.det_mul, Matrix.det_one] at this
  rw [Matrix.det_mul, Matrix.det_mul]
  linear_combination J.det * this

theorem conj_mulVec {T : Mat n n} (hT : T.transpose * T = 1) (J : Mat n n) (r : Vec n) :
    (T * J * T.transpose).mulVec (T.mulVec r) = T.mulVec (J.mulVec r) := by
  rw [Matrix.mulVec_mulVec, Matrix.mul_assoc, hT, Matrix.mul_one, Matrix.mulVec_mulVec]

/-- **C102, the iteration.** Plain Newton iteration in turned unknowns visits the turned points, with the same outcome
    and the same number of evaluations. -/
theorem C102_newton (δ : ℝ) (T : Mat n n) (hT : T.transpose * T = 1) (F F' : Problem n) (tol : ℝ) (k : ℕ) (x : Vec n)
    (hF : ∀ j < k, TurnedAt T F F' (newtonSeq F j x)) :
    newtonSolver δ n F' tol k (T.mulVec x) = { newtonSolver δ n F tol k x with
      x := T.mulVec (newtonSolver δ n F tol k x).x
      xLast := T.mulVec (newtonSolver δ n F tol k x).xLast } ∧
    ((newtonSolver δ n F tol k x).converged = true → ∃ j < k, (newtonSolver δ n F tol k x).x = newtonSeq F j x) := by
  unfold newtonSolver
  generalize (0 : ℕ) = c
  induction k generalizing x c with
  | zero => exact ⟨rfl, fun h => by simp [newtonRun] at h⟩
  | succ k ih =>
    obtain ⟨r, J, h1, h2⟩ := hF 0 (Nat.succ_pos _)
    simp only [newtonSeq] at h1 h2
    have hi : (T * J * T.transpose)⁻¹.mulVec (T.mulVec r) = T.mulVec (J⁻¹.mulVec r) := by
      rw [inv_conj hT, conj_mulVec hT]
    simp only [newtonRun, h1, h2, len_orth hT, det_conj_orth hT, hi]
    by_cases a1 : len r ≤ tol
    · simp only [if_pos a1]
      exact ⟨trivial, fun _ => ⟨0, Nat.succ_pos _, rfl⟩⟩
    simp only [if_neg a1]
    by_cases a2 : J.det = 0 ∨ δ < len (J⁻¹.mulVec r)
    · simp only [if_pos a2]
      exact ⟨trivial, fun h => by simp at h⟩
    simp only [if_neg a2]
    rw [← Matrix.mulVec_sub]
    have hs : ∀ j, newtonSeq F (j + 1) x = newtonSeq F j (x - J⁻¹.mulVec r) := fun j => by
      simp only [newtonSeq, h1]
    obtain ⟨b1, b2⟩ := ih (x - J⁻¹.mulVec r) (fun j hj => by
      rw [← hs]; exact hF (j + 1) (Nat.succ_lt_succ hj)) (c + 1)
    refine ⟨b1, fun hc => ?_⟩
    obtain ⟨j, hj, e⟩ := b2 hc
    exact ⟨j + 1, Nat.succ_lt_succ hj, by rw [hs]; exact e⟩

/-- **C102, the iteration.** So does every iteration that combines Newton and gradient steps, if its choices depend only
    on what does not change (lengths, angles, the count of evaluations). -/
theorem C102_mix (coef : ℕ → Vec n → Vec n → Mat n n → ℝ × ℝ) (keep : ℕ → Vec n → Vec n → Bool) (T : Mat n n)
    (hT : T.transpose * T = 1) (hco : ∀ c x r J, coef c (T.mulVec x) (T.mulVec r) (T * J * T.transpose) = coef c x r J)
    (hke : ∀ c x y, keep c (T.mulVec x) (T.mulVec y) = keep c x y) (F F' : Problem n) (tol : ℝ) (k c : ℕ) (x : Vec n)
    (hF : ∀ j < k, TurnedAt T F F' (mixSeq coef keep F j c x)) :
    mixRun coef keep F' tol k c (T.mulVec x) = { mixRun coef keep F tol k c x with
      x := T.mulVec (mixRun coef keep F tol k c x).x
      xLast := T.mulVec (mixRun coef keep F tol k c x).xLast } ∧
    ((mixRun coef keep F tol k c x).converged = true →
      ∃ j < k, (mixRun coef keep F tol k c x).x = mixSeq coef keep F j c x) := by
  induction k generalizing x c with
  | zero => exact ⟨rfl, fun h => by simp [mixRun] at h⟩
  | succ k ih =>
    obtain ⟨r, J, h1, h2⟩ := hF 0 (Nat.succ_pos _)
    simp only [mixSeq] at h1 h2
    have hi : (T * J * T.transpose)⁻¹.mulVec (T.mulVec r) = T.mulVec (J⁻¹.mulVec r) := by
      rw [inv_conj hT, conj_mulVec hT]
    have ht : (T * J * T.transpose).transpose.mulVec (T.mulVec r) = T.mulVec (J.transpose.mulVec r) := by
      have : (T * J * T.transpose).transpose = T * J.transpose * T.transpose := by
        simp only [Matrix.transpose_mul, Matrix.transpose_transpose, Matrix.mul_assoc]
      rw [this, conj_mulVec hT]
    simp only [mixRun, h1, h2, len_orth hT, hi, ht, hco]
    by_cases a1 : len r ≤ tol
    · simp only [if_pos a1]
      exact ⟨trivial, fun _ => ⟨0, Nat.succ_pos _, rfl⟩⟩
    simp only [if_neg a1]
    set y := x - ((coef c x r J).1 • J⁻¹.mulVec r + (coef c x r J).2 • J.transpose.mulVec r) with hy
    have ey : T.mulVec x - ((coef c x r J).1 • T.mulVec (J⁻¹.mulVec r) + (coef c x r J).2 • T.mulVec (J.transpose.mulVec r))
        = T.mulVec y := by
      rw [hy, Matrix.mulVec_sub, Matrix.mulVec_add, Matrix.mulVec_smul, Matrix.mulVec_smul]
    rw [ey, hke]
    have ek : (if keep c x y = true then T.mulVec y else T.mulVec x) = T.mulVec (if keep c x y = true then y else x) := by
      split_ifs <;> rfl
    rw [ek]
    have hs : ∀ j, mixSeq coef keep F (j + 1) c x = mixSeq coef keep F j (c + 1) (if keep c x y = true then y else x) :=
      fun j => by simp only [mixSeq, h1]; rfl
    obtain ⟨b1, b2⟩ := ih (c + 1) (if keep c x y = true then y else x) (fun j hj => by
      rw [← hs]; exact hF (j + 1) (Nat.succ_lt_succ hj))
    refine ⟨b1, fun hc => ?_⟩
    obtain ⟨j, hj, e⟩ := b2 hc
    exact ⟨j + 1, Nat.succ_lt_succ hj, by rw [hs]; exact e⟩

/-- **C102, the equations.** Away from rotation increments of length up to 1e-90 other than zero, the equations in turned
    lattice axes are the turned equations, with their matrix. -/
theorem C102_turned (P : Updst n) (m s : Fin n → V3) (h : Vec 4) (hh : dot h h = 1)
    (S : P.Symmetry m s (quatToTensor h)) (hcn : dot P.cN P.cN = 1) (hv : 0 < P.detV) (hdt : 0 < P.dt)
    (hd : ∀ i τ, (P.gd (S.π i) (S.ε i * τ)).dtau = (P.gd i τ).dtau) (x : Vec 8)
    (hx : Updst.xiF x = 0 ∨ 1 / 10 ^ 90 < len (Updst.xiF x)) :
    (turnM h).transpose * turnM h = 1 ∧ TurnedAt (turnM h) P.problem (P.turn h).problem x := by
  have hh' := hh
  rw [dot_self_quat] at hh'
  have ho := mul_eq_one_comm.1 (turnM_orth hh')
  refine ⟨ho, P.resid x, P.jac x, rfl, ?_⟩
  show some ((P.turn h).resid _, (P.turn h).jac _) = _
  rw [turnM_mulVec hh', turnM_mulVec hh', (C55_equations P m s h hh S hcn hv x hx).1]
  have e : (P.turn h).jac (turnX h x) = turnM h * P.jac x * (turnM h).transpose := by
    have : (P.turn h).jac (turnX h x) * turnM h = turnM h * P.jac x := by
      apply mat_ext_mulVec
      intro u
      rw [← Matrix.mulVec_mulVec, ← Matrix.mulVec_mulVec, turnM_mulVec hh', turnM_mulVec hh']
      exact (C102_matrix P m s h hh S hv hdt hd x hx).2.1 u
    rw [← this, Matrix.mul_assoc, turnM_orth hh', Matrix.mul_one]
  rw [e]

/-! ### The tangent -/

theorem lup_cases {L : LUP} (hL : L.Sound) (hu : LupUniform L) (hc : LupComplete L) {A A' : Mat 8 8} (B B' : Mat 5 8)
    (hdet : A'.det = A.det) :
    (L A B = none ∧ L A' B' = none) ∨ ∃ Y Y', L A B = some Y ∧ L A' B' = some Y' ∧ A'.det ≠ 0 := by
  by_cases h0 : A.det = 0
  · left
    refine ⟨?_, ?_⟩
    · cases h : L A B with
      | none => rfl
      | some Y => exact absurd h0 (lup_det hL hu h)
    · cases h : L A' B' with
      | none => rfl
      | some Y => exact absurd (hdet.trans h0) (lup_det hL hu h)
  · obtain ⟨Y, hY⟩ := hc A B h0
    obtain ⟨Y', hY'⟩ := hc A' B' (by rw [hdet]; exact h0)
    exact .inr ⟨Y, Y', hY, hY', by rw [hdet]; exact h0⟩

theorem tangent_fails {X : Ext} {K : ℝ} {P : Updst n} {x : Vec 8} (h : X.lup (P.jacU x) (P.pfracRhsT x) = none) :
    Step.tangent X K P x true = none := by
  simp only [Step.tangent, Updst.mtan, if_true, h, Option.map_none]

theorem tangent_value {X : Ext} {K : ℝ} {P : Updst n} {x : Vec 8} {Y : Mat 5 8}
    (h : X.lup (P.jacU x) (P.pfracRhsT x) = some Y) : Step.tangent X K P x true
      = some (some (mtanConvSdSvec true fun i j => if i = 5 ∧ j = 5 then 3 * K else P.mtanOf x Y i j * P.dtRi)) := by
  simp only [Step.tangent, Updst.mtan, if_true, h, Option.map_some]

theorem tangent_off (X : Ext) (K : ℝ) (P : Updst n) (x : Vec 8) : Step.tangent X K P x false = some none := by
  simp only [Step.tangent, Bool.false_eq_true, if_false]

theorem turn_increment (K : ℝ) (P : Updst n) (m s : Fin n → V3) {h : Vec 4} (hh : qn h = 1)
    (S : P.Symmetry m s (quatToTensor h)) (hcn : qn P.cN = 1) (hv : 0 < P.detV) (x : Vec 8)
    (hx : Updst.xiF x = 0 ∨ idpTinySqrt < vecNorm (Updst.xiF x)) {Y Y' : Mat 5 8} (hYY : ∀ j, Y' j = turnX h (Y j))
    (v : Vec 5) (t : ℝ) :
    (P.turn h).dtRi • vecdToSymm ((P.turn h).dStress (turnX h x) (fun k => ∑ j, Y' j k * v j))
        + (sqr3i * ((P.turn h).dtRi * ((P.turn h).detVRi * (P.turn h).aVri * (P.turn h).el.kSdax3 * ∑ j, Y' j (iE 1) * v j)
          + 3 * K * (sqr3i * t))) • (1 : T3)
      = P.dtRi • vecdToSymm (P.dStress x (fun k => ∑ j, Y j k * v j))
        + (sqr3i * (P.dtRi * (P.detVRi * P.aVri * P.el.kSdax3 * ∑ j, Y j (iE 1) * v j)
          + 3 * K * (sqr3i * t))) • (1 : T3) := by
  have hsum : (fun k => ∑ j, Y' j k * v j) = turnX h (fun k => ∑ j, Y j k * v j) := by
    have a : (fun k => ∑ j, Y j k * v j) = ∑ j, v j • Y j := by
      funext k; rw [Finset.sum_apply]; exact Finset.sum_congr rfl fun j _ => mul_comm _ _
    have b : (fun k => ∑ j, Y' j k * v j) = ∑ j, v j • Y' j := by
      funext k; rw [Finset.sum_apply]; exact Finset.sum_congr rfl fun j _ => mul_comm _ _
    rw [a, b, ← turnM_mulVec hh, Matrix.mulVec_sum]
    refine Finset.sum_congr rfl fun j _ => ?_
    rw [hYY j, Matrix.mulVec_smul, turnM_mulVec hh]
  have hs1 : ∑ j, Y' j (iE 1) * v j = turnE h (fun p => ∑ j, Y j (iE p) * v j) 1 :=
    (congrFun hsum (iE 1)).trans (congrFun (turnX_e h _) 1)
  have d1 : (P.turn h).dtRi = P.dtRi := rfl
  have d2 : (P.turn h).detVRi = P.detVRi := rfl
  have d3 : (P.turn h).aVri = P.aVri := rfl
  have d4 : (P.turn h).el = P.el := rfl
  rw [hsum, P.turn_dStress S hh hcn hv x _ hx, hs1, d1, d2, d3, d4, (P.turn_elastInc S hh hv _).2]

/-- **C102, the tangent.** The tangent does not depend on which of the equivalent descriptions of the lattice is used. -/
theorem C102_tangent (X : Ext) (hL : X.lup.Sound) (hu : LupUniform X.lup) (hc : LupComplete X.lup) (K : ℝ) (P : Updst n)
    (m s : Fin n → V3) (h : Vec 4) (hh : dot h h = 1)
    (S : P.Symmetry m s (quatToTensor h)) (hcn : dot P.cN P.cN = 1) (hv : 0 < P.detV) (hdt : 0 < P.dt)
    (hd : ∀ i τ, (P.gd (S.π i) (S.ε i * τ)).dtau = (P.gd i τ).dtau) (x : Vec 8)
    (hx : Updst.xiF x = 0 ∨ 1 / 10 ^ 90 < len (Updst.xiF x)) (want : Bool) :
    Step.tangent X K (P.turn h) (turnX h x) want = Step.tangent X K P x want := by
  cases want with
  | false => exact (tangent_off _ _ _ _).trans (tangent_off _ _ _ _).symm
  | true =>
    have hdet := (C102_matrix P m s h hh S hv hdt hd x hx).2.2.1
    rw [dot_self_quat] at hcn hh
    rcases lup_cases hL hu hc (P.pfracRhsT x) ((P.turn h).pfracRhsT (turnX h x)) hdet with ⟨hY, hY'⟩ | ⟨Y, Y', hY, hY', h0⟩
    · exact (tangent_fails hY').trans (tangent_fails hY).symm
    · refine (tangent_value hY').trans (Eq.trans ?_ (tangent_value hY).symm)
      refine congrArg (fun t => some (some t)) ?_
      have hYY := P.turn_solutions S hh hcn hv hdt hd x hx h0 (hL _ _ _ hY) (hL _ _ _ hY')
      refine tan_ext fun E hE => ?_
      have e1 := (P.turn h).tangent_tensor K (turnX h x) Y' E hE
      have e2 := P.tangent_tensor K x Y E hE
      exact e1.trans ((turn_increment K P m s hh S hcn hv x hx hYY (symmToVecd E) E.trace).trans e2.symm)

/-- **C102, the update.** The whole update, with or without tangent: if the solver returns turned unknowns for the turned
    problem (C102_newton, C102_mix), the update of the turned state is the turned update: the same failure, or the same
    stress, tangent, energy, temperature, moduli, strengths and rates, with the elastic strain, orientation and slip rates
    described in turned axes. -/
theorem C102_update (X : Ext) (hL : X.lup.Sound) (hu : LupUniform X.lup) (hc : LupComplete X.lup) (M : Material n nH) (inp : Inputs) (m : Mem nH n)
    (mm ss : Fin n → V3) (hg : M.geom = slipPQ mm ss) (hsl : ∀ i, IsSlipSystem (mm i) (ss i))
    (h : Vec 4) (hh : dot h h = 1) (π : Equiv.Perm (Fin n)) (ε : Fin n → ℝ)
    (he : ∀ i, ε i = 1 ∨ ε i = -1)
    (hm : ∀ i, dyad ((quatToTensor h).mulVec (ss i)) ((quatToTensor h).mulVec (mm i))
        = ε i • dyad (ss (π i)) (mm (π i)))
    (hdt : 0 < inp.dt) (hK : KinSym M.kin (Step.tK M inp m) π ε) (hS : SlopeSym M.kin (Step.tK M inp m) π ε)
    (hel : ∀ v p eV (E : T3), E.IsSymm →
      latticeStress M.el v p eV (quatToTensor h * E * (quatToTensor h).transpose)
        = quatToTensor h * latticeStress M.el v p eV E * (quatToTensor h).transpose)
    (hsol : ∀ hU P, Step.setup M inp m = .ok (hU, P) →
      Step.solve X inp (P.turn h) = { Step.solve X inp P with
        x := turnX h (Step.solve X inp P).x
        xLast := turnX h (Step.solve X inp P).xLast } ∧
      ((Step.solve X inp P).converged = true →
        Updst.xiF (Step.solve X inp P).x = 0 ∨ 1 / 10 ^ 90 < len (Updst.xiF (Step.solve X inp P).x))) :
    getResponseSngl X M inp (turnMem h π ε m)
      = mapRes (turnMem h π ε) (getResponseSngl X M inp m) := by
  have hh0 := hh
  rw [dot_self_quat] at hh
  have hcq : qn (qconj h) = 1 := by rw [qn_qconj, hh]
  unfold getResponseSngl
  rw [setup_turn M inp m hh hK]
  cases h1 : Step.setup M inp m with
  | undef w => rfl
  | fail s =>
    show Res.fail s _ = Res.fail s _
    rfl
  | ok u =>
    obtain ⟨hU, P⟩ := u
    obtain ⟨kU, v, sc, a1, a2, a3, a4, a5, a6, a7⟩ := Step.setup_ok h1
    obtain ⟨hs1, hs2'⟩ := hsol hU P h1
    have hcn : qn P.cN = 1 := by rw [a7]; exact qn_quatN a1
    have hv : 0 < P.detV := by rw [a7]; exact a4
    obtain ⟨S, rfl, rfl⟩ : ∃ S : P.Symmetry mm ss (quatToTensor h), S.π = π ∧ S.ε = ε :=
      ⟨{ geom := by rw [a7]; exact hg
         slip := hsl, π := π, ε := ε, sgn := he
         map := fun i => by rw [← dyad_mulVec]; exact hm i
         rate := by
           rw [a7]
           exact rate_of_odd he (fun i τ => hK.same _ _ v sc a6 i τ) fun i τ => hK.odd _ _ v sc a6 i τ
         elast := fun E hE => by rw [a7]; exact hel _ _ _ E hE }, rfl, rfl⟩
    simp only [Out.bind, Step.run]
    rw [hs1]
    by_cases h2 : (Step.solve X inp P).converged = false
    · simp only [h2, if_true]; rfl
    simp only [if_neg h2]
    have hs2 := hs2' (by simpa using h2)
    have hgd : P.gd = M.kin.evalGdot v := by rw [a7]
    have hd : ∀ i τ, (P.gd (S.π i) (S.ε i * τ)).dtau = (P.gd i τ).dtau := by
      intro i τ
      rw [hgd]
      exact hS _ _ v sc a6 i τ
    have hdt' : 0 < P.dt := by rw [a7]; exact hdt
    have hcn' : dot P.cN P.cN = 1 := by rw [dot_self_quat]; exact hcn
    have hw : (turnMem h S.π S.ε m).mtan = m.mtan := rfl
    have hu' : Step.eosUpdate M inp (turnMem h S.π S.ε m) = Step.eosUpdate M inp m := rfl
    rw [hw, hu', C102_tangent X hL hu hc _ P mm ss h hh0 S hcn' hv hdt' hd _ hs2]
    generalize m.mtan.isSome = want
    cases Step.tangent X (Step.eosUpdate M inp m).bulkNew P (Step.solve X inp P).x want with
    | none => rfl
    | some t =>
      rw [P.turn_stress S hh hcn hv _ hs2]
      have hhist : Step.newHist X inp (Hist.ofArray (turnMem h S.π S.ε m).hist) hU
          (P.turn h) { Step.solve X inp P with
            x := turnX h (Step.solve X inp P).x
            xLast := turnX h (Step.solve X inp P).xLast } want
          = { Step.newHist X inp (Hist.ofArray m.hist) hU P (Step.solve X inp P) want with
              e := turnE h (Step.newHist X inp (Hist.ofArray m.hist) hU P (Step.solve X inp P) want).e
              q := quatProd (Step.newHist X inp (Hist.ofArray m.hist) hU P (Step.solve X inp P) want).q
                (qconj h)
              gdot := permRates S.π S.ε
                (Step.newHist X inp (Hist.ofArray m.hist) hU P (Step.solve X inp P) want).gdot } := by
        rw [histOf_turnMem]
        have hfs : ∀ y, Step.flowStr (P.turn h) (turnX h y) = Step.flowStr P y := by
          intro y
          unfold Step.flowStr
          rw [P.turn_disRate S hh hv]
          rfl
        have hgd : ∀ y, (P.turn h).gdot (turnX h y) = permRates S.π S.ε (P.gdot y) := by
          intro y
          funext j
          have := P.turn_gdot S hh hv y (S.π.symm j)
          rw [Equiv.apply_symm_apply] at this
          exact this
        have hfq : Step.flipQuat ((P.turn h).cQuat (turnX h (Step.solve X inp P).x)) (P.turn h).cN
            = quatProd (Step.flipQuat (P.cQuat (Step.solve X inp P).x) P.cN) (qconj h) := by
          rw [P.turn_cQuat hh _ hs2]
          show Step.flipQuat _ (quatProd P.cN (qconj h)) = _
          unfold Step.flipQuat
          rw [dot4_turn hcq]
          split_ifs
          · rw [quatProd_left_neg]
          · rfl
        have hl : Step.lastX { Step.solve X inp P with
            x := turnX h (Step.solve X inp P).x
            xLast := turnX h (Step.solve X inp P).xLast } want = turnX h (Step.lastX (Step.solve X inp P) want) := by
          cases want <;> rfl
        simp only [Step.newHist, hl, hfs, hgd, hfq, P.turn_shrateEff S hh hv, P.turn_eF hh]
      rw [hhist]
      cases M.el.getGmod with
      | undef w => rfl
      | fail s =>
        simp only [mapRes, turnMem, histOf, Hist.ofArray_toArray]
        rfl
      | ok g =>
        simp only [mapRes, turnMem, histOf, Hist.ofArray_toArray]
        rfl

/-- **C102, the update with plain Newton iteration.** If no point that the iteration visits has a rotation increment of
    length up to 1e-90 other than zero, the update of the turned state is the turned update, tangent included. -/
theorem C102_plain (δ : ℝ) (lup : LUP) (cost : ℕ) (hL : lup.Sound) (hu : LupUniform lup) (hc : LupComplete lup)
    (M : Material n nH) (inp : Inputs) (m : Mem nH n)
    (mm ss : Fin n → V3) (hg : M.geom = slipPQ mm ss) (hsl : ∀ i, IsSlipSystem (mm i) (ss i))
    (h : Vec 4) (hh : dot h h = 1) (π : Equiv.Perm (Fin n)) (ε : Fin n → ℝ)
    (he : ∀ i, ε i = 1 ∨ ε i = -1)
    (hm : ∀ i, dyad ((quatToTensor h).mulVec (ss i)) ((quatToTensor h).mulVec (mm i))
        = ε i • dyad (ss (π i)) (mm (π i)))
    (hdt : 0 < inp.dt) (hK : KinSym M.kin (Step.tK M inp m) π ε) (hS : SlopeSym M.kin (Step.tK M inp m) π ε)
    (hel : ∀ v p eV (E : T3), E.IsSymm →
      latticeStress M.el v p eV (quatToTensor h * E * (quatToTensor h).transpose)
        = quatToTensor h * latticeStress M.el v p eV E * (quatToTensor h).transpose)
    (hw : ∀ hU P, Step.setup M inp m = .ok (hU, P) → ∀ j < 200,
      Updst.xiF (newtonSeq P.problem j 0) = 0 ∨ 1 / 10 ^ 90 < len (Updst.xiF (newtonSeq P.problem j 0))) :
    getResponseSngl ⟨newtonSolver δ 8, lup, cost⟩ M inp (turnMem h π ε m)
      = mapRes (turnMem h π ε) (getResponseSngl ⟨newtonSolver δ 8, lup, cost⟩ M inp m) := by
  refine C102_update _ hL hu hc M inp m mm ss hg hsl h hh π ε he hm hdt hK hS hel fun hU P hP => ?_
  obtain ⟨kU, v, sc, a1, a2, a3, a4, a5, a6, a7⟩ := Step.setup_ok hP
  have hh' := hh
  rw [dot_self_quat] at hh'
  have hcn : dot P.cN P.cN = 1 := by rw [dot_self_quat, a7]; exact qn_quatN a1
  have hv : 0 < P.detV := by rw [a7]; exact a4
  have hdt' : 0 < P.dt := by rw [a7]; exact hdt
  have hgd : P.gd = M.kin.evalGdot v := by rw [a7]
  obtain ⟨S, e1, e2⟩ : ∃ S : P.Symmetry mm ss (quatToTensor h), S.π = π ∧ S.ε = ε :=
    ⟨{ geom := by rw [a7]; exact hg
       slip := hsl, π := π, ε := ε, sgn := he
       map := fun i => by rw [← dyad_mulVec]; exact hm i
       rate := by
         rw [a7]
         exact rate_of_odd he (fun i τ => hK.same _ _ v sc a6 i τ) fun i τ => hK.odd _ _ v sc a6 i τ
       elast := fun E hE => by rw [a7]; exact hel _ _ _ E hE }, rfl, rfl⟩
  have hd : ∀ i τ, (P.gd (S.π i) (S.ε i * τ)).dtau = (P.gd i τ).dtau := by
    intro i τ
    rw [e1, e2, hgd]
    exact hS _ _ v sc a6 i τ
  have hT := fun x hx => C102_turned P mm ss h hh S hcn hv hdt' hd x hx
  obtain ⟨b1, b2⟩ := C102_newton δ (turnM h) (hT 0 (Or.inl Updst.xiF_zero)).1 P.problem (P.turn h).problem inp.tol 200 0
    fun j hj => (hT _ (hw hU P hP j hj)).2
  rw [Matrix.mulVec_zero, turnM_mulVec hh', turnM_mulVec hh'] at b1
  refine ⟨b1, fun hcv => ?_⟩
  obtain ⟨j, hj, e⟩ := b2 hcv
  have e' : (Step.solve ⟨newtonSolver δ 8, lup, cost⟩ inp P).x = newtonSeq P.problem j 0 := e
  rw [e']
  exact hw hU P hP j hj

/-- **C102, slip laws.** Slip laws that treat related systems alike have slopes that do so. -/
theorem C102_slopes {K : Kin n nH} {T : ℝ} {rel : Fin n → Fin n → Prop} (hK : EvenKin K T rel)
    {π : Equiv.Perm (Fin n)} {ε : Fin n → ℝ} (he : ∀ i, ε i = 1 ∨ ε i = -1) (hπ : ∀ i, rel i (π i)) :
    SlopeSym K T π ε := fun p h v sc hv i τ => (hK.slip he hπ p h v sc hv i τ).2

/-- **C102, the points visited.** A crystal that has rotations without a common axis in common with its loading (C100) is
    one case: the points visited have no rotation increment at all. -/
theorem C102_shared {M : Material n nH} {inp : Inputs} {mem : Mem nH n} {hU : Vec nH} {P : Updst n}
    (hset : Step.setup M inp mem = .ok (hU, P))
    {m s : Fin n → V3} (hgeom : M.geom = slipPQ m s) (hsys : ∀ i, IsSlipSystem (m i) (s i)) {G : Set T3} (hG : NoAxis G)
    (hL : ∀ R ∈ G, LatticeSym M m s (Step.tK M inp mem) R)
    (hs : SymState G (histOf mem)) (hi : SymLoad G (quatToTensor (histOf mem).q) inp) (j : ℕ) :
    Updst.xiF (newtonSeq P.problem j 0) = 0 := by
  obtain ⟨noξ, hF⟩ := symKept_setup hset hgeom hsys hG hL hs hi
  have key : ∀ j x, (∀ T ∈ turnsOf G, T.mulVec x = x) →
      ∀ T ∈ turnsOf G, T.mulVec (newtonSeq P.problem j x) = newtonSeq P.problem j x := by
    intro j
    induction j with
    | zero => intro x hx; exact hx
    | succ j ih =>
      intro x hx
      obtain ⟨r, J, hr, hrJ⟩ := hF.2 x hx
      have e : newtonSeq P.problem (j + 1) x = newtonSeq P.problem j (x - J⁻¹.mulVec r) := by
        simp only [newtonSeq, hr]
      rw [e]
      refine ih _ fun T hT => ?_
      have := SymKept.step hF.1 hrJ 1 0 T hT
      simp only [one_smul, zero_smul, add_zero] at this
      rw [Matrix.mulVec_sub, hx T hT, this]
  have e : ∀ x, Updst.xiF x = rScale • (fun i => x (iR i)) := fun _ => rfl
  rw [e, noξ _ (key j 0 fun T _ => Matrix.mulVec_zero T), smul_zero]

/-! ### a case that meets the hypotheses: copper stretched along a cube axis, described in axes turned by a third of a
    turn about [111] -/

example (t : Mat 6 6) : ∃ (π : Equiv.Perm (Fin 12)) (ε : Fin 12 → ℝ) (m' : Mem 1 12),
    getResponseSngl ⟨newtonSolver 1 8, idealLup, 1⟩ newtonCopper (nanoInp pullD 0)
      (nanoMem ![1 / 10 ^ 5, 0, 0, 0, 0] (some t)) = .ok m' ∧
    getResponseSngl ⟨newtonSolver 1 8, idealLup, 1⟩ newtonCopper (nanoInp pullD 0)
      (turnMem exTurn π ε (nanoMem ![1 / 10 ^ 5, 0, 0, 0, 0] (some t))) = .ok (turnMem exTurn π ε m') := by
  have hh : dot exTurn exTurn = 1 := by simp [dot, exTurn]; norm_num
  have hq : qn exTurn = 1 := by rw [← dot_self_quat]; exact hh
  obtain ⟨m', h, -⟩ := nano_step _ pullD_dev pullD_frob.1 pullD_frob.2 0 (by simp [len, dot]) ![1 / 10 ^ 5, 0, 0, 0, 0]
    (by simp [len, dot, Fin.sum_univ_five]) (some t)
  have hu := nano_unit ![1 / 10 ^ 5, 0, 0, 0, 0] (some t)
  obtain ⟨π, ε, he, hm⟩ := C55_permutation fccM fccS .fcc (Equiv.addRight 2) (fun _ => 1)
  rw [← exTurn_cubic] at hm
  have hv : EvenKin newtonCopper.kin (Step.tK newtonCopper (nanoInp pullD 0)
      (nanoMem ![1 / 10 ^ 5, 0, 0, 0, 0] (some t))) fun _ _ => True :=
    C100_voce copperVoce (by norm_num [copperVoce]) _ _
  have hst : ∃ a : V3, vecdToSymm (histOf (nanoMem ![1 / 10 ^ 5, 0, 0, 0, 0] (some t))).e = Matrix.diagonal a :=
    ⟨![1 / 10 ^ 5 / Real.sqrt 2, -(1 / 10 ^ 5 / Real.sqrt 2), 0], by
      rw [nano_hist]
      ext i j; fin_cases i <;> fin_cases j <;> simp [nanoHist, vecdToSymm, ofSvecP, vecdsToSvecP, sqr2i] <;> ring⟩
  have hld : ∃ a : V3, devOfSvecP pullD = Matrix.diagonal a :=
    ⟨![1, -1 / 2, -1 / 2], by ext i j; fin_cases i <;> fin_cases j <;> simp [devOfSvecP, pullD]⟩
  refine ⟨π, ε, m', h, ?_⟩
  rw [C102_plain 1 idealLup 1 idealLup_sound idealLup_uniform idealLup_complete newtonCopper _ _ fccM fccS rfl fcc_slip
    exTurn hh π ε he hm ?_ (C55_voce copperVoce (by norm_num [copperVoce]) _ _ π ε he)
    (C102_slopes hv he fun _ => trivial)
    (fun v p eV E _ => latticeStress_turn (isRot_of_unit hq).1 (isRot_of_unit hq).2.1
      (by rw [exTurn_cubic]; exact cubic_elastSym _ _ _ _ _) (Or.inl rfl) v p eV E)
    fun hU P hP j _ => Or.inl (C102_shared hP (m := fccM) (s := fccS) rfl fcc_slip cubeTurns_noAxis ?_ ?_ ?_ j), h]
  · rfl
  · norm_num [nanoInp]
  · intro R hR
    rcases hR with rfl | rfl <;> refine C100_cubic .fcc (c11 := 168.4) (c12 := 121.4) (c44 := 75.2) rfl hv _ _ ?_ <;>
      rw [Matrix.det_fin_three] <;> simp [cubicOp]
  · exact ⟨hu.1, (C100_tensors.1 _ (vecdToSymm_isDev _)).2 hst⟩
  · refine ⟨pullD_dev, fun R hR => ?_, rfl⟩
    rw [hu.2, Matrix.one_mul, Matrix.transpose_one, Matrix.mul_one]
    exact (C100_tensors.1 _ pullD_dev).2 hld R hR

end Ecm.Props
