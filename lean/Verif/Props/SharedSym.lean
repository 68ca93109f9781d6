/- Property theorems C100: a crystal whose state and loading have rotations of its lattice in common keeps them
   (src/ecmech/ECMech_evptn.h, getResponseSngl and computeRJ; ECMech_slipgeom.h).

   By symmetry such a crystal should stay as symmetric as it was, and should not turn at all if the rotations have no
   axis in common: nothing then tells one sense of turning from the other.  This holds for a crystal pulled along a cube
   axis, a body diagonal or the axis of a hexagonal lattice, or stretched in any way along its cube axes. -/
import Verif.Lemmas.SharedSym
import Verif.Props.Symmetry
import Verif.Props.Response
import Verif.Lemmas.ConvergeStep
import Verif.Props.PlainNewton

namespace Ecm.Props
open Ecm Spec Matrix

variable {n nH : ℕ}

/-! ### Rotations in common -/

/-- A rotation of the lattice that the crystal does not notice at temperature `T`: the elastic law follows it, and it
    takes every slip system to one, perhaps reversed, that slips in the same way. -/
structure LatticeSym (M : Material n nH) (m s : Fin n → V3) (T : ℝ) (H : T3) : Prop where
  rot : IsRot H
  elast : ∀ v p eV (E : T3), E.IsSymm → latticeStress M.el v p eV (H * E * H.transpose)
    = H * latticeStress M.el v p eV E * H.transpose
  slip : ∃ (π : Equiv.Perm (Fin n)) (ε : Fin n → ℝ), (∀ i, ε i = 1 ∨ ε i = -1) ∧
    (∀ i, H * dyad (s i) (m i) * H.transpose = ε i • dyad (s (π i)) (m (π i))) ∧
    ∀ p h v sc, M.kin.getVals p T h = .ok (v, sc) → ∀ i τ,
      (M.kin.evalGdot v (π i) (ε i * τ)).gdot = ε i * (M.kin.evalGdot v i τ).gdot ∧
      (M.kin.evalGdot v (π i) (ε i * τ)).dtau = (M.kin.evalGdot v i τ).dtau

/-- the rotations leave no direction fixed -/
def NoAxis (G : Set T3) : Prop := ∀ v : V3, (∀ H ∈ G, H.mulVec v = v) → v = 0

/-- a stored state (with unit quaternion) whose elastic strain has the symmetries -/
structure SymState (G : Set T3) (H : Hist nH n) : Prop where
  unit : dot H.q H.q = 1
  strain : ∀ R ∈ G, R * vecdToSymm H.e * R.transpose = vecdToSymm H.e

/-- a step without spin whose deformation rate has the symmetries of a crystal with orientation `C` -/
structure SymLoad (G : Set T3) (C : T3) (inp : Inputs) : Prop where
  dev : IsDev (devOfSvecP inp.d)
  rate : ∀ R ∈ G, (C * R * C.transpose) * devOfSvecP inp.d * (C * R * C.transpose).transpose = devOfSvecP inp.d
  spin : inp.w = 0

/-! ### Solvers -/

/-- The equations keep the symmetries `G`: where the unknowns have them, so has the residual, and the matrix commutes
    with them. -/
def SymKept (G : Set (Mat n n)) (F : Problem n) : Prop :=
  (∀ T ∈ G, T * T.transpose = 1) ∧
  ∀ x, (∀ T ∈ G, T.mulVec x = x) → ∃ r J, F x = some (r, J) ∧ ∀ T ∈ G, T.mulVec r = r ∧ T * J = J * T

/-- a solver that keeps its contract and the symmetries `G` of the equations -/
structure SymSolver (G : Set (Mat n n)) (S : Solver n) : Prop where
  sound : S.Sound
  stays : ∀ F tol maxIter, SymKept G F → (S F tol maxIter fun _ => 0).converged = true →
    ∀ T ∈ G, T.mulVec (S F tol maxIter fun _ => 0).x = (S F tol maxIter fun _ => 0).x

/-- Iteration with steps that are any combination of the Newton step and the gradient of the squared residual, with
    coefficients `coef` chosen in any way, and with any rule `keep` for refusing a step.  Trust-region dogleg methods
    are of this form. -/
noncomputable def mixRun (coef : ℕ → Vec n → Vec n → Mat n n → ℝ × ℝ) (keep : ℕ → Vec n → Vec n → Bool)
    (F : Problem n) (tol : ℝ) : ℕ → ℕ → Vec n → SolveResult n
  | 0, c, x => { converged := false, x := x, xLast := x, nFEvals := c }
  | k + 1, c, x =>
    match F x with
    | none => { converged := false, x := x, xLast := x, nFEvals := c + 1 }
    | some (r, J) =>
      if len r ≤ tol then { converged := true, x := x, xLast := x, nFEvals := c + 1 }
      else
        let y := x - ((coef c x r J).1 • J⁻¹.mulVec r + (coef c x r J).2 • J.transpose.mulVec r)
        mixRun coef keep F tol k (c + 1) (if keep c x y then y else x)

theorem SymKept.step {G : Set (Mat n n)} (hG : ∀ T ∈ G, T * T.transpose = 1) {r : Vec n} {J : Mat n n}
    (h : ∀ T ∈ G, T.mulVec r = r ∧ T * J = J * T) (a b : ℝ) :
    ∀ T ∈ G, T.mulVec (a • J⁻¹.mulVec r + b • J.transpose.mulVec r)
      = a • J⁻¹.mulVec r + b • J.transpose.mulVec r := by
  intro T hT
  obtain ⟨h1, h2⟩ := h T hT
  have hT' : T.transpose * T = 1 := mul_eq_one_comm.1 (hG T hT)
  have e1 : T * J⁻¹ = J⁻¹ * T := by
    by_cases hJ : IsUnit J.det
    · have a1 : J⁻¹ * J = 1 := Matrix.nonsing_inv_mul _ hJ
      have a2 : J * J⁻¹ = 1 := Matrix.mul_nonsing_inv _ hJ
      calc T * J⁻¹ = J⁻¹ * J * (T * J⁻¹) := by rw [a1, Matrix.one_mul]
        _ = J⁻¹ * (J * T) * J⁻¹ := by simp only [Matrix.mul_assoc]
        _ = J⁻¹ * T * (J * J⁻¹) := by rw [← h2]; simp only [Matrix.mul_assoc]
        _ = _ := by rw [a2, Matrix.mul_one]
    · rw [Matrix.nonsing_inv_apply_not_isUnit _ hJ]; simp
  have e2 : T * J.transpose = J.transpose * T := by
    have h3 := congrArg Matrix.transpose h2
    rw [Matrix.transpose_mul, Matrix.transpose_mul] at h3
    calc T * J.transpose = T * (J.transpose * T.transpose) * T := by
          rw [Matrix.mul_assoc, Matrix.mul_assoc, hT', Matrix.mul_one]
      _ = T * T.transpose * J.transpose * T := by rw [h3]; simp only [Matrix.mul_assoc]
      _ = _ := by rw [hG T hT, Matrix.one_mul]
  rw [Matrix.mulVec_add, Matrix.mulVec_smul, Matrix.mulVec_smul, Matrix.mulVec_mulVec, Matrix.mulVec_mulVec, e1, e2,
    ← Matrix.mulVec_mulVec, ← Matrix.mulVec_mulVec, h1]

/-- **C100, solvers.** Every iteration that combines Newton and gradient steps in any way keeps the symmetries. -/
theorem C100_mix (coef : ℕ → Vec n → Vec n → Mat n n → ℝ × ℝ) (keep : ℕ → Vec n → Vec n → Bool) (G : Set (Mat n n)) :
    SymSolver G (fun F tol maxIter x0 => mixRun coef keep F tol maxIter 0 x0 : Solver n) where
  sound := by
    intro F tol maxIter x0
    have h : ∀ k c x, (mixRun coef keep F tol k c x).converged = true →
        (∃ r J, F (mixRun coef keep F tol k c x).x = some (r, J) ∧ vecNorm r ≤ tol) ∧
        (mixRun coef keep F tol k c x).xLast = (mixRun coef keep F tol k c x).x := by
      intro k
      induction k with
      | zero => intro c x hc; simp [mixRun] at hc
      | succ k ih =>
        intro c x hc
        cases hF : F x with
        | none => simp [mixRun, hF] at hc
        | some u =>
          obtain ⟨r, J⟩ := u
          by_cases h1 : len r ≤ tol
          · simp only [mixRun, hF, if_pos h1]
            exact ⟨⟨r, J, rfl, h1⟩, trivial⟩
          · simp only [mixRun, hF, if_neg h1] at hc ⊢
            exact ih _ _ hc
    exact h _ _ _
  stays := by
    intro F tol maxIter hF
    have h : ∀ k c x, (∀ T ∈ G, T.mulVec x = x) →
        ∀ T ∈ G, T.mulVec (mixRun coef keep F tol k c x).x = (mixRun coef keep F tol k c x).x := by
      intro k
      induction k with
      | zero => intro c x hx; exact hx
      | succ k ih =>
        intro c x hx
        obtain ⟨r, J, hr, hrJ⟩ := hF.2 x hx
        by_cases h1 : len r ≤ tol
        · simp only [mixRun, hr, if_pos h1]; exact hx
        · simp only [mixRun, hr, if_neg h1]
          refine ih _ _ fun T hT => ?_
          split_ifs
          · rw [Matrix.mulVec_sub, hx T hT, SymKept.step hF.1 hrJ _ _ T hT]
          · exact hx T hT
    intro _
    exact h _ _ _ fun T _ => Matrix.mulVec_zero T

/-- **C100, solvers.** So does plain Newton iteration. -/
theorem C100_newton (δ : ℝ) (G : Set (Mat n n)) : SymSolver G (newtonSolver δ n) where
  sound := newtonSolver_sound δ n
  stays := by
    intro F tol maxIter hF
    have h : ∀ k c x, (∀ T ∈ G, T.mulVec x = x) →
        ∀ T ∈ G, T.mulVec (newtonRun δ F tol k c x).x = (newtonRun δ F tol k c x).x := by
      intro k
      induction k with
      | zero => intro c x hx; exact hx
      | succ k ih =>
        intro c x hx
        obtain ⟨r, J, hr, hrJ⟩ := hF.2 x hx
        unfold newtonRun
        simp only [hr]
        split_ifs with h1 h2
        · exact hx
        · exact hx
        · refine ih _ _ fun T hT => ?_
          have := SymKept.step hF.1 hrJ 1 0 T hT
          simp only [one_smul, zero_smul, add_zero] at this
          rw [Matrix.mulVec_sub, hx T hT, this]
    intro _
    exact h _ _ _ fun T _ => Matrix.mulVec_zero T

/-! ### The equations -/

theorem turnM_orth {h : Vec 4} (hh : qn h = 1) : turnM h * (turnM h).transpose = 1 := by
  obtain ⟨r1, r2, -⟩ := isRot_of_unit hh
  have hc : qn (qconj h) = 1 := by rw [qn_qconj, hh]
  have e : (turnM h).transpose = turnM (qconj h) := by
    have key : ∀ i j : Fin 8, (∃ k, i = iE k) ∨ ∃ k, i = iR k := fun i _ => by
      by_cases hi : i.val < 5
      · exact Or.inl ⟨⟨i.val, hi⟩, rfl⟩
      · exact Or.inr ⟨⟨i.val - 5, by omega⟩, Fin.ext (by simp [iR]; omega)⟩
    ext i j
    unfold turnM
    rw [quatToTensor_qconj, getRotMatVecd_transpose]
    rcases key i j with ⟨a, rfl⟩ | ⟨a, rfl⟩ <;> rcases key j j with ⟨b, rfl⟩ | ⟨b, rfl⟩ <;> simp
  rw [e]
  apply mat_ext_mulVec
  intro v
  rw [← Matrix.mulVec_mulVec, turnM_mulVec hc, turnM_mulVec hh, Matrix.one_mulVec]
  show block8 (turnE h fun i => turnX (qconj h) v (iE i))
    ((quatToTensor h).mulVec fun i => turnX (qconj h) v (iR i)) = v
  rw [turnX_e, turnX_r, turnE_eq hh, turnE_eq hc, Matrix.mulVec_mulVec, Matrix.mulVec_mulVec, quatToTensor_qconj,
    getRotMatVecd_transpose, r1, (getRotMatVecd_orth r1 r2).1, Matrix.one_mulVec, Matrix.one_mulVec, block8_eta]

/-- **C100, equations.** If a problem has a symmetry (state and loading do not change when lattice and observer turn
    together), turning the trial point turns the residual: if one is accepted, so is the other.  At trial points that
    have the symmetry themselves, and no rotation increment, the residual has it, and the Newton matrix commutes with
    it.  (Rotation increments of length between zero and 1e-90, which the code rounds, are left out.) -/
theorem C100_equations (P : Updst n) (m s : Fin n → V3) (h : Vec 4) (hh : dot h h = 1)
    (S : P.Symmetry m s (quatToTensor h)) (hcn : dot P.cN P.cN = 1) (hv : 0 < P.detV) (hs : P.Shares h) :
    (∀ x, (Updst.xiF x = 0 ∨ 1 / 10 ^ 90 < len (Updst.xiF x)) → P.resid (turnX h x) = turnX h (P.resid x)) ∧
    ∀ x, turnX h x = x → Updst.xiF x = 0 → turnX h (P.resid x) = P.resid x ∧
      ((∀ i τ, (P.gd (S.π i) (S.ε i * τ)).dtau = (P.gd i τ).dtau) → turnM h * P.jac x = P.jac x * turnM h) := by
  rw [dot_self_quat] at hh hcn
  refine ⟨fun x hx => P.shares_resid S hh hcn hv hs x hx, fun x hx hξ => ⟨?_, fun hd => ?_⟩⟩
  · rw [← P.shares_resid S hh hcn hv hs x (Or.inl hξ), hx]
  · exact P.shares_jac S hh hcn hv hs hd x hx hξ

/-! ### One step -/

/-- what a symmetric step solves -/
theorem symProblem {M : Material n nH} {inp : Inputs} {mem : Mem nH n} {hU : Vec nH} {P : Updst n}
    (hset : Step.setup M inp mem = .ok (hU, P))
    {m s : Fin n → V3} (hgeom : M.geom = slipPQ m s) (hsys : ∀ i, IsSlipSystem (m i) (s i)) {G : Set T3}
    (hs : SymState G (histOf mem)) (hi : SymLoad G (quatToTensor (histOf mem).q) inp) {R : T3} (hR : R ∈ G)
    (hL : LatticeSym M m s (Step.tK M inp mem) R) :
    ∃ (h : Vec 4) (S : P.Symmetry m s (quatToTensor h)), qn h = 1 ∧ quatToTensor h = R ∧ P.Shares h ∧
      ∀ i τ, (P.gd (S.π i) (S.ε i * τ)).dtau = (P.gd i τ).dtau := by
  obtain ⟨_, v, _, -, -, -, -, -, hV, hP⟩ := Step.setup_ok hset
  obtain ⟨h, hh, rfl⟩ := exists_quat hL.rot
  obtain ⟨π, ε, he, hm, hk⟩ := hL.slip
  have hkv := hk _ _ _ _ hV
  have hgd : P.gd = M.kin.evalGdot v := by rw [hP]
  rw [← hgd] at hkv
  have hu : qn (histOf mem).q = 1 := by rw [← dot_self_quat]; exact hs.unit
  have hcN : P.cN = (histOf mem).q := by rw [hP]; exact quatN_of_unit hu
  have hQ : quatToTensor (P.sampleTurn h)
      = quatToTensor (histOf mem).q * quatToTensor h * (quatToTensor (histOf mem).q).transpose := by
    unfold Updst.sampleTurn
    rw [quatToTensor_prod, quatToTensor_prod, quatToTensor_qconj, hcN]
  have hD : vecdToSymm P.dSm = devOfSvecP inp.d := by
    rw [hP]
    show vecdToSymm (svecToVecd inp.d) = _
    rw [svecToVecd_dev hi.dev, vecdToSymm_symmToVecd _ hi.dev]
  refine ⟨h, { geom := by rw [hP]; exact hgeom
               slip := hsys, π := π, ε := ε, sgn := he, map := hm
               rate := fun i τ => (hkv i τ).1
               elast := fun E hE => by rw [hP]; exact hL.elast _ _ _ E hE }, hh, rfl, ⟨?_, ?_, ?_⟩,
    fun i τ => (hkv i τ).2⟩
  · rw [hP]
    show turnE h (histOf mem).e = (histOf mem).e
    unfold turnE
    rw [hs.strain _ hR, symmToVecd_vecdToSymm]
  · rw [hQ, hD]; exact hi.rate _ hR
  · have : P.wSm = 0 := by rw [hP]; exact hi.spin
    rw [this, Matrix.mulVec_zero]

/-- the rotations as turns of the unknowns -/
def turnsOf (G : Set T3) : Set (Mat 8 8) := { T | ∃ h, qn h = 1 ∧ quatToTensor h ∈ G ∧ T = turnM h }

theorem symKept_setup {M : Material n nH} {inp : Inputs} {mem : Mem nH n} {hU : Vec nH} {P : Updst n}
    (hset : Step.setup M inp mem = .ok (hU, P))
    {m s : Fin n → V3} (hgeom : M.geom = slipPQ m s) (hsys : ∀ i, IsSlipSystem (m i) (s i)) {G : Set T3} (hG : NoAxis G)
    (hL : ∀ R ∈ G, LatticeSym M m s (Step.tK M inp mem) R)
    (hs : SymState G (histOf mem)) (hi : SymLoad G (quatToTensor (histOf mem).q) inp) :
    (∀ x : Vec 8, (∀ T ∈ turnsOf G, T.mulVec x = x) → (fun i => x (iR i)) = 0) ∧ SymKept (turnsOf G) P.problem := by
  obtain ⟨_, v, _, -, -, -, hv0, -, -, hP⟩ := Step.setup_ok hset
  have hu : qn (histOf mem).q = 1 := by rw [← dot_self_quat]; exact hs.unit
  have hcN : P.cN = (histOf mem).q := by rw [hP]; exact quatN_of_unit hu
  have hcn : qn P.cN = 1 := by rw [hcN]; exact hu
  have hv : 0 < P.detV := by rw [hP]; exact hv0
  have hprob := fun R (hR : R ∈ G) => symProblem hset hgeom hsys hs hi hR (hL R hR)
  have hT : ∀ h, qn h = 1 → quatToTensor h ∈ G → ∃ (h' : Vec 4) (S : P.Symmetry m s (quatToTensor h')), qn h' = 1 ∧
      quatToTensor h' = quatToTensor h ∧ turnM h' = turnM h ∧ P.Shares h' ∧
      ∀ i τ, (P.gd (S.π i) (S.ε i * τ)).dtau = (P.gd i τ).dtau := by
    intro h hh hG'
    obtain ⟨h', S, hh', e, hsh, hd⟩ := hprob _ hG'
    exact ⟨h', S, hh', e, by unfold turnM; rw [e], hsh, hd⟩
  have noξ : ∀ x : Vec 8, (∀ T ∈ turnsOf G, T.mulVec x = x) → (fun i => x (iR i)) = 0 := by
    intro x hx
    refine hG _ fun R hR => ?_
    obtain ⟨h, S, hh, rfl, hsh, hd⟩ := hprob R hR
    have := hx (turnM h) ⟨h, hh, hR, rfl⟩
    rw [turnM_mulVec hh] at this
    rw [← turnX_r, this]
  have hkept : SymKept (turnsOf G) P.problem := by
    refine ⟨?_, fun x hx => ⟨P.resid x, P.jac x, rfl, ?_⟩⟩
    · rintro T ⟨h, hh, -, rfl⟩
      exact turnM_orth hh
    · have hξ : Updst.xiF x = 0 := by
        have e : Updst.xiF x = rScale • (fun i => x (iR i)) := rfl
        rw [e, noξ x hx, smul_zero]
      intro T hTG
      have hxT := hx T hTG
      obtain ⟨h0, hh0, hG0, rfl⟩ := hTG
      obtain ⟨h, S, hh, -, e, hsh, hd⟩ := hT h0 hh0 hG0
      rw [← e] at hxT ⊢
      rw [turnM_mulVec hh] at hxT ⊢
      obtain ⟨-, h2⟩ := C100_equations P m s h (by rw [dot_self_quat]; exact hh) S
        (by rw [dot_self_quat]; exact hcn) hv hsh
      exact ⟨(h2 x hxT hξ).1, (h2 x hxT hξ).2 hd⟩
  exact ⟨noξ, hkept⟩

/-- what `C100_step` states, for a solver that keeps the symmetries in this step -/
theorem symStep {X : Ext} (hX : X.solver.Sound) {M : Material n nH} {m s : Fin n → V3}
    (hgeom : M.geom = slipPQ m s) (hsys : ∀ i, IsSlipSystem (m i) (s i)) {G : Set T3} (hG : NoAxis G)
    {inp : Inputs} {mem mem' : Mem nH n} (hL : ∀ R ∈ G, LatticeSym M m s (Step.tK M inp mem) R)
    (hs : SymState G (histOf mem)) (hi : SymLoad G (quatToTensor (histOf mem).q) inp)
    (W : OkStep X M inp mem mem') (hstay : SymKept (turnsOf G) W.P.problem →
      ∀ T ∈ turnsOf G, T.mulVec (Step.solve X inp W.P).x = (Step.solve X inp W.P).x) :
    (histOf mem').q = (histOf mem).q ∧ SymState G (histOf mem') ∧
    (∀ R ∈ G, ∃ (π : Equiv.Perm (Fin n)) (ε : Fin n → ℝ), (∀ i, ε i = 1 ∨ ε i = -1) ∧
      (∀ i, R * dyad (s i) (m i) * R.transpose = ε i • dyad (s (π i)) (m (π i))) ∧
      ∀ i, (histOf mem').gdot (π i) = ε i * (histOf mem').gdot i) ∧
    ∀ R ∈ G, rotSvec (quatToTensor (histOf mem).q * R * (quatToTensor (histOf mem).q).transpose) mem'.stress
      = mem'.stress := by
  have hu : qn (histOf mem).q = 1 := by rw [← dot_self_quat]; exact hs.unit
  have hcN : W.P.cN = (histOf mem).q := by rw [W.hP]; exact quatN_of_unit hu
  have hcn : qn W.P.cN = 1 := by rw [hcN]; exact hu
  have hv : 0 < W.P.detV := by rw [W.hP]; exact W.hv
  have hset := Step.setup_eq_ok (M := M) (inp := inp) (m := mem) W.hq W.hcv W.hdt W.hv W.hH W.hV
  rw [← W.hP] at hset
  have hprob := fun R (hR : R ∈ G) => symProblem hset hgeom hsys hs hi hR (hL R hR)
  obtain ⟨noξ, hkept⟩ := symKept_setup hset hgeom hsys hG hL hs hi
  set x := (Step.solve X inp W.P).x with hxd
  have hfix : ∀ T ∈ turnsOf G, T.mulVec x = x := hstay hkept
  have hξ : Updst.xiF x = 0 := by
    have e : Updst.xiF x = rScale • (fun i => x (iR i)) := rfl
    rw [e, noξ x hfix, smul_zero]
  have hxl : ∀ w, Step.lastX (Step.solve X inp W.P) w = x := by
    intro w
    unfold Step.lastX
    split_ifs
    · rfl
    · exact (hX _ _ _ _ W.hc).2
  have hcq : W.P.cQuat x = W.P.cN := by
    show quatProd W.P.cN (emapToQuat (Updst.xiF x)) = _
    rw [hξ, emapToQuat_zero]
    ext i
    fin_cases i <;> simp [quatProd]
  have hq' : (histOf mem').q = (histOf mem).q := by
    rw [OkStep.hist_eq W]
    show Step.flipQuat (W.P.cQuat x) W.P.cN = _
    rw [hcq]
    unfold Step.flipQuat
    have : 0 ≤ vecsyadotb W.P.cN W.P.cN := Finset.sum_nonneg fun i _ => mul_self_nonneg _
    rw [if_neg (not_lt.2 this), hcN]
  have he' : (histOf mem').e = W.P.eF x := by rw [OkStep.hist_eq W]; rfl
  have hg' : (histOf mem').gdot = W.P.gdot x := by
    rw [OkStep.hist_eq W]
    show W.P.gdot (Step.lastX _ _) = _
    rw [hxl]
  have hturn : ∀ R ∈ G, ∃ (h : Vec 4) (S : W.P.Symmetry m s (quatToTensor h)), qn h = 1 ∧ quatToTensor h = R ∧
      W.P.Shares h ∧ turnX h x = x ∧ turnE h (W.P.eF x) = W.P.eF x := by
    intro R hR
    obtain ⟨h, S, hh, hRh, hsh, hd⟩ := hprob R hR
    have hx := hfix (turnM h) ⟨h, hh, by rw [hRh]; exact hR, rfl⟩
    rw [turnM_mulVec hh] at hx
    refine ⟨h, S, hh, hRh, hsh, hx, ?_⟩
    have h1 := W.P.turn_eF hh x
    rw [hx] at h1
    rw [← h1]
    show (fun i => _) = _
    have : (W.P.turn h).eN = W.P.eN := hsh.eN
    unfold Updst.eF
    rw [this]
  have hstrain : ∀ R ∈ G, R * vecdToSymm (W.P.eF x) * R.transpose = vecdToSymm (W.P.eF x) := by
    intro R hR
    obtain ⟨h, S, hh, rfl, -, -, h3⟩ := hturn R hR
    rw [← vecdToSymm_turnE hh, h3]
  refine ⟨hq', ⟨by rw [hq']; exact hs.unit, by rw [he']; exact hstrain⟩, fun R hR => ?_, fun R hR => ?_⟩
  · obtain ⟨h, S, hh, rfl, hsh, hx, -⟩ := hturn R hR
    refine ⟨S.π, S.ε, S.sgn, S.map, fun i => ?_⟩
    have := W.P.shares_gdot S hh hcn hv hsh x i
    rw [hx] at this
    rw [hg', this]
  · have hst := hstrain R hR
    obtain ⟨h, S, hh, rfl, -⟩ := hturn R hR
    set R := quatToTensor h with hRd
    have hr := isRot_of_unit hh
    have hc := isRot_of_unit hu
    rw [W.hst, ← hxd, hcq, hcN, stressOf_eq W.P hv _ _ hu]
    set C := quatToTensor (histOf mem).q with hC
    set L := latticeStress W.P.el W.P.detV W.P.pEos W.P.eVref (elasticStrain W.P.detV (W.P.eF x)) with hLd
    have hLs : L.IsSymm := latticeStress_symm _ _ _ _ _ (elasticStrain_symm _ _)
    have hLR : R * L * R.transpose = L := by
      rw [hLd, ← S.elast _ (elasticStrain_symm _ _)]
      congr 1
      unfold elasticStrain
      rw [Matrix.mul_add, Matrix.add_mul, Matrix.mul_smul, Matrix.mul_smul, Matrix.smul_mul, Matrix.smul_mul,
        Matrix.mul_one, hr.1, hst]
    have hS : (C * L * C.transpose).IsSymm := by
      unfold Matrix.IsSymm
      rw [Matrix.transpose_mul, Matrix.transpose_mul, Matrix.transpose_transpose, hLs.eq, Matrix.mul_assoc]
    have q1 : C * R * C.transpose * (C * R * C.transpose).transpose = 1 := by
      rw [Matrix.transpose_mul, Matrix.transpose_mul, Matrix.transpose_transpose]
      calc C * R * C.transpose * (C * (R.transpose * C.transpose))
          = C * R * (C.transpose * C) * R.transpose * C.transpose := by simp only [Matrix.mul_assoc]
        _ = C * (R * R.transpose) * C.transpose := by rw [hc.2.1, Matrix.mul_one]; simp only [Matrix.mul_assoc]
        _ = 1 := by rw [hr.1, Matrix.mul_one, hc.1]
    rw [← svecP_rot q1 (mul_eq_one_comm.1 q1) hS]
    congr 1
    rw [Matrix.transpose_mul, Matrix.transpose_mul, Matrix.transpose_transpose]
    calc C * R * C.transpose * (C * L * C.transpose) * (C * (R.transpose * C.transpose))
        = C * R * (C.transpose * C) * L * (C.transpose * C) * R.transpose * C.transpose := by
          simp only [Matrix.mul_assoc]
      _ = C * (R * L * R.transpose) * C.transpose := by
          rw [hc.2.1, Matrix.mul_one, Matrix.mul_one]; simp only [Matrix.mul_assoc]
      _ = _ := by rw [hLR]

/-- **C100, step.** A successful step with a solver that keeps symmetries, from a symmetric state under symmetric
    loading, leads to a symmetric state.  The crystal does not turn at all: the stored quaternion is the same.  The slip
    rates of systems that a rotation takes into each other agree up to sign, and the stress in the sample frame is
    unchanged by the rotations. -/
theorem C100_step {G : Set T3} {X : Ext} (hX : SymSolver (turnsOf G) X.solver) {M : Material n nH} {m s : Fin n → V3}
    (hgeom : M.geom = slipPQ m s) (hsys : ∀ i, IsSlipSystem (m i) (s i)) (hG : NoAxis G)
    {inp : Inputs} {mem mem' : Mem nH n} (hL : ∀ R ∈ G, LatticeSym M m s (Step.tK M inp mem) R)
    (hs : SymState G (histOf mem)) (hi : SymLoad G (quatToTensor (histOf mem).q) inp)
    (hok : getResponseSngl X M inp mem = .ok mem') :
    (histOf mem').q = (histOf mem).q ∧ SymState G (histOf mem') ∧
    (∀ R ∈ G, ∃ (π : Equiv.Perm (Fin n)) (ε : Fin n → ℝ), (∀ i, ε i = 1 ∨ ε i = -1) ∧
      (∀ i, R * dyad (s i) (m i) * R.transpose = ε i • dyad (s (π i)) (m (π i))) ∧
      ∀ i, (histOf mem').gdot (π i) = ε i * (histOf mem').gdot i) ∧
    ∀ R ∈ G, rotSvec (quatToTensor (histOf mem).q * R * (quatToTensor (histOf mem).q).transpose) mem'.stress
      = mem'.stress := by
  obtain ⟨W⟩ := getResponseSngl_ok hok
  exact symStep hX.sound hgeom hsys hG hL hs hi W fun hk => hX.stays _ _ _ hk W.hc

/-- **C100, histories.** Over any number of steps of any lengths, with loading that has the symmetries of the crystal
    at the start, the crystal keeps its orientation and its symmetries exactly. -/
theorem C100_history {G : Set T3} {M : Material n nH} {N : ℕ} (t : Trajectory M N)
    (hX : ∀ j < N, SymSolver (turnsOf G) (t.X j).solver)
    {m s : Fin n → V3} (hgeom : M.geom = slipPQ m s) (hsys : ∀ i, IsSlipSystem (m i) (s i))
    (hG : NoAxis G) (hL : ∀ j < N, ∀ R ∈ G, LatticeSym M m s (Step.tK M (t.inp j) (t.m j)) R)
    (hs : SymState G (histOf (t.m 0))) (hi : ∀ j < N, SymLoad G (quatToTensor (histOf (t.m 0)).q) (t.inp j))
    (j : ℕ) (hj : j < N) :
    (histOf (t.m' j)).q = (histOf (t.m 0)).q ∧ SymState G (histOf (t.m' j)) ∧
    ∀ R ∈ G, rotSvec (quatToTensor (histOf (t.m 0)).q * R * (quatToTensor (histOf (t.m 0)).q).transpose)
      (t.m' j).stress = (t.m' j).stress := by
  have start : ∀ j < N, (histOf (t.m j)).q = (histOf (t.m 0)).q ∧ SymState G (histOf (t.m j)) := by
    intro j
    induction j with
    | zero => intro _; exact ⟨rfl, hs⟩
    | succ j ih =>
      intro hj
      obtain ⟨h1, h2⟩ := ih (by omega)
      obtain ⟨h3, h4, -⟩ := C100_step (hX j (by omega)) hgeom hsys hG (hL j (by omega)) h2
        (by rw [h1]; exact hi j (by omega)) (t.ok j (by omega))
      have e : histOf (t.m (j + 1)) = histOf (t.m' j) := by unfold histOf; rw [t.link j hj]
      rw [e]
      exact ⟨h3.trans h1, h4⟩
  obtain ⟨h1, h2⟩ := start j hj
  obtain ⟨h3, h4, -, h5⟩ := C100_step (hX j hj) hgeom hsys hG (hL j hj) h2 (by rw [h1]; exact hi j hj) (t.ok j hj)
  rw [h1] at h5
  exact ⟨h3.trans h1, h4, h5⟩

end Ecm.Props
