/- A crystal whose state and loading have a lattice symmetry in common: the update problem is unchanged when lattice
   and observer turn together, so the equations keep the symmetry and the Newton matrix commutes with it. -/
import Verif.Lemmas.Symmetry
import Verif.Lemmas.Start
import Verif.Props.Start

namespace Ecm
open Spec Props Matrix

variable {n nH : ℕ}

theorem expQuat_conj {h : Vec 4} (hh : qn h = 1) (v : Vec 3) :
    expQuat ((quatToTensor h).mulVec v) = quatProd (quatProd h (expQuat v)) (qconj h) := by
  by_cases hv : v = 0
  · subst hv
    rw [Matrix.mulVec_zero]
    have h0 : expQuat (0 : Vec 3) = ![1, 0, 0, 0] := by simp [expQuat]
    have := quatProd_conj hh 1 0 0
    simp at this
    rw [h0]
    exact this.symm
  · have hp := vecNorm_pos_of_ne hv
    have hp' : 0 < vecNorm ((quatToTensor h).mulVec v) := by rw [vecNorm_rot hh]; exact hp
    have e1 : expQuat v = ![Real.cos (vecNorm v / 2), Real.sin (vecNorm v / 2) * (1 / vecNorm v) * v 0,
        Real.sin (vecNorm v / 2) * (1 / vecNorm v) * v 1, Real.sin (vecNorm v / 2) * (1 / vecNorm v) * v 2] := by
      rw [expQuat_of_pos hp]
      ext i
      fin_cases i <;> simp <;> ring
    have e2 : expQuat ((quatToTensor h).mulVec v) = ![Real.cos (vecNorm v / 2),
        Real.sin (vecNorm v / 2) * (1 / vecNorm v) * ((quatToTensor h).mulVec v) 0,
        Real.sin (vecNorm v / 2) * (1 / vecNorm v) * ((quatToTensor h).mulVec v) 1,
        Real.sin (vecNorm v / 2) * (1 / vecNorm v) * ((quatToTensor h).mulVec v) 2] := by
      rw [expQuat_of_pos hp', vecNorm_rot hh]
      ext i
      fin_cases i <;> simp <;> ring
    rw [e1, e2, quatProd_conj hh]

/-! ### The turn of the unknowns as a matrix -/

theorem block8_eta (x : Vec 8) : block8 (fun i => x (iE i)) (fun i => x (iR i)) = x := by
  funext i
  unfold block8
  split_ifs with h
  · rfl
  · exact congrArg x (Fin.ext (by simp [iR]; omega))

theorem block8_add (a a' : Vec 5) (b b' : Vec 3) : block8 a b + block8 a' b' = block8 (a + a') (b + b') := by
  funext i
  simp only [Pi.add_apply, block8]
  split_ifs <;> rfl

theorem sum_Fin8 (f : Fin 8 → ℝ) : ∑ i, f i = (∑ i, f (iE i)) + ∑ i, f (iR i) := by
  simp [Fin.sum_univ_succ, iE, iR]
  ring

/-- the turn of the unknowns as a matrix -/
noncomputable def turnM (h : Vec 4) : Mat 8 8 :=
  block88 (getRotMatVecd (quatToTensor h)) 0 0 (quatToTensor h)

theorem turnM_mulVec {h : Vec 4} (hh : qn h = 1) (x : Vec 8) : (turnM h).mulVec x = turnX h x := by
  rw [← block8_eta ((turnM h).mulVec x)]
  unfold turnX
  rw [turnE_eq hh]
  congr 1
  · funext i
    simp only [Matrix.mulVec, dotProduct]
    rw [sum_Fin8]
    simp [turnM]
  · funext i
    simp only [Matrix.mulVec, dotProduct]
    rw [sum_Fin8]
    simp [turnM]

theorem turnX_add {h : Vec 4} (hh : qn h = 1) (x y : Vec 8) : turnX h (x + y) = turnX h x + turnX h y := by
  rw [← turnM_mulVec hh, ← turnM_mulVec hh, ← turnM_mulVec hh, Matrix.mulVec_add]

theorem turnX_block {h : Vec 4} (a : Vec 5) (b : Vec 3) :
    turnX h (block8 a b) = block8 (turnE h a) ((quatToTensor h).mulVec b) := by
  simp [turnX]

theorem turnE_zero {h : Vec 4} (hh : qn h = 1) : turnE h 0 = 0 := by
  rw [turnE_eq hh, Matrix.mulVec_zero]

/-! ### Equivariance with the exact exponential map -/

namespace Updst
variable (P : Updst n) {h : Vec 4} {m s : Fin n → Vec 3}

/-- the same problem from a turned orientation -/
noncomputable def moved (ξ : Vec 3) : Updst n := { P with cN := quatProd P.cN (expQuat ξ) }

theorem xiF_block (e : Vec 5) : xiF (block8 e 0) = 0 := by
  funext i
  simp [xiF, vecsVxa]

theorem residExact_moved (x : Vec 8) : P.residExact x
    = (P.moved (xiF x)).resid (block8 (fun i => x (iE i)) 0) + block8 0 (P.rotincrScaleInv • xiF x) := by
  set y := block8 (fun i => x (iE i)) (0 : Vec 3) with hy
  have hxi : xiF y = 0 := xiF_block _
  have he : (P.moved (xiF x)).eF y = P.eF x := by
    funext i; simp [eF, vecsVapb, vecsVxa, hy, moved]
  have hed : (P.moved (xiF x)).edot y = P.edot x := by
    funext i; simp [edot, vecsVsa, vecsVxa, hy, moved, dtRi]
  have ht : (P.moved (xiF x)).taua y = P.taua x := by
    unfold taua
    rw [he]
    rfl
  have hg : (P.moved (xiF x)).gdot y = P.gdot x := by
    unfold gdot
    rw [ht]
    rfl
  have hc : (P.moved (xiF x)).cQuat y = quatProd P.cN (expQuat (xiF x)) := by
    show quatProd (quatProd P.cN (expQuat (xiF x))) (emapToQuat (xiF y)) = _
    rw [hxi, emapToQuat_zero]
    ext i
    fin_cases i <;> simp [quatProd]
  have h1 : (P.moved (xiF x)).resid y = block8
      (fun i => P.epsdotScaleInv * (P.aVri * P.edot x i + vecsVMa P.geom.P (P.gdot x) i
        - vecsVMTa (getRotMatVecd (quatToTensor (quatProd P.cN (expQuat (xiF x))))) P.dSm i))
      (fun i => P.rotincrScaleInv * (0 - P.dt * (vecsVMTa (quatToTensor (quatProd P.cN (expQuat (xiF x)))) P.wSm i
        - vecsVMa P.geom.Q (P.gdot x) i + P.eeFac * vecsVMa (m35 (P.eF x)) (P.edot x) i))) := by
    unfold resid residE residR qr5x5 cMatx
    rw [hc, hxi, hed, hg, he]
    rfl
  have h2 : P.residExact x = block8
      (fun i => P.epsdotScaleInv * (P.aVri * P.edot x i + vecsVMa P.geom.P (P.gdot x) i
        - vecsVMTa (getRotMatVecd (quatToTensor (quatProd P.cN (expQuat (xiF x))))) P.dSm i))
      (fun i => P.rotincrScaleInv * (xiF x i
        - P.dt * (vecsVMTa (quatToTensor (quatProd P.cN (expQuat (xiF x)))) P.wSm i
        - vecsVMa P.geom.Q (P.gdot x) i + P.eeFac * vecsVMa (m35 (P.eF x)) (P.edot x) i))) := rfl
  rw [h1, h2, block8_add, add_zero]
  congr 1
  funext i
  simp only [Pi.add_apply, Pi.smul_apply, smul_eq_mul]
  ring

/-- a symmetry is one from any orientation -/
def Symmetry.moved {P : Updst n} {H : T3} (S : P.Symmetry m s H) (ξ : Vec 3) : (P.moved ξ).Symmetry m s H :=
  { geom := S.geom, slip := S.slip, π := S.π, ε := S.ε, sgn := S.sgn, map := S.map, rate := S.rate
    elast := S.elast }

theorem moved_unit (hcn : qn P.cN = 1) (ξ : Vec 3) : qn (P.moved ξ).cN = 1 := by
  show qn (quatProd P.cN (expQuat ξ)) = 1
  rw [qn_prod, hcn, qn_expQuat, one_mul]

theorem turn_moved (hh : qn h = 1) (ξ : Vec 3) :
    (P.turn h).moved ((quatToTensor h).mulVec ξ) = (P.moved ξ).turn h := by
  unfold moved turn
  congr 1
  simp only
  rw [expQuat_conj hh, quatProd_assoc, quatProd_assoc h, quatProd_qconj_cancel hh, quatProd_assoc]

theorem turn_residExact (S : P.Symmetry m s (quatToTensor h)) (hh : qn h = 1) (hcn : qn P.cN = 1) (hv : 0 < P.detV)
    (x : Vec 8) : (P.turn h).residExact (turnX h x) = turnX h (P.residExact x) := by
  rw [residExact_moved, residExact_moved, turn_xiF, P.turn_moved hh, turnX_add hh, turnX_block, turnX_e,
    turnE_zero hh, Matrix.mulVec_smul]
  congr 1
  have e : block8 (turnE h fun i => x (iE i)) 0 = turnX h (block8 (fun i => x (iE i)) 0) := by
    rw [turnX_block, Matrix.mulVec_zero]
  rw [e]
  exact (P.moved (xiF x)).turn_resid (S.moved _) hh (P.moved_unit hcn _) hv _ (Or.inl (xiF_block _))

theorem rot_residExact {a : Vec 4} (ha : qn a = 1) (hcn : qn P.cN = 1) (x : Vec 8) :
    (P.rot a).residExact x = P.residExact x := by
  rw [residExact_moved, residExact_moved, P.rot_rotincrScaleInv ha]
  congr 1
  have e : (P.rot a).moved (xiF x) = (P.moved (xiF x)).rot a := by
    unfold moved rot
    simp only
    congr 1
    exact quatProd_assoc _ _ _
  rw [e]
  exact (P.moved (xiF x)).rot_resid ha (P.moved_unit hcn _) _

/-! ### Problems with a symmetry of their own -/

/-- rotation of the sample that the symmetry operation amounts to -/
noncomputable def sampleTurn (h : Vec 4) : Vec 4 := quatProd (quatProd P.cN h) (qconj P.cN)

/-- state and loading do not change when lattice and observer turn together: the elastic strain is unchanged by the
    operation, and the deformation rate and the spin by the rotation of the sample that goes with it -/
structure Shares (h : Vec 4) : Prop where
  eN : turnE h P.eN = P.eN
  dSm : quatToTensor (P.sampleTurn h) * vecdToSymm P.dSm * (quatToTensor (P.sampleTurn h)).transpose
    = vecdToSymm P.dSm
  wSm : (quatToTensor (P.sampleTurn h)).mulVec P.wSm = P.wSm

theorem sampleTurn_unit (hh : qn h = 1) (hcn : qn P.cN = 1) : qn (P.sampleTurn h) = 1 := by
  unfold sampleTurn
  rw [qn_prod, qn_prod, qn_qconj, hh, hcn]
  norm_num

theorem turn_rot_self (hh : qn h = 1) (hcn : qn P.cN = 1) (hs : P.Shares h) :
    (P.turn h).rot (P.sampleTurn h) = P := by
  obtain ⟨h1, h2, h3⟩ := hs
  have hq : quatProd (P.sampleTurn h) (quatProd P.cN (qconj h)) = P.cN := by
    unfold sampleTurn
    rw [quatProd_assoc (quatProd P.cN h), quatProd_qconj_cancel hcn]
    have e : h 0 * h 0 + h 1 * h 1 + h 2 * h 2 + h 3 * h 3 = 1 := by
      rw [← hh]; simp [qn]; ring
    generalize P.cN = c
    ext i
    fin_cases i <;> simp [quatProd, qconj]
    · linear_combination c 0 * e
    · linear_combination c 1 * e
    · linear_combination c 2 * e
    · linear_combination c 3 * e
  unfold turn rot
  simp only
  rw [hq, h1, h2, h3, symmToVecd_vecdToSymm]

theorem shares_resid (S : P.Symmetry m s (quatToTensor h)) (hh : qn h = 1) (hcn : qn P.cN = 1) (hv : 0 < P.detV)
    (hs : P.Shares h) (x : Vec 8) (hx : xiF x = 0 ∨ idpTinySqrt < vecNorm (xiF x)) :
    P.resid (turnX h x) = turnX h (P.resid x) := by
  rw [← P.turn_resid S hh hcn hv x hx,
    ← (P.turn h).rot_resid (P.sampleTurn_unit hh hcn) (P.turn_cN hh hcn), P.turn_rot_self hh hcn hs]

theorem shares_residExact (S : P.Symmetry m s (quatToTensor h)) (hh : qn h = 1) (hcn : qn P.cN = 1)
    (hv : 0 < P.detV) (hs : P.Shares h) (x : Vec 8) : P.residExact (turnX h x) = turnX h (P.residExact x) := by
  rw [← P.turn_residExact S hh hcn hv x,
    ← (P.turn h).rot_residExact (P.sampleTurn_unit hh hcn) (P.turn_cN hh hcn), P.turn_rot_self hh hcn hs]

theorem shares_gdot (S : P.Symmetry m s (quatToTensor h)) (hh : qn h = 1) (hcn : qn P.cN = 1) (hv : 0 < P.detV)
    (hs : P.Shares h) (x : Vec 8) (i : Fin n) : P.gdot (turnX h x) (S.π i) = S.ε i * P.gdot x i := by
  rw [← P.turn_gdot S hh hv x i]
  have : ((P.turn h).rot (P.sampleTurn h)).gdot = P.gdot := by rw [P.turn_rot_self hh hcn hs]
  rw [← this]
  rfl

theorem shares_taua (S : P.Symmetry m s (quatToTensor h)) (hh : qn h = 1) (hcn : qn P.cN = 1) (hv : 0 < P.detV)
    (hs : P.Shares h) (x : Vec 8) (i : Fin n) : P.taua (turnX h x) (S.π i) = S.ε i * P.taua x i := by
  rw [← P.turn_taua S hh hv x i]
  have : ((P.turn h).rot (P.sampleTurn h)).taua = P.taua := by rw [P.turn_rot_self hh hcn hs]
  rw [← this]
  rfl

/-! ### The Newton matrix -/

/-- the problem with the slip law replaced by its linear part at the trial point, as the Jacobian sees it -/
noncomputable def linearised (x : Vec 8) : Updst n :=
  { P with gd := fun i τ =>
      { gdot := P.gdot x i + P.dgdotDtau x i * (τ - P.taua x i), dtau := P.dgdotDtau x i
        dg := (P.gd i τ).dg } }

theorem linearised_jac (x : Vec 8) : (P.linearised x).jac x = P.jac x := rfl

theorem linearised_diff (x : Vec 8) : (P.linearised x).GdotDiff x := by
  intro i
  show HasDerivAt (fun τ => P.gdot x i + P.dgdotDtau x i * (τ - P.taua x i)) (P.dgdotDtau x i) (P.taua x i)
  have := (((hasDerivAt_id (P.taua x i)).sub_const (P.taua x i)).const_mul (P.dgdotDtau x i)).const_add (P.gdot x i)
  simpa using this

/-- at a symmetric point the linear law has the symmetry -/
noncomputable def Symmetry.linearised {P : Updst n} (S : P.Symmetry m s (quatToTensor h)) (x : Vec 8)
    (ht : ∀ i, P.taua x (S.π i) = S.ε i * P.taua x i)
    (hd : ∀ i τ, (P.gd (S.π i) (S.ε i * τ)).dtau = (P.gd i τ).dtau) :
    (P.linearised x).Symmetry m s (quatToTensor h) :=
  { geom := S.geom, slip := S.slip, π := S.π, ε := S.ε, sgn := S.sgn, map := S.map
    rate := fun i τ => by
      show P.gdot x (S.π i) + P.dgdotDtau x (S.π i) * (S.ε i * τ - P.taua x (S.π i))
        = S.ε i * (P.gdot x i + P.dgdotDtau x i * (τ - P.taua x i))
      have e1 : P.gdot x (S.π i) = S.ε i * P.gdot x i := by
        unfold gdot; rw [ht, S.rate]
      have e2 : P.dgdotDtau x (S.π i) = P.dgdotDtau x i := by
        unfold dgdotDtau; rw [ht, hd]
      rw [e1, e2, ht]
      ring
    elast := S.elast }

theorem line_deriv {F : Vec 8 → Vec 8} {J : Mat 8 8} {x : Vec 8} (h : HasJacobian F J x) (v : Vec 8) (i : Fin 8) :
    HasDerivAt (fun t : ℝ => F (x + t • v) i) (J.mulVec v i) 0 := by
  have h1 : HasDerivAt (fun t : ℝ => x + t • v) v 0 := by
    simpa using ((hasDerivAt_id (0 : ℝ)).smul_const v).const_add x
  have h2 : HasFDerivAt (fun y => F y i) (lin (J i)) (x + (0 : ℝ) • v) := by simpa using h i
  have h3 := h2.comp_hasDerivAt (0 : ℝ) h1
  refine h3.congr_deriv ?_
  simp [lin, Matrix.mulVec, dotProduct]

/-- at a symmetric point without rotation increment the Newton matrix commutes with the turn -/
theorem shares_jac (S : P.Symmetry m s (quatToTensor h)) (hh : qn h = 1) (hcn : qn P.cN = 1) (hv : 0 < P.detV)
    (hs : P.Shares h) (hd : ∀ i τ, (P.gd (S.π i) (S.ε i * τ)).dtau = (P.gd i τ).dtau) (x : Vec 8)
    (hx : turnX h x = x) (hξ : xiF x = 0) : turnM h * P.jac x = P.jac x * turnM h := by
  set Q := P.linearised x with hQ
  have SQ : Q.Symmetry m s (quatToTensor h) := S.linearised x (fun i => by
    have := P.shares_taua S hh hcn hv hs x i
    rwa [hx] at this) hd
  have hsQ : Q.Shares h := ⟨hs.eN, hs.dSm, hs.wSm⟩
  have hJ : HasJacobian Q.residExact (P.jac x) x :=
    C11_start Q x (by rw [dot_self_quat]; exact hcn) (P.linearised_diff x) hξ
  have hF := Q.shares_residExact SQ hh hcn hv hsQ
  have key : ∀ v, (turnM h).mulVec ((P.jac x).mulVec v) = (P.jac x).mulVec ((turnM h).mulVec v) := by
    intro v
    funext i
    have d1 := line_deriv hJ ((turnM h).mulVec v) i
    have e : (fun t : ℝ => Q.residExact (x + t • (turnM h).mulVec v) i)
        = fun t : ℝ => ∑ j, turnM h i j * Q.residExact (x + t • v) j := by
      funext t
      have e1 : x + t • (turnM h).mulVec v = turnX h (x + t • v) := by
        rw [turnX_add hh, hx, ← turnM_mulVec hh (t • v), Matrix.mulVec_smul]
      rw [e1, hF, ← turnM_mulVec hh]
      rfl
    rw [e] at d1
    have d2 : HasDerivAt (fun t : ℝ => ∑ j, turnM h i j * Q.residExact (x + t • v) j)
        (∑ j, turnM h i j * (P.jac x).mulVec v j) 0 :=
      HasDerivAt.fun_sum fun j _ => (line_deriv hJ v j).const_mul _
    exact d2.unique d1
  ext i j
  have := congrFun (key (Pi.single j 1)) i
  rw [Matrix.mulVec_mulVec, Matrix.mulVec_mulVec] at this
  simpa using this

end Updst

end Ecm
