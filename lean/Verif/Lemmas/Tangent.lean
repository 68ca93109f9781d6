/- Lemmas on the material tangent. -/
import Verif.Lemmas.Problem
import Verif.Model.Response
import Mathlib.LinearAlgebra.Matrix.NonsingularInverse

namespace Ecm
open Spec

namespace Updst
variable {n : ℕ} (P : Updst n)

/-- the same problem with another imposed deformation rate -/
def atRate (d : Vec 5) : Updst n := { P with dSm := d }

/-- change of the deviatoric sample stress for changes `u` of elastic strain and rotation -/
noncomputable def dStress (x : Vec 8) (u : Vec 8) (i : Fin 5) : ℝ :=
  vecsVMa (P.qr5x5 x) (fun p => P.detVRi * P.aVri * P.el.kDiag p * u (iE p)) i
    + ∑ r, P.dsigClatDCquat x i r * ∑ w, dCquatDxiT (xiF x) P.cN w r * u (iR w)

theorem dStress_sum (x : Vec 8) (X : Mat 5 8) (D : Vec 5) (i : Fin 5) :
    ∑ j, P.dStress x (X j) i * D j = P.dStress x (fun k => ∑ j, X j k * D j) i := by
  have h1 : ∀ (A : Vec 5) (B : Vec 5) (Y : Fin 5 → Vec 5),
      ∑ j, (∑ p, A p * (B p * Y j p)) * D j = ∑ p, A p * (B p * ∑ j, Y j p * D j) := by
    intro A B Y; simp only [Fin.sum_univ_five]; ring
  have h2 : ∀ (A : Vec 4) (B : Fin 3 → Fin 4 → ℝ) (Y : Fin 5 → Vec 3),
      ∑ j, (∑ r, A r * ∑ w, B w r * Y j w) * D j = ∑ r, A r * ∑ w, B w r * ∑ j, Y j w * D j := by
    intro A B Y; simp only [Fin.sum_univ_five, Fin.sum_univ_three, Fin.sum_univ_four]; ring
  simp only [dStress, add_mul, Finset.sum_add_distrib, vecsVMa]
  rw [h1 (fun p => P.qr5x5 x i p) (fun p => P.detVRi * P.aVri * P.el.kDiag p)
    (fun j p => X j (iE p)), h2 (fun r => P.dsigClatDCquat x i r)
    (fun w r => dCquatDxiT (xiF x) P.cN w r) (fun j w => X j (iR w))]

theorem mtanOf_dev (x : Vec 8) (X : Mat 5 8) (i j : Fin 5) :
    P.mtanOf x X i.castSucc j.castSucc = P.dStress x (X j) i := by
  have hi : i.castSucc.val < 5 := i.isLt
  have hj : j.castSucc.val < 5 := j.isLt
  simp only [mtanOf, qr6x6PreMul, dif_pos hi, dif_pos (And.intro hi hj), dStress, vecsVMa, vecsMAB,
    dCquatDI, Elast.multCauchyDif, Bool.false_eq_true, if_false, dif_pos hj]
  congr 1

theorem mtanOf_row5 (x : Vec 8) (X : Mat 5 8) (j : Fin 5) :
    P.mtanOf x X 5 j.castSucc = P.detVRi * P.aVri * P.el.kSdax3 * X j (iE 1) := by
  have h5 : ¬ ((5 : Fin 6).val < 5) := by decide
  have hj : j.castSucc.val < 5 := j.isLt
  simp only [mtanOf, qr6x6PreMul, dif_neg h5, Elast.multCauchyDif, dif_pos hj, h5, false_and,
    dif_neg (not_false), add_zero]
  cases P.el <;> simp [Elast.kSdax3]

theorem mtanOf_col5 (x : Vec 8) (X : Mat 5 8) (i : Fin 6) : P.mtanOf x X i 5 = 0 := by
  have h5 : ¬ ((5 : Fin 6).val < 5) := by decide
  simp only [mtanOf, qr6x6PreMul, Elast.multCauchyDif, h5, and_false,
    dif_neg (not_false), mul_zero, Finset.sum_const_zero, add_zero]
  split <;> rfl

variable {x : ℝ → Vec 8} {x' : Vec 8}

/-- derivative of the unknowns along a path of solutions: the combination of the solutions of the
    linear systems -/
theorem path_deriv {L : LUP} (hL : L.Sound) (hcn : qn P.cN = 1) {D : Vec 5}
    (hx : ∀ k, HasDerivAt (fun s => x s k) (x' k) 0)
    (hE : ∀ᶠ s in nhds (0 : ℝ), (P.atRate fun i => P.dSm i + s * D i).residE (x s) = 0)
    (hR : ∀ᶠ s in nhds (0 : ℝ), P.residR (x s) = 0)
    (hg : P.GdotDiff (x 0)) (h0 : thetaSmA ≤ vecNorm (xiF (x 0)))
    (hdet : (P.jacU (x 0)).det ≠ 0) {X : Mat 5 8}
    (hX : L (P.jacU (x 0)) (P.pfracRhsT (x 0)) = some X) (k : Fin 8) :
    xScale k * x' k = ∑ j, X j k * D j := by
  have hxv : VFD x 0 (fun s k => s * x' k) := fun k => FD.of_hasDerivAt (hx k)
  have hd : VFD (fun s : ℝ => fun i => P.dSm i + s * D i) 0 (fun s i => s * D i) := fun i =>
    ((FD.const (P.dSm i)).add
      ((FD.of_hasDerivAt (hasDerivAt_id' (0 : ℝ))).mul_const (D i))).congr fun s => by ring
  have h1 := P.residE_FD hcn hxv hd hg h0 (by ext i; simp)
  have h2 := P.residR_FD hcn hxv hg h0
  have z1 : ∀ i, ∑ k, P.jacU (x 0) (iE i) k * (xScale k * x' k)
      = vecsVMTa (P.qr5x5 (x 0)) D i := fun i => by
    have a := (h1 i).hasDerivAt
    have b : HasDerivAt (fun s : ℝ => (P.atRate fun i => P.dSm i + s * D i).residE (x s) i) 0 0 :=
      (hasDerivAt_const (0 : ℝ) (0 : ℝ)).congr_of_eventuallyEq
        (hE.mono fun s hs => by simp [hs])
    have c := a.unique b
    simp only [one_mul] at c
    linarith [c]
  have z2 : ∀ i, ∑ k, P.jacU (x 0) (iR i) k * (xScale k * x' k) = 0 := fun i => by
    have a := (h2 i).hasDerivAt
    have b : HasDerivAt (fun s : ℝ => P.residR (x s) i) 0 0 :=
      (hasDerivAt_const (0 : ℝ) (0 : ℝ)).congr_of_eventuallyEq
        (hR.mono fun s hs => by simp [hs])
    have c := a.unique b
    simp only [one_mul] at c
    exact c
  have hsol := hL _ _ _ hX
  have key : (P.jacU (x 0)).mulVec (fun k => xScale k * x' k - ∑ j, X j k * D j) = 0 := by
    ext i
    have e1 : (P.jacU (x 0)).mulVec (fun k => xScale k * x' k - ∑ j, X j k * D j) i
        = ∑ k, P.jacU (x 0) i k * (xScale k * x' k)
          - ∑ j, (∑ k, P.jacU (x 0) i k * X j k) * D j := by
      simp only [Matrix.mulVec, dotProduct, mul_sub, Finset.sum_sub_distrib, Finset.mul_sum,
        Finset.sum_mul]
      rw [Finset.sum_comm]
      congr 1
      exact Finset.sum_congr rfl fun j _ => Finset.sum_congr rfl fun k _ => by ring
    rw [e1]
    simp only [hsol]
    revert i
    refine forall_fin8 (fun i => ?_) fun i => ?_
    · rw [z1 i]
      simp [pfracRhsT, iE, vecsVMTa]
    · rw [z2 i]
      simp [pfracRhsT, iR]
  have hz := Matrix.eq_zero_of_mulVec_eq_zero hdet key
  have := congrFun hz k
  simp only [Pi.zero_apply] at this
  linarith

/-- derivative of the deviatoric sample stress along a path of unknowns -/
theorem stress_dev_deriv (hcn : qn P.cN = 1) (hx : ∀ k, HasDerivAt (fun s => x s k) (x' k) 0)
    (h0 : thetaSmA ≤ vecNorm (xiF (x 0))) (i : Fin 5) :
    HasDerivAt (fun s => vecsVMa (P.qr5x5 (x s))
        (fun k : Fin 5 => P.elastNEtoC (P.eF (x s)) k.castSucc) i)
      (P.dStress (x 0) (fun k => xScale k * x' k) i) 0 := by
  have hxv : VFD x 0 (fun s k => s * x' k) := fun k => FD.of_hasDerivAt (hx k)
  have hs : VFD (fun s => fun k : Fin 5 => P.elastNEtoC (P.eF (x s)) k.castSucc) 0
      (fun s k => P.detVRi * P.aVri * P.el.kDiag k * (eScale * (s * x' (iE k)))) := fun k =>
    (((((P.eF_FD hxv k).const_mul P.aVri).const_mul (P.el.kDiag k)).add
      (FD.const (P.tConst k.castSucc))).const_mul P.detVRi
      |>.congr_fun fun y => by
        show P.detVRi * P.elastNEtoT (P.eF (x y)) k.castSucc = _
        rw [elastNEtoT_castSucc]).congr
      fun h => by ring
  have h1 := (rotStress_FD hcn hs (xiF_FD hxv) h0 i).hasDerivAt
  refine h1.congr_deriv ?_
  beta_reduce
  simp only [one_mul, dStress, dsigClatDCquat, qr5x5, cMatx, cQuat, xScale_iE, xScale_iR, dCdir,
    dCmatxDxi, Matrix.of_apply]
  have e : ∀ (S : Fin 3 → Fin 3 → ℝ) (Q : Fin 3 → Fin 3 → Fin 4 → ℝ) (B : Fin 3 → Fin 4 → ℝ) (u : Vec 3),
      ∑ p, ∑ q, S p q * ∑ w, (∑ r, Q p q r * B w r) * u w
        = ∑ r, (∑ p, ∑ q, S p q * Q p q r) * ∑ w, B w r * u w := by
    intro S Q B u
    simp only [Fin.sum_univ_three, Fin.sum_univ_four]; ring
  rw [add_comm]
  congr 1
  exact e (fun p q => dRotMatVecdSmop _ _ i p q) _ _ _

end Updst
end Ecm
