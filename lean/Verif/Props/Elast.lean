/- Property theorem C47: the elastic law (src/ecmech/ECMech_evptn.h:48-403). -/
import Verif.Model.Elast
import Verif.Lemmas.Rotation

namespace Ecm.Props
open Ecm Spec Matrix

/-- the reference stress law of each class -/
noncomputable def refStress : Elast → T3 → T3
  | .cubic c11 c12 c44 => cubicStress c11 c12 c44
  | .hexag c11 c12 c13 c33 c44 _ => hexagStress c11 c12 c13 c33 c44

/-- C47 the deviatoric part of the computed stress is that of the Voigt stiffness matrix applied to
    the strain tensor (plus, for hexagonal crystals, the anisotropic thermal term), and the
    volumetric part replaces only the bulk-modulus term by the equation-of-state pressure. -/
theorem C47_elastic_law (el : Elast) (E : T3) (hE : E.IsSymm) (p eV : ℝ) :
    (∀ k : Fin 5, el.eval (symmToVecds E) p eV k.castSucc =
      symmToVecd (refStress el E) k
        - (if k = 1 then Real.exp E.trace * (el.gVecd2 * eV) else 0)) ∧
    el.eval (symmToVecds E) p eV 5 =
      -Real.sqrt 3 * Real.exp E.trace * p
        + ((refStress el E).trace / Real.sqrt 3 - 3 * el.kBulkMod * (E.trace / Real.sqrt 3)) := by
  have h10 : E 1 0 = E 0 1 := hE.apply 0 1
  have h20 : E 2 0 = E 0 2 := hE.apply 0 2
  have h21 : E 2 1 = E 1 2 := hE.apply 1 2
  have hJ : sqr3 * symmToVecds E 5 = E.trace := by
    simp only [symmToVecds, traceToVecdsS, trace3, Matrix.trace_fin_three, Matrix.cons_val]
    sqr_ring
  have ht : E.trace = E 0 0 + E 1 1 + E 2 2 := Matrix.trace_fin_three E
  have hi : ∀ x : ℝ, x / Real.sqrt 3 = x * (Real.sqrt 3 / 3) := by
    intro x; have := s3_pos; field_simp; rw [s3_sq]
  constructor
  · intro k
    cases el with
    | cubic c11 c12 c44 =>
      simp only [Elast.eval, hJ]
      fin_cases k <;>
        simp [symmToVecds, symmToVecd, refStress, cubicStress, Elast.kDiag,
          Elast.gVecd2, h10, h20, h21] <;> sqr_ring
    | hexag c11 c12 c13 c33 c44 g =>
      simp only [Elast.eval, hJ]
      fin_cases k <;>
        simp [symmToVecds, symmToVecd, refStress, hexagStress, Elast.kDiag,
          Elast.gVecd2, Elast.kSdax3, traceToVecdsS, trace3, h10, h20, h21] <;> sqr_ring
  · rw [hi, hi]
    cases el with
    | cubic c11 c12 c44 =>
      simp only [Elast.eval, hJ, Matrix.cons_val, refStress, cubicStress, Elast.kBulkMod, ht,
        Matrix.trace_fin_three, Matrix.of_apply, Matrix.cons_val]
      sqr_ring
    | hexag c11 c12 c13 c33 c44 g =>
      simp only [Elast.eval, hJ]
      simp only [Matrix.cons_val, refStress, hexagStress, Elast.kBulkMod, ht,
        Matrix.trace_fin_three, Matrix.of_apply, Matrix.cons_val, Elast.kSdax3, symmToVecds,
        symmToVecd]
      sqr_ring

/-- C47 the bulk modulus is that of the Voigt stiffness: mean stress under unit volumetric strain. -/
theorem C47_bulk (el : Elast) (a : ℝ) :
    (refStress el (a • (1 : T3))).trace / 3 = el.kBulkMod * (3 * a) := by
  cases el <;>
    simp [refStress, cubicStress, hexagStress, Elast.kBulkMod, Matrix.trace_fin_three] <;> ring

/-- C47 the deviatoric stiffness is positive definite exactly for stable constants. -/
theorem C47_positive_definite (el : Elast) :
    (∀ E : T3, IsDev E → E ≠ 0 → 0 < ddot E (refStress el E)) ↔ ∀ k, 0 < el.kDiag k := by
  have key : ∀ v : Vec 5, ddot (vecdToSymm v) (refStress el (vecdToSymm v))
      = ∑ k, el.kDiag k * v k ^ 2 := by
    intro v
    cases el <;>
      simp only [ddot, Fin.sum_univ_three, Fin.sum_univ_five, refStress, cubicStress, hexagStress,
        Elast.kDiag, vecdToSymm, ofSvecP, vecdsToSvecP, Matrix.of_apply, Matrix.cons_val] <;> sqr_ring
  constructor
  · intro h k
    have h1 := h (vecdToSymm (Pi.single k 1)) (vecdToSymm_isDev _) (by
      intro h0
      have := symmToVecd_vecdToSymm (Pi.single k 1)
      rw [h0] at this
      have := congrFun this k
      fin_cases k <;> simp [symmToVecd] at this)
    rw [key] at h1
    fin_cases k <;> simpa [Fin.sum_univ_five, Pi.single_apply] using h1
  · intro h E hE hne
    rw [← vecdToSymm_symmToVecd E hE, key]
    have hv : symmToVecd E ≠ 0 := by
      intro h0
      apply hne
      rw [← vecdToSymm_symmToVecd E hE, h0]
      ext i j; fin_cases i <;> fin_cases j <;> simp [vecdToSymm, ofSvecP, vecdsToSvecP]
    obtain ⟨k, hk⟩ : ∃ k, symmToVecd E k ≠ 0 := by
      by_contra hc; push Not at hc; exact hv (funext hc)
    refine Finset.sum_pos' (fun i _ => mul_nonneg (h i).le (sq_nonneg _))
      ⟨k, Finset.mem_univ k, mul_pos (h k) (by positivity)⟩

/-- C47 the conditions of the previous theorem in terms of the elastic constants. -/
theorem C47_stability_constants (c11 c12 c13 c33 c44 g : ℝ) :
    ((∀ k, 0 < (Elast.cubic c11 c12 c44).kDiag k) ↔ c12 < c11 ∧ 0 < c44) ∧
    ((∀ k, 0 < (Elast.hexag c11 c12 c13 c33 c44 g).kDiag k) ↔
      c12 < c11 ∧ 0 < c44 ∧ 4 * c13 < c11 + c12 + 2 * c33) := by
  constructor
  · constructor
    · intro h
      have h0 := h 0; have h2 := h 2
      simp [Elast.kDiag] at h0 h2
      exact ⟨h0, h2⟩
    · rintro ⟨h0, h2⟩ k
      fin_cases k <;> simp [Elast.kDiag] <;> assumption
  · constructor
    · intro h
      have h0 := h 0; have h1 := h 1; have h3 := h 3
      simp [Elast.kDiag] at h0 h1 h3
      exact ⟨h0, h3, by linarith⟩
    · rintro ⟨h0, h3, h1⟩ k
      fin_cases k <;> simp [Elast.kDiag] <;> first | assumption | linarith

/-- C47 (finding) the modulus reported for an elastically isotropic material of shear modulus mu is
    mu in the hexagonal class but 2 mu in the cubic class, although both report it as the shear
    modulus. -/
theorem C47_reported_shear_modulus (mu lam g : ℝ) :
    (Elast.hexag (lam + 2 * mu) lam lam (lam + 2 * mu) mu g).kGmod = mu ∧
    (Elast.cubic (lam + 2 * mu) lam mu).kGmod = 2 * mu := by
  constructor
  · simp [Elast.kGmod, vecsssum, Fin.sum_univ_five, Elast.kDiag]; ring
  · simp [Elast.kGmod]; ring

/-- C47 hence the two classes disagree on the same isotropic material (witness). -/
theorem C47_reported_shear_modulus_inconsistent :
    ∃ mu lam : ℝ, cubicStress (lam + 2 * mu) lam mu = hexagStress (lam + 2 * mu) lam lam (lam + 2 * mu) mu ∧
      (Elast.cubic (lam + 2 * mu) lam mu).kGmod
        ≠ (Elast.hexag (lam + 2 * mu) lam lam (lam + 2 * mu) mu 0).kGmod := by
  refine ⟨1, 1, ?_, ?_⟩
  · ext E i j; fin_cases i <;> fin_cases j <;> simp [cubicStress, hexagStress]
  · rw [(C47_reported_shear_modulus 1 1 0).1, (C47_reported_shear_modulus 1 1 0).2]; norm_num

example : (!![1, 2, 3; 2, 4, 5; 3, 5, 6] : T3).IsSymm := by
  ext i j; fin_cases i <;> fin_cases j <;> rfl
example : ∀ k, 0 < (Elast.cubic 300 100 80).kDiag k := by
  rw [(C47_stability_constants 300 100 0 0 80 0).1]; norm_num
example : ∀ k, 0 < (Elast.hexag 300 100 90 320 80 1).kDiag k := by
  rw [(C47_stability_constants 300 100 90 320 80 1).2]; norm_num

end Ecm.Props
