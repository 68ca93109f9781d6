/- Property theorems C16, C17, C18, C19: slip geometry (src/ecmech/ECMech_slipgeom.h) and the
   conversion of four-index notation (src/ecmech/ECMech_util.h:1207-1323). -/
import Verif.Lemmas.SlipTables
import Verif.Lemmas.Miller

namespace Ecm.Props
open Ecm Spec Matrix

/-! ## C16 -/

/-- C16 for the FCC lattice: all systems orthonormal, so the set-up succeeds. -/
theorem C16_fcc : (∀ i, IsSlipSystem (fccM i) (fccS i)) ∧ slipGeomFCC = .ok (slipPQ fccM fccS) :=
  ⟨fcc_slip, fillFromMS_ok fcc_slip⟩

/-- C16 for the BCC lattice with 12, 24 and 48 systems. -/
theorem C16_bcc :
    ((∀ i, IsSlipSystem (bccM12 i) (bccS12 i)) ∧ slipGeomBCC12 = .ok (slipPQ bccM12 bccS12)) ∧
    ((∀ i, IsSlipSystem (bccM24 i) (bccS24 i)) ∧ slipGeomBCC24 = .ok (slipPQ bccM24 bccS24)) ∧
    ((∀ i, IsSlipSystem (bccM48 i) (bccS48 i)) ∧ slipGeomBCC48 = .ok (slipPQ bccM48 bccS48)) :=
  ⟨⟨bcc12_slip, fillFromMS_ok bcc12_slip⟩, ⟨bcc24_slip, fillFromMS_ok bcc24_slip⟩,
    ⟨bcc48_slip, fillFromMS_ok bcc48_slip⟩⟩

/-- C16 for the HCP lattice and every positive c/a. -/
theorem C16_hcp (r : ℝ) (hr : 0 < r) : ∃ m s, hcpMS r = .ok (m, s) ∧
    (∀ i, IsSlipSystem (m i) (s i)) ∧ slipGeomHCP r = .ok (slipPQ m s) := by
  refine ⟨_, _, hcpMS_eq hr, hcp_slip r, ?_⟩
  unfold slipGeomHCP
  rw [hcpMS_eq hr]
  exact fillFromMS_ok (hcp_slip r)

/-- C16 the geometry check does detect a direction that is out of its plane. -/
theorem C16_check_rejects {n : ℕ} (m s : Fin n → Vec 3) (i : Fin n)
    (h : 1 / 10 ^ 8 < |dot (m i) (s i)|) : fillFromMS m s = .fail "internal error" := by
  unfold fillFromMS
  rw [if_pos]
  exact ⟨i, by rw [idpEpsSqrt]; norm_num at h ⊢; exact h⟩

example : (0:ℝ) < 1.587 := by norm_num
example : (1:ℝ) / 10 ^ 8 < |dot (![1, 0, 0] : V3) ![1, 0, 0]| := by
  simp [dot, Fin.sum_univ_three]; norm_num

/-! ## C17 -/

/-- C17 FCC: the list is, up to sign, exactly the set of {111}<110> systems; no repetition; mapped to
    itself by every cubic symmetry operation. -/
theorem C17_fcc :
    (∀ i j, i ≠ j → ¬ SameSystem (fccM i) (fccS i) (fccM j) (fccS j)) ∧
    (∀ σ ε i, ∃ j, SameSystem ((cubicOp σ ε).mulVec (fccM i)) ((cubicOp σ ε).mulVec (fccS i))
      (fccM j) (fccS j)) ∧
    (∀ i, CubicFamily 1 1 1 (fccM i) ∧ CubicFamily 1 1 0 (fccS i)) ∧
    (∀ m s, CubicFamily 1 1 1 m → CubicFamily 1 1 0 s → dot m s = 0 →
      ∃ i, SameSystem m s (fccM i) (fccS i)) := by
  have hm : ∀ i k, fccM i k = _ := fun i k => by rw [fccM_int, sqr3i_fam]
  have hs : ∀ i k, fccS i k = _ := fun i k => by rw [fccS_int, sqr2i_fam]
  exact ⟨fcc_distinct, fun σ ε => cubic_closed fccM_int fccS_int fcc_closedI σ ε,
    fun i => ⟨inFamily_of_int hm fam111 i, inFamily_of_int hs fam110 i⟩,
    complete_of_int hm hs (by norm_num) (by norm_num) fcc_completeI⟩

/-- C17 BCC, 12 systems: exactly {110}<111>. -/
theorem C17_bcc12 :
    (∀ i j, i ≠ j → ¬ SameSystem (bccM12 i) (bccS12 i) (bccM12 j) (bccS12 j)) ∧
    (∀ σ ε i, ∃ j, SameSystem ((cubicOp σ ε).mulVec (bccM12 i)) ((cubicOp σ ε).mulVec (bccS12 i))
      (bccM12 j) (bccS12 j)) ∧
    (∀ i, CubicFamily 1 1 0 (bccM12 i) ∧ CubicFamily 1 1 1 (bccS12 i)) ∧
    (∀ m s, CubicFamily 1 1 0 m → CubicFamily 1 1 1 s → dot m s = 0 →
      ∃ i, SameSystem m s (bccM12 i) (bccS12 i)) := by
  have hm : ∀ i k, bccM12 i k = _ := fun i k => by rw [bccM12, bccBaseM_int, sqr2i_fam]
  have hs : ∀ i k, bccS12 i k = _ := fun i k => by rw [bccS12, bccBaseS_int, sqr3i_fam]
  exact ⟨bcc12_distinct, fun σ ε => bcc12_closed σ ε,
    fun i => ⟨inFamily_of_int hm fam110 i, inFamily_of_int hs fam111 i⟩,
    complete_of_int hm hs (by norm_num) (by norm_num) bcc_completeI⟩

/-- C17 BCC, 24 systems: exactly {110}<111> and {112}<111>. -/
theorem C17_bcc24 :
    (∀ i j, i ≠ j → ¬ SameSystem (bccM24 i) (bccS24 i) (bccM24 j) (bccS24 j)) ∧
    (∀ σ ε i, ∃ j, SameSystem ((cubicOp σ ε).mulVec (bccM24 i)) ((cubicOp σ ε).mulVec (bccS24 i))
      (bccM24 j) (bccS24 j)) ∧
    (∀ i, (CubicFamily 1 1 0 (bccM24 i) ∨ CubicFamily 1 1 2 (bccM24 i)) ∧
      CubicFamily 1 1 1 (bccS24 i)) ∧
    (∀ m s, CubicFamily 1 1 0 m ∨ CubicFamily 1 1 2 m → CubicFamily 1 1 1 s → dot m s = 0 →
      ∃ i, SameSystem m s (bccM24 i) (bccS24 i)) := by
  refine ⟨bcc24_distinct, fun σ ε => bcc24_closed σ ε, fun i => ?_, ?_⟩
  · refine Fin.addCases (m := 12) (n := 12) (fun i => ?_) (fun i => ?_) i
    · obtain ⟨h1, h2⟩ := C17_bcc12.2.2.1 i
      exact ⟨Or.inl (by simpa [bccM24, bccM12] using h1), by simpa [bccS24, bccS12] using h2⟩
    · constructor
      · right; simp only [bccM24, Fin.append_right]
        exact inFamily_of_int (fun i k => by rw [bccPGaM_int, sqr6i_fam]) fam112 i
      · simp only [bccS24, Fin.append_right]
        exact inFamily_of_int (fun i k => by rw [bccPGaS_int, sqr3i_fam]) fam111 i
  · rintro m s (h | h) hs h0
    · exact append_left (m' := bccPGaM) (s' := bccPGaS) (C17_bcc12.2.2.2 m s h hs h0)
    · exact append_right (bcc112_complete m s h hs h0)

/-- C17 BCC, 48 systems: exactly {110}<111>, {112}<111> and {123}<111>. -/
theorem C17_bcc48 :
    (∀ i j, i ≠ j → ¬ SameSystem (bccM48 i) (bccS48 i) (bccM48 j) (bccS48 j)) ∧
    (∀ σ ε i, ∃ j, SameSystem ((cubicOp σ ε).mulVec (bccM48 i)) ((cubicOp σ ε).mulVec (bccS48 i))
      (bccM48 j) (bccS48 j)) ∧
    (∀ i, (CubicFamily 1 1 0 (bccM48 i) ∨ CubicFamily 1 1 2 (bccM48 i) ∨
        CubicFamily 1 2 3 (bccM48 i)) ∧ CubicFamily 1 1 1 (bccS48 i)) ∧
    (∀ m s, CubicFamily 1 1 0 m ∨ CubicFamily 1 1 2 m ∨ CubicFamily 1 2 3 m →
      CubicFamily 1 1 1 s → dot m s = 0 → ∃ i, SameSystem m s (bccM48 i) (bccS48 i)) := by
  refine ⟨bcc48_distinct, fun σ ε => bcc48_closed σ ε, fun i => ?_, ?_⟩
  · refine Fin.addCases (m := 24) (n := 24) (fun i => ?_) (fun i => ?_) i
    · obtain ⟨h1, h2⟩ := C17_bcc24.2.2.1 i
      simp only [bccM48, bccS48, Fin.append_left]
      tauto
    · constructor
      · right; right; simp only [bccM48, Fin.append_right]
        exact inFamily_of_int (fun i k => by rw [bccPGbM_int, sqr14i_fam]) fam123 i
      · simp only [bccS48, Fin.append_right]
        exact inFamily_of_int (fun i k => by rw [bccPGbS_int, sqr3i_fam]) fam111b i
  · rintro m s (h | h | h) hs h0
    · exact append_left (m' := bccPGbM) (s' := bccPGbS) (C17_bcc24.2.2.2 m s (Or.inl h) hs h0)
    · exact append_left (m' := bccPGbM) (s' := bccPGbS) (C17_bcc24.2.2.2 m s (Or.inr h) hs h0)
    · exact append_right (bcc123_complete m s h hs h0)

/-- C17 HCP: for every positive c/a no repetition, and each of the four families (basal 0-2,
    prismatic 3-5, pyramidal a 6-11, pyramidal c+a 12-23) is mapped to itself by every rotation of
    the hexagonal class. -/
theorem C17_hcp (r : ℝ) (hr : 0 < r) : ∃ m s, hcpMS r = .ok (m, s) ∧
    (∀ i j, i ≠ j → ¬ SameSystem (m i) (s i) (m j) (s j)) ∧
    (∀ R, HexOp R → ∀ i : Fin 24, ∃ j : Fin 24,
      ((i.val < 3 ↔ j.val < 3) ∧ (i.val < 6 ↔ j.val < 6) ∧ (i.val < 12 ↔ j.val < 12)) ∧
      SameSystem (R.mulVec (m i)) (R.mulVec (s i)) (m j) (s j)) := by
  refine ⟨_, _, hcpMS_eq hr, hcp_distinct hr, fun R hR i => ?_⟩
  obtain ⟨j, hj, h⟩ := hcp_closed hr hR i
  have key : ∀ i j : Fin 24, hcpFam j = hcpFam i →
      (i.val < 3 ↔ j.val < 3) ∧ (i.val < 6 ↔ j.val < 6) ∧ (i.val < 12 ↔ j.val < 12) := by
    decide +kernel
  exact ⟨j, key i j hj, h⟩

/-- the operations used in C17 are orthogonal, and the hexagonal ones are rotations -/
theorem C17_ops_orthogonal : (∀ σ ε, cubicOp σ ε * (cubicOp σ ε).transpose = 1) ∧
    (∀ R, HexOp R → IsRot R) := by
  constructor
  · intro σ ε
    ext i j
    simp only [Matrix.mul_apply, cubicOp, Matrix.transpose_apply, Matrix.one_apply]
    by_cases h : i = j
    · subst h
      have : ((ε i : ℤ) : ℝ) * ((ε i : ℤ) : ℝ) = 1 := by
        rcases Int.units_eq_one_or (ε i) with h | h <;> simp [h]
      simp [this]
    · have : ∀ x, (if x = σ i then ((ε i : ℤ) : ℝ) else 0) * (if x = σ j then ((ε j : ℤ) : ℝ) else 0)
          = 0 := by
        intro x
        split_ifs with h1 h2 <;> simp
        exact absurd (σ.injective (h1.symm.trans h2)) h
      simp [this, h]
  · have hmul : ∀ A B : T3, IsRot A → IsRot B → IsRot (A * B) := by
      rintro A B ⟨a1, a2, a3⟩ ⟨b1, b2, b3⟩
      refine ⟨?_, ?_, by rw [Matrix.det_mul, a3, b3, one_mul]⟩
      · rw [Matrix.transpose_mul, Matrix.mul_assoc, ← Matrix.mul_assoc B, b1, Matrix.one_mul, a1]
      · rw [Matrix.transpose_mul, Matrix.mul_assoc, ← Matrix.mul_assoc _ A, a2, Matrix.one_mul, b2]
    have hrot : IsRot hexRot := by
      have h3 := s3_sq
      refine ⟨?_, ?_, ?_⟩
      · ext i j; fin_cases i <;> fin_cases j <;>
          simp [hexRot, Matrix.mul_apply, Fin.sum_univ_three] <;> ring_nf <;> simp [h3] <;> norm_num
      · ext i j; fin_cases i <;> fin_cases j <;>
          simp [hexRot, Matrix.mul_apply, Fin.sum_univ_three] <;> ring_nf <;> simp [h3] <;> norm_num
      · simp [hexRot, Matrix.det_fin_three]; ring_nf; rw [h3]; norm_num
    have hflip : IsRot hexFlip := by
      refine ⟨?_, ?_, ?_⟩
      · ext i j; fin_cases i <;> fin_cases j <;>
          simp [hexFlip, Matrix.mul_apply, Fin.sum_univ_three]
      · ext i j; fin_cases i <;> fin_cases j <;>
          simp [hexFlip, Matrix.mul_apply, Fin.sum_univ_three]
      · simp [hexFlip, Matrix.det_fin_three]
    intro R hR
    induction hR with
    | one => exact ⟨by simp, by simp, by simp⟩
    | rot _ ih => exact hmul _ _ hrot ih
    | flip _ ih => exact hmul _ _ hflip ih

example : HexOp (hexRot * (hexFlip * 1)) := .rot (.flip .one)
example : CubicFamily 1 1 1 (fccM 3) ∧ CubicFamily 1 1 0 (fccS 3) ∧ dot (fccM 3) (fccS 3) = 0 :=
  ⟨(C17_fcc.2.2.1 3).1, (C17_fcc.2.2.1 3).2, (fcc_slip 3).2.2⟩

/-! ## C18 -/

/-- C18 resolved shear stress: for any stress, given by its five deviatoric components, the value
    computed for a system with orthogonal direction and normal is direction . T . normal. -/
theorem C18_resolved_shear {n : ℕ} (m s : Fin n → Vec 3) (T : T3) (hT : T.IsSymm) (i : Fin n)
    (ho : dot (m i) (s i) = 0) :
    vecsVaTM (symmToVecd T) (slipPQ m s).P i = dot (s i) (T.mulVec (m i)) := by
  have h10 : T 1 0 = T 0 1 := hT.apply 0 1
  have h20 : T 2 0 = T 0 2 := hT.apply 0 2
  have h21 : T 2 1 = T 1 2 := hT.apply 1 2
  simp only [dot, Fin.sum_univ_three] at ho
  have e : vecsVaTM (symmToVecd T) (slipPQ m s).P i
      = dot (s i) (T.mulVec (m i)) - (T 0 0 + T 1 1 + T 2 2) / 3 *
        (m i 0 * s i 0 + m i 1 * s i 1 + m i 2 * s i 2) := by
    simp only [vecsVaTM, slipPQ, matToP, symmToVecd, vecsMsymm, vecsMaTb, Fin.sum_univ_five,
      Matrix.cons_val, dot, Matrix.mulVec, dotProduct, Fin.sum_univ_three, h10, h20, h21]
    sqr_ring
  rw [e, ho]; ring

/-- C18 plastic deformation rate: symmetric part of the sum of rate times direction (x) normal. -/
theorem C18_plastic_rate {n : ℕ} (m s : Fin n → Vec 3) (g : Vec n) :
    vecsVMa (slipPQ m s).P g = symmToVecd (sym (∑ i, g i • dyad (s i) (m i))) := by
  have hs : ∀ a b, (∑ i, g i • dyad (s i) (m i)) a b = ∑ i, g i * (s i a * m i b) := by
    intro a b; simp [Matrix.sum_apply, dyad]
  ext k
  fin_cases k <;>
    simp [vecsVMa, slipPQ, matToP, symmToVecd, vecsMsymm, vecsMaTb, sym, hs, Finset.mul_sum,
      ← Finset.sum_add_distrib, ← Finset.sum_sub_distrib] <;>
    exact Finset.sum_congr rfl fun i _ => by ring

/-- C18 plastic spin: axial vector (documented order and sign) of the same sum. -/
theorem C18_plastic_spin {n : ℕ} (m s : Fin n → Vec 3) (g : Vec n) :
    vecsVMa (slipPQ m s).Q g = axial (∑ i, g i • dyad (s i) (m i)) := by
  have hs : ∀ a b, (∑ i, g i • dyad (s i) (m i)) a b = ∑ i, g i * (s i a * m i b) := by
    intro a b; simp [Matrix.sum_apply, dyad]
  ext k
  fin_cases k <;>
    simp [vecsVMa, slipPQ, matToQ, skewToVeccp, vecsMskew, vecsMaTb, axial, hs, div_eq_mul_inv,
      ← Finset.sum_sub_distrib, Finset.sum_mul] <;>
    exact Finset.sum_congr rfl fun i _ => by ring

/-- C18 the plastic power is the same in both descriptions. -/
theorem C18_power {n : ℕ} (m s : Fin n → Vec 3) (T : T3) (hT : T.IsSymm) (g : Vec n)
    (ho : ∀ i, dot (m i) (s i) = 0) :
    ddot T (∑ i, g i • dyad (s i) (m i))
      = ∑ i, g i * vecsVaTM (symmToVecd T) (slipPQ m s).P i := by
  have hs : ∀ a b, (∑ i, g i • dyad (s i) (m i)) a b = ∑ i, g i * (s i a * m i b) := by
    intro a b; simp [Matrix.sum_apply, dyad]
  have h10 : T 1 0 = T 0 1 := hT.apply 0 1
  have h20 : T 2 0 = T 0 2 := hT.apply 0 2
  have h21 : T 2 1 = T 1 2 := hT.apply 1 2
  simp only [C18_resolved_shear m s T hT _ (ho _), ddot, hs, Fin.sum_univ_three, Finset.mul_sum,
    ← Finset.sum_add_distrib, dot, Matrix.mulVec, dotProduct]
  exact Finset.sum_congr rfl fun i _ => by rw [h10, h20, h21]; ring

example : (!![1, 2, 3; 2, 4, 5; 3, 5, 6] : T3).IsSymm ∧ dot (fccM 0) (fccS 0) = 0 :=
  ⟨by ext i j; fin_cases i <;> fin_cases j <;> rfl, (fcc_slip 0).2.2⟩

/-! ## C19 -/

/-- C19 for admissible plane (h k i l) and direction [u v t w] satisfying the zone law: the
    conversion succeeds, gives orthogonal unit vectors, the normal has components along the lattice
    axes proportional to the indices (so it is normal to the plane through the intercepts), with a
    positive factor when l is not zero, and the direction is the positive multiple of
    u a1 + v a2 + t a3 + w c. -/
theorem C19_miller (ann abb : Vec 4) (r : ℝ) (hr : 0 < r)
    (hp : ann 0 + ann 1 + ann 2 = 0) (hI : ∀ j, ann j = 0 ∨ 1 / 10 ^ 8 ≤ |ann j|) (hp0 : ann ≠ 0)
    (hd : abb 0 + abb 1 + abb 2 = 0) (hd0 : abb ≠ 0) (zone : ∑ j, ann j * abb j = 0) :
    ∃ m s, millerToOrthogSngl ann abb r = .ok (m, s) ∧ IsSlipSystem m s ∧
      (∃ c : ℝ, c ≠ 0 ∧ (∀ j, dot m (hexAxis r j) = c * ann j) ∧ (ann 3 ≠ 0 → 0 < c) ∧
        (ann 3 ≠ 0 → 0 < m 2 * ann 3)) ∧
      (∃ c : ℝ, 0 < c ∧ s = c • ∑ j, abb j • hexAxis r j) := by
  obtain ⟨m0, D, hm0, hD, hax⟩ := millerPlane_spec hr hp hI hp0
  have h3 := s3_pos
  have hs0 : vecNorm (mToODir abb r) ≠ 0 := by
    intro h
    have hsq := vecNorm3_sq (mToODir abb r)
    rw [h] at hsq
    have z0 : mToODir abb r 0 = 0 := by nlinarith [sq_nonneg (mToODir abb r 1), sq_nonneg (mToODir abb r 2)]
    have z1 : mToODir abb r 1 = 0 := by nlinarith [sq_nonneg (mToODir abb r 0), sq_nonneg (mToODir abb r 2)]
    have z2 : mToODir abb r 2 = 0 := by nlinarith [sq_nonneg (mToODir abb r 0), sq_nonneg (mToODir abb r 1)]
    simp [mToODir, sqr3] at z0 z1 z2
    have e0 : abb 0 = 0 := by linarith
    have e12 : abb 1 - abb 2 = 0 := z1
    have e3 : abb 3 = 0 := by
      rcases z2 with z | z
      · exact z
      · linarith
    apply hd0; ext j; fin_cases j <;> simp <;> linarith
  have hmz : vecNorm m0 ≠ 0 := by
    intro h
    have hsq := vecNorm3_sq m0
    rw [h] at hsq
    have z0 : m0 0 = 0 := by nlinarith [sq_nonneg (m0 1), sq_nonneg (m0 2)]
    have z1 : m0 1 = 0 := by nlinarith [sq_nonneg (m0 0), sq_nonneg (m0 2)]
    have z2 : m0 2 = 0 := by nlinarith [sq_nonneg (m0 0), sq_nonneg (m0 1)]
    apply hp0
    ext j
    have := hax j
    simp [dot, Fin.sum_univ_three, z0, z1, z2, hD] at this
    simpa using this
  have hmp : 0 < vecNorm m0 := lt_of_le_of_ne (vecNorm_nonneg _) (Ne.symm hmz)
  have hsp : 0 < vecNorm (mToODir abb r) := lt_of_le_of_ne (vecNorm_nonneg _) (Ne.symm hs0)
  -- normalised and aligned normal
  obtain ⟨e, he, hal, hsgn⟩ : ∃ e : ℝ, (e = 1 ∨ e = -1) ∧
      millerAlign ann (vecsVNormalize m0) = (e / vecNorm m0) • m0 ∧
      0 ≤ (e / vecNorm m0 * m0 2) * ann 3 := by
    unfold millerAlign
    split_ifs with h
    · refine ⟨-1, Or.inr rfl, ?_, ?_⟩
      · ext i; simp [vecsVNormalize, vecsVsa]; ring
      · simp only [vecsVNormalize, vecsVsa] at h
        have : -1 / vecNorm m0 * m0 2 * ann 3 = -(m0 2 * (1 / vecNorm m0) * ann 3) := by ring
        linarith
    · refine ⟨1, Or.inl rfl, ?_, ?_⟩
      · ext i; simp [vecsVNormalize, vecsVsa]; ring
      · simp only [vecsVNormalize, vecsVsa] at h
        have : 1 / vecNorm m0 * m0 2 * ann 3 = (m0 2 * (1 / vecNorm m0) * ann 3) := by ring
        linarith
  have hee : e ^ 2 = 1 := by rcases he with rfl | rfl <;> norm_num
  have hene : e ≠ 0 := by rintro rfl; norm_num at hee
  set m := (e / vecNorm m0) • m0 with hmdef
  have hSe : vecsVNormalize (mToODir abb r) = (1 / vecNorm (mToODir abb r)) • mToODir abb r := by
    ext i; simp [vecsVNormalize, vecsVsa]; ring
  set s := (1 / vecNorm (mToODir abb r)) • mToODir abb r with hsdef
  have hmax : ∀ j, dot m (hexAxis r j) = e / vecNorm m0 * D * ann j := by
    intro j
    have := hax j
    simp only [dot, Fin.sum_univ_three, hmdef, Pi.smul_apply, smul_eq_mul] at this ⊢
    rw [mul_assoc (e / vecNorm m0) D, ← this]; ring
  have hdot : dot m s = 0 := by
    have h1 : dot m s = 1 / vecNorm (mToODir abb r) * dot m (mToODir abb r) := by
      simp only [dot, hsdef, Fin.sum_univ_three, Pi.smul_apply, smul_eq_mul]; ring
    rw [h1, dot_mToODir]
    have h2 : ∑ j, abb j * dot m (hexAxis r j)
        = e / vecNorm m0 * D * ∑ j, ann j * abb j := by
      rw [Finset.mul_sum]; exact Finset.sum_congr rfl fun j _ => by rw [hmax]; ring
    rw [h2, zone]; ring
  have hmm : dot m m = 1 := by
    have := vecNorm3_sq m0
    simp only [dot, hmdef, Fin.sum_univ_three, Pi.smul_apply, smul_eq_mul]
    field_simp
    rw [hee, this]
    ring
  have hss : dot s s = 1 := by
    have := vecNorm3_sq (mToODir abb r)
    simp only [dot, hsdef, Fin.sum_univ_three, Pi.smul_apply, smul_eq_mul]
    field_simp
    rw [this]
  have hm3 : m 2 * r = e / vecNorm m0 * D * ann 3 := by
    have := hmax 3
    simpa [dot, Fin.sum_univ_three, hexAxis] using this
  have hcne : e / vecNorm m0 * D ≠ 0 := by positivity
  refine ⟨m, s, ?_, ⟨hmm, hss, hdot⟩, ⟨e / vecNorm m0 * D, hcne, hmax, ?_, ?_⟩, ?_⟩
  · have epos := eps_pos.le
    unfold millerToOrthogSngl
    rw [hp, hd, hm0]
    simp only [abs_zero, Out.bind, hal, hSe]
    rw [if_neg (not_lt.2 epos), if_neg (not_lt.2 epos), if_neg hs0, if_neg hmz, if_neg]
    rw [show vecsyadotb m s = dot m s from rfl, hdot, abs_zero]
    exact not_lt.2 epos
  · intro hl
    have hq : 0 ≤ m 2 * ann 3 := hsgn
    have : 0 ≤ e / vecNorm m0 * D := by
      by_contra hc
      push Not at hc
      have h1 : m 2 * ann 3 * r = e / vecNorm m0 * D * ann 3 ^ 2 := by
        rw [mul_right_comm, hm3]; ring
      have h2 : 0 < ann 3 ^ 2 := by positivity
      nlinarith
    exact lt_of_le_of_ne this (Ne.symm hcne)
  · intro hl
    have hq : 0 ≤ m 2 * ann 3 := hsgn
    refine lt_of_le_of_ne hq (fun h => ?_)
    have h1 : m 2 * ann 3 * r = e / vecNorm m0 * D * ann 3 ^ 2 := by
      rw [mul_right_comm, hm3]; ring
    rw [← h, zero_mul] at h1
    have h2 : 0 < ann 3 ^ 2 := by positivity
    exact (mul_ne_zero hcne h2.ne') h1.symm
  · refine ⟨1 / vecNorm (mToODir abb r), by positivity, ?_⟩
    rw [hsdef]; congr 1
    ext k; rw [mToODir_eq]; simp

/-- C19 index triples whose first three entries do not add to zero are rejected. -/
theorem C19_rejects (ann abb : Vec 4) (r : ℝ) :
    (1 / 10 ^ 8 < |ann 0 + ann 1 + ann 2| → millerToOrthogSngl ann abb r = .fail "bad ann") ∧
    (|ann 0 + ann 1 + ann 2| ≤ 1 / 10 ^ 8 → 1 / 10 ^ 8 < |abb 0 + abb 1 + abb 2| →
      millerToOrthogSngl ann abb r = .fail "bad abb") := by
  have he : idpEpsSqrt = 1 / 10 ^ 8 := by unfold idpEpsSqrt; norm_num
  constructor
  · intro h
    unfold millerToOrthogSngl
    rw [he, if_pos h]
  · intro h1 h2
    unfold millerToOrthogSngl
    rw [he, if_neg (not_lt.2 h1), if_pos h2]

/-- the hypotheses of C19 are met by the plane (1 0 -1 1) and the direction [-1 -1 2 3] -/
example : ∃ ann abb : Vec 4, (ann 0 + ann 1 + ann 2 = 0) ∧
    (∀ j, ann j = 0 ∨ 1 / 10 ^ 8 ≤ |ann j|) ∧ ann ≠ 0 ∧ (abb 0 + abb 1 + abb 2 = 0) ∧ abb ≠ 0 ∧
    ∑ j, ann j * abb j = 0 := by
  refine ⟨![1, 0, -1, 1], ![-1, -1, 2, 3], by simp, ?_, ?_, by simp; norm_num, ?_, ?_⟩
  · intro j; fin_cases j <;> simp <;> norm_num
  · intro h; have := congrFun h 0; simp at this
  · intro h; have := congrFun h 0; simp at this
  · simp [Fin.sum_univ_four]; norm_num

end Ecm.Props
