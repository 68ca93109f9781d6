/- Helper lemmas for the HCP slip systems: closed forms and integer tables. -/
import Verif.Lemmas.SlipGeom

namespace Ecm
open Spec Matrix

theorem eps_pos : (0:ℝ) < idpEpsSqrt := by unfold idpEpsSqrt; positivity
theorem eps_lt_one : idpEpsSqrt < 1 := by unfold idpEpsSqrt; norm_num

/-- 1 / sqrt (r^2 + 3/4) -/
noncomputable def hu (r : ℝ) : ℝ := 1 / Real.sqrt (r ^ 2 + 3 / 4)
/-- 1 / sqrt (r^2 + 1) -/
noncomputable def hw (r : ℝ) : ℝ := 1 / Real.sqrt (r ^ 2 + 1)

theorem hu_pos (r : ℝ) : 0 < hu r := by unfold hu; positivity
theorem hw_pos (r : ℝ) : 0 < hw r := by unfold hw; positivity
theorem hu_sq (r : ℝ) : hu r ^ 2 * (r ^ 2 + 3 / 4) = 1 := by
  unfold hu; rw [div_pow, Real.sq_sqrt (by positivity)]; field_simp
theorem hw_sq (r : ℝ) : hw r ^ 2 * (r ^ 2 + 1) = 1 := by
  unfold hw; rw [div_pow, Real.sq_sqrt (by positivity)]; field_simp

theorem vecNorm_of_sq {v : Vec 3} {a : ℝ} (ha : 0 ≤ a)
    (h : v 0 ^ 2 + v 1 ^ 2 + v 2 ^ 2 = a ^ 2) : vecNorm v = a := by
  have := vecNorm3_sq v
  rw [h] at this
  exact (pow_left_inj₀ (vecNorm_nonneg v) ha two_ne_zero).1 this

/-- normal of the (10-11) plane -/
noncomputable def hcpNormal (r : ℝ) : Vec 3 :=
  ![hu r * (Real.sqrt 3 / 2 * r), hu r * (1 / 2 * r), hu r * (Real.sqrt 3 / 2)]
/-- direction [1-210] -/
noncomputable def hcpDirA : Vec 3 := ![1 / 2, -(Real.sqrt 3 / 2), 0]
/-- direction [-1-123] -/
noncomputable def hcpDirCA (r : ℝ) : Vec 3 :=
  ![-(hw r * (1 / 2)), -(hw r * (Real.sqrt 3 / 2)), hw r * r]

theorem millerPlane_pyr (r : ℝ) : millerPlane ![1, 0, -1, 1] r
    = .ok ![-(Real.sqrt 3 / 2 * r), -(1 / 2 * r), -(Real.sqrt 3 / 2)] := by
  have h1 : ¬ (1 : ℝ) + 1 < idpEpsSqrt := by have := eps_lt_one; linarith
  have h2 : ¬ (1 : ℝ) < idpEpsSqrt := by have := eps_lt_one; linarith
  have e := eps_pos
  simp only [millerPlane, millerBasal, Out.bind]
  simp [h1, h2, e, mToODir, vecCrossProd, -mul_eq_mul_left_iff, -mul_eq_mul_right_iff]
  refine ⟨?_, ?_, ?_⟩ <;> sqr_ring

theorem hcp_normalised (r : ℝ) :
    vecNorm (![-(Real.sqrt 3 / 2 * r), -(1 / 2 * r), -(Real.sqrt 3 / 2)] : Vec 3) = 1 / hu r := by
  apply vecNorm_of_sq (by have := hu_pos r; positivity)
  have h := hu_sq r
  have hp := hu_pos r
  have e : (1 / hu r) ^ 2 = r ^ 2 + 3 / 4 := by field_simp; linarith
  rw [e]
  simp
  ring_nf
  rw [s3_sq]; ring

theorem miller_ya (r : ℝ) :
    millerToOrthogSngl ![1, 0, -1, 1] ![1, -2, 1, 0] r = .ok (hcpNormal r, hcpDirA) := by
  have e := eps_pos
  have ne : ¬ idpEpsSqrt < 0 := not_lt.2 e.le
  have hp := hu_pos r
  have hs : vecNorm (mToODir ![1, -2, 1, 0] r) = 3 := by
    apply vecNorm_of_sq (by norm_num)
    simp [mToODir]; sqr_ring
  have hS : vecsVNormalize (mToODir ![1, -2, 1, 0] r) = hcpDirA := by
    unfold vecsVNormalize; rw [hs]
    ext i; fin_cases i <;> simp [vecsVsa, mToODir, hcpDirA] <;> sqr_ring
  have hM : millerAlign ![1, 0, -1, 1] (vecsVNormalize
      ![-(Real.sqrt 3 / 2 * r), -(1 / 2 * r), -(Real.sqrt 3 / 2)]) = hcpNormal r := by
    unfold vecsVNormalize; rw [hcp_normalised]
    have hneg : vecsVsa ![-(Real.sqrt 3 / 2 * r), -(1 / 2 * r), -(Real.sqrt 3 / 2)]
        (1 / (1 / hu r)) 2 * (![1, 0, -1, 1] : Vec 4) 3 < 0 := by
      have := s3_pos
      simp [vecsVsa]; positivity
    unfold millerAlign
    rw [if_pos hneg]
    ext i; fin_cases i <;> simp [vecsVsa, hcpNormal] <;> ring
  have hd : vecsyadotb (hcpNormal r) hcpDirA = 0 := by
    simp [vecsyadotb, Fin.sum_univ_three, hcpNormal, hcpDirA]; ring
  unfold millerToOrthogSngl
  rw [millerPlane_pyr]
  simp only [Out.bind, hs, hS, hM, hcp_normalised, hd]
  have hu0 : (1 / hu r) ≠ 0 := by positivity
  rw [if_neg (by simpa using ne), if_neg (by simp; norm_num; exact e.le), if_neg (by norm_num), if_neg hu0,
    if_neg (by simpa using ne)]

theorem miller_y1ca (r : ℝ) :
    millerToOrthogSngl ![1, 0, -1, 1] ![-1, -1, 2, 3] r = .ok (hcpNormal r, hcpDirCA r) := by
  have e := eps_pos
  have ne : ¬ idpEpsSqrt < 0 := not_lt.2 e.le
  have hp := hu_pos r
  have hwp := hw_pos r
  have hs : vecNorm (mToODir ![-1, -1, 2, 3] r) = 3 / hw r := by
    apply vecNorm_of_sq (by positivity)
    have e2 : (3 / hw r) ^ 2 = 9 * (r ^ 2 + 1) := by
      have := hw_sq r; field_simp; linarith
    rw [e2]
    simp [mToODir]; sqr_ring
  have hS : vecsVNormalize (mToODir ![-1, -1, 2, 3] r) = hcpDirCA r := by
    unfold vecsVNormalize; rw [hs]
    ext i; fin_cases i <;> simp [vecsVsa, mToODir, hcpDirCA] <;> sqr_ring
  have hM : millerAlign ![1, 0, -1, 1] (vecsVNormalize
      ![-(Real.sqrt 3 / 2 * r), -(1 / 2 * r), -(Real.sqrt 3 / 2)]) = hcpNormal r := by
    unfold vecsVNormalize; rw [hcp_normalised]
    have hneg : vecsVsa ![-(Real.sqrt 3 / 2 * r), -(1 / 2 * r), -(Real.sqrt 3 / 2)]
        (1 / (1 / hu r)) 2 * (![1, 0, -1, 1] : Vec 4) 3 < 0 := by
      have := s3_pos
      simp [vecsVsa]; positivity
    unfold millerAlign
    rw [if_pos hneg]
    ext i; fin_cases i <;> simp [vecsVsa, hcpNormal] <;> ring
  have hd : vecsyadotb (hcpNormal r) (hcpDirCA r) = 0 := by
    simp [vecsyadotb, Fin.sum_univ_three, hcpNormal, hcpDirCA]; ring
  unfold millerToOrthogSngl
  rw [millerPlane_pyr]
  simp only [Out.bind, hs, hS, hM, hcp_normalised, hd]
  have hu0 : (1 / hu r) ≠ 0 := by positivity
  have hw0 : (3 / hw r) ≠ 0 := by positivity
  rw [if_neg (by simpa using ne), if_neg (by simp; norm_num; exact e.le), if_neg hw0, if_neg hu0,
    if_neg (by simpa using ne)]

theorem hcp_mpp {r : ℝ} (hr : 0 < r) :
    Real.sqrt (1 - hcpNormal r 2 * hcpNormal r 2) = hu r * r := by
  have := hu_sq r; have := hu_pos r; have := s3_sq
  rw [show 1 - hcpNormal r 2 * hcpNormal r 2 = (hu r * r) ^ 2 by
    simp [hcpNormal]; nlinarith]
  exact Real.sqrt_sq (by positivity)

theorem hcp_spp (r : ℝ) :
    Real.sqrt (1 - hcpDirCA r 2 * hcpDirCA r 2) = hw r := by
  have := hw_sq r; have := hw_pos r
  rw [show 1 - hcpDirCA r 2 * hcpDirCA r 2 = hw r ^ 2 by
    simp [hcpDirCA]; nlinarith]
  exact Real.sqrt_sq (by positivity)

/-- explicit normals -/
noncomputable def hcpMx (r : ℝ) : Fin 24 → Vec 3 :=
  hcpM (hcpNormal r) (hcpNormal r) (hu r * r) (hu r * r)
/-- explicit directions -/
noncomputable def hcpSx (r : ℝ) : Fin 24 → Vec 3 := hcpS hcpDirA (hcpDirCA r) (hw r)

theorem hcpMS_eq {r : ℝ} (hr : 0 < r) : hcpMS r = .ok (hcpMx r, hcpSx r) := by
  simp only [hcpMS, miller_ya, miller_y1ca, Out.bind, hcp_mpp hr, hcp_spp, hcpMx, hcpSx]

/-- family of each HCP system: basal, prismatic, pyramidal a, pyramidal c+a -/
def hcpFam : Fin 24 → Fin 4 :=
  ![0, 0, 0, 1, 1, 1, 2, 2, 2, 2, 2, 2, 3, 3, 3, 3, 3, 3, 3, 3, 3, 3, 3, 3]
/-- integer form of the normals -/
def hcpMI : Fin 24 → Fin 3 → ℤ :=
  ![![0, 0, 1], ![0, 0, 1], ![0, 0, 1],
    ![-1, 1, 0], ![-1, -1, 0], ![0, -2, 0],
    ![1, 1, 1], ![1, -1, -1], ![1, 1, -1], ![-1, 1, -1], ![0, 2, -1], ![0, -2, -1],
    ![1, 1, 1], ![1, -1, -1], ![1, 1, -1], ![0, 2, -1], ![-1, 1, -1], ![-1, -1, -1],
    ![0, -2, -1], ![0, 2, 1], ![-1, 1, 1], ![-1, -1, 1], ![1, -1, 1], ![0, -2, 1]]
/-- integer form of the directions -/
def hcpSI : Fin 24 → Fin 3 → ℤ :=
  ![![1, 1, 0], ![1, -1, 0], ![2, 0, 0],
    ![1, 1, 0], ![1, -1, 0], ![2, 0, 0],
    ![1, -1, 0], ![1, 1, 0], ![-1, 1, 0], ![-1, -1, 0], ![-2, 0, 0], ![2, 0, 0],
    ![-1, -1, 1], ![-1, 1, -1], ![-2, 0, -1], ![-1, -1, -1], ![1, -1, -1], ![2, 0, -1],
    ![1, 1, -1], ![1, -1, 1], ![2, 0, 1], ![1, 1, 1], ![-2, 0, 1], ![-1, 1, 1]]

/-- diagonal scaling of the normals -/
noncomputable def hcpDm (r : ℝ) : Vec 3 := ![Real.sqrt 3 / 2 * r, 1 / 2 * r, Real.sqrt 3 / 2]
/-- diagonal scaling of the directions -/
noncomputable def hcpDs (r : ℝ) : Vec 3 := ![1 / 2, Real.sqrt 3 / 2, r]
/-- factors of the normals per family -/
noncomputable def hcpCm (r : ℝ) : Fin 4 → ℝ := ![2 / Real.sqrt 3, 1 / r, hu r, hu r]
/-- factors of the directions per family -/
noncomputable def hcpCs (r : ℝ) : Fin 4 → ℝ := ![1, 1, 1, hw r]

theorem hcpM_int {r : ℝ} (hr : 0 < r) : IntForm (hcpMx r) hcpFam (hcpCm r) (hcpDm r) hcpMI := by
  have := s3_pos
  intro i k
  fin_cases i <;> fin_cases k <;>
    simp [hcpMx, hcpM, hcpFam, hcpCm, hcpDm, hcpMI, hcpNormal, halfsqr3,
      -mul_eq_mul_left_iff, -mul_eq_mul_right_iff] <;> field_simp

theorem hcpS_int (r : ℝ) : IntForm (hcpSx r) hcpFam (hcpCs r) (hcpDs r) hcpSI := by
  intro i k
  fin_cases i <;> fin_cases k <;>
    simp [hcpSx, hcpS, hcpFam, hcpCs, hcpDs, hcpSI, hcpDirA, hcpDirCA, halfsqr3] <;> ring

theorem hcp_slip (r : ℝ) : ∀ i, IsSlipSystem (hcpMx r i) (hcpSx r i) := by
  have h3 := s3_sq
  have hp := s3_pos
  have hu2 := hu_sq r
  have hw2 := hw_sq r
  intro i
  refine ⟨?_, ?_, ?_⟩
  · fin_cases i <;> simp only [hcpMx, hcpM, hcpNormal, halfsqr3, dot, Fin.sum_univ_three] <;>
      simp <;> first
      | done
      | linear_combination (1/4 : ℝ) * h3
      | (ring_nf; rw [h3]; linear_combination hu2)
  · fin_cases i <;> simp only [hcpSx, hcpS, hcpDirA, hcpDirCA, halfsqr3, dot,
      Fin.sum_univ_three] <;>
      simp <;> first
      | done
      | linear_combination (1/4 : ℝ) * h3
      | (ring_nf; rw [h3]; linear_combination hw2)
      | (ring_nf; linear_combination hw2)
  · fin_cases i <;> simp only [hcpMx, hcpM, hcpNormal, hcpSx, hcpS, hcpDirA, hcpDirCA, halfsqr3,
        dot, Fin.sum_univ_three] <;> simp <;> ring

theorem hcpCm_pos {r : ℝ} (hr : 0 < r) (a : Fin 4) : 0 < hcpCm r a := by
  have := s3_pos; have := hu_pos r
  fin_cases a <;> simp [hcpCm] <;> assumption
theorem hcpCs_pos (r : ℝ) (a : Fin 4) : 0 < hcpCs r a := by
  have := hw_pos r
  fin_cases a <;> simp [hcpCs] <;> assumption
theorem hcpDm_pos {r : ℝ} (hr : 0 < r) (k : Fin 3) : 0 < hcpDm r k := by
  have := s3_pos
  fin_cases k <;> simp [hcpDm] <;> positivity
theorem hcpDs_pos {r : ℝ} (hr : 0 < r) (k : Fin 3) : 0 < hcpDs r k := by
  have := s3_pos
  fin_cases k <;> simp [hcpDs] <;> assumption

/-- action of the six-fold rotation on the integer normals (times two) -/
def rotMI : Fin 3 → Fin 3 → ℤ := ![![1, -1, 0], ![3, 1, 0], ![0, 0, 2]]
/-- action of the six-fold rotation on the integer directions (times two) -/
def rotSI : Fin 3 → Fin 3 → ℤ := ![![1, -3, 0], ![1, 1, 0], ![0, 0, 2]]
/-- action of the two-fold rotation -/
def flipI : Fin 3 → Fin 3 → ℤ := ![![1, 0, 0], ![0, -1, 0], ![0, 0, -1]]

theorem hexRot_actsM (r : ℝ) : ActsAs hexRot (hcpDm r) rotMI 2 := by
  intro p l
  fin_cases p <;> fin_cases l <;> simp [hexRot, hcpDm, rotMI] <;> ring_nf <;>
    simp only [s3_sq] <;> ring
theorem hexRot_actsS (r : ℝ) : ActsAs hexRot (hcpDs r) rotSI 2 := by
  intro p l
  fin_cases p <;> fin_cases l <;> simp [hexRot, hcpDs, rotSI] <;> ring_nf <;>
    simp only [s3_sq] <;> ring
theorem hexFlip_acts (D : Vec 3) : ActsAs hexFlip D flipI 1 := by
  intro p l
  fin_cases p <;> fin_cases l <;> simp [hexFlip, flipI]

theorem hcp_rot_closed {r : ℝ} (hr : 0 < r) : ∀ i, ∃ j, hcpFam j = hcpFam i ∧
    SameSystem (hexRot.mulVec (hcpMx r i)) (hexRot.mulVec (hcpSx r i)) (hcpMx r j) (hcpSx r j) :=
  closed_of_int (hcpM_int hr) (hcpS_int r) two_ne_zero (hexRot_actsM r) (hexRot_actsS r)
    (by decide +kernel)

theorem hcp_flip_closed {r : ℝ} (hr : 0 < r) : ∀ i, ∃ j, hcpFam j = hcpFam i ∧
    SameSystem (hexFlip.mulVec (hcpMx r i)) (hexFlip.mulVec (hcpSx r i))
      (hcpMx r j) (hcpSx r j) :=
  closed_of_int (hcpM_int hr) (hcpS_int r) one_ne_zero (hexFlip_acts _) (hexFlip_acts _)
    (by decide +kernel)

theorem hcp_closed {r : ℝ} (hr : 0 < r) {R : T3} (hR : HexOp R) : ∀ i, ∃ j,
    hcpFam j = hcpFam i ∧
    SameSystem (R.mulVec (hcpMx r i)) (R.mulVec (hcpSx r i)) (hcpMx r j) (hcpSx r j) := by
  induction hR with
  | one => intro i; exact ⟨i, rfl, by simp [SameSystem]⟩
  | rot _ ih =>
    intro i
    obtain ⟨j, hj, h⟩ := ih i
    obtain ⟨k, hk, h'⟩ := hcp_rot_closed hr j
    refine ⟨k, hk.trans hj, sameSystem_trans ?_ h'⟩
    rw [← Matrix.mulVec_mulVec, ← Matrix.mulVec_mulVec]
    exact sameSystem_map _ h
  | flip _ ih =>
    intro i
    obtain ⟨j, hj, h⟩ := ih i
    obtain ⟨k, hk, h'⟩ := hcp_flip_closed hr j
    refine ⟨k, hk.trans hj, sameSystem_trans ?_ h'⟩
    rw [← Matrix.mulVec_mulVec, ← Matrix.mulVec_mulVec]
    exact sameSystem_map _ h

theorem hcp_distinct {r : ℝ} (hr : 0 < r) : ∀ i j, i ≠ j →
    ¬ SameSystem (hcpMx r i) (hcpSx r i) (hcpMx r j) (hcpSx r j) :=
  distinct_of_int (hcpM_int hr) (hcpS_int r) (hcpCm_pos hr) (hcpCs_pos r) (hcpDm_pos hr)
    (hcpDs_pos hr) (fun i => ne_zero_of_unit (hcp_slip r i).1)
    (fun i => ne_zero_of_unit (hcp_slip r i).2.1) (by decide +kernel)

end Ecm
