/- Property theorems C85 and C115 for ratios of the hexagonal axes that are not positive
   (src/ecmech/ECMech_slipgeom.h:333-430). -/
import Verif.Lemmas.Wrap
import Verif.Props.YieldHex
import Verif.Props.NoChecks

namespace Ecm.Props
open Ecm Spec Matrix

/-- the tables of the hexagonal class for any ratio of the axes -/
theorem hcpMS_all (r : ℝ) : hcpMS r = .ok (hcpM (hcpNormal r) (hcpNormal r) (hu r * |r|) (hu r * |r|),
    hcpS hcpDirA (hcpDirCA r) (hw r)) := by
  simp only [hcpMS, miller_ya, miller_y1ca, Out.bind, hcp_mpp_abs, hcp_spp]

/-- the ratio 0: every direction lies in the basal plane -/
theorem hcp_zero_flat (i : Fin 24) : hcpS hcpDirA (hcpDirCA 0) (hw 0) i 2 = 0 := by
  fin_cases i <;> simp [hcpS, hcpDirA, hcpDirCA]

/-- **C85, the ratio 0.** The code accepts a hexagonal crystal with the ratio 0 of the axes.  No system of it carries anything of a
    tension along c, so that no positive part of every stress is carried. -/
theorem C85_refuted_zero : ∃ m s, hcpMS 0 = .ok (m, s) ∧ slipGeomHCP 0 = .ok (slipPQ m s) ∧
    (∀ i, IsSlipSystem (m i) (s i)) ∧
    (∀ i, dot (s i) ((Matrix.diagonal ![-1, -1, 2] : T3).mulVec (m i)) = 0) ∧ ∀ c, 0 < c → ¬ Activates m s c := by
  have hM : hcpM (hcpNormal 0) (hcpNormal 0) (hu 0 * |0|) (hu 0 * |0|) = hcpMx 0 := by rw [hcpMx, abs_zero]
  have hs : ∀ i, IsSlipSystem (hcpMx 0 i) (hcpSx 0 i) := hcp_slip 0
  have h0 : ∀ i, dot (hcpSx 0 i) ((Matrix.diagonal ![-1, -1, 2] : T3).mulVec (hcpMx 0 i)) = 0 := by
    intro i
    have h1 := (hs i).2.2
    have h2 : hcpSx 0 i 2 = 0 := hcp_zero_flat i
    simp only [dot, Fin.sum_univ_three, Matrix.mulVec_diagonal, Matrix.cons_val] at h1 ⊢
    rw [h2] at h1 ⊢
    linarith
  refine ⟨hcpMx 0, hcpSx 0, ?_, ?_, hs, h0, ?_⟩
  · rw [hcpMS_all, hM]
    rfl
  · rw [slipGeomHCP_eq, hM, if_neg (by simp [eps_pos.le])]
    rfl
  · intro c hc hA
    obtain ⟨i, hi⟩ := hA (Matrix.diagonal ![-1, -1, 2]) (by
      rw [isDev_iff]
      simp [Matrix.diagonal]
      norm_num)
    rw [h0 i, abs_zero] at hi
    have hf : 0 < frob (Matrix.diagonal ![-1, -1, 2] : T3) := by
      unfold frob
      apply Real.sqrt_pos.2
      simp [ddot, Fin.sum_univ_three, Matrix.diagonal]
      norm_num
    exact absurd hi (not_le.2 (mul_pos hc hf))

/-- **C85, all ratios that are not negative.** The code accepts them; the systems carry a part of every stress exactly if the
    ratio is positive. -/
theorem C85_hcp_exact (r : ℝ) (hr : 0 ≤ r) : ∃ m s, slipGeomHCP r = .ok (slipPQ m s) ∧ hcpMS r = .ok (m, s) ∧
    ((∃ c, 0 < c ∧ Activates m s c) ↔ 0 < r) := by
  rcases hr.eq_or_lt with h | h
  · subst h
    obtain ⟨m, s, h1, h2, -, -, h3⟩ := C85_refuted_zero
    exact ⟨m, s, h2, h1, fun ⟨c, hc, hA⟩ => absurd hA (h3 c hc), fun h => absurd h (lt_irrefl _)⟩
  · obtain ⟨m, s, h1, h2, -, h3⟩ := C85_hcp r h
    exact ⟨m, s, h2, h1, fun _ => h, fun _ => ⟨_, by positivity, h3⟩⟩

/-- C115 with the option every ratio of the axes is accepted. -/
theorem C115_ratio (r : ℝ) : ∃ m s, hcpMS r = .ok (m, s) ∧ slipGeomHCPFree r = .ok (slipPQ m s) := by
  refine ⟨_, _, hcpMS_all r, ?_⟩
  have h1 := ((C115_same_miller _ _ r _).1 (miller_ya r)).1
  have h2 := ((C115_same_miller _ _ r _).1 (miller_y1ca r)).1
  simp only [slipGeomHCPFree, hcpMSFree, h1, h2, Out.bind, hcp_mpp_abs, hcp_spp]
  rfl

/-- C115 the ratio -1: without the option it is refused, with it a direction leaves its plane by more than half of its length and
    the hydrostatic stress 1 that acts along it is not seen. -/
theorem C115_refuted_ratio : slipGeomHCP (-1) = .fail "internal error" ∧
    ∃ m s, hcpMS (-1) = .ok (m, s) ∧ slipGeomHCPFree (-1) = .ok (slipPQ m s) ∧
      dot (m 15) (s 15) < -(1 / 2) ∧ vecsVaTM (symmToVecd 1) (slipPQ m s).P 15 = 0 ∧
      dot (s 15) ((1 : T3).mulVec (m 15)) < -(1 / 2) := by
  have hd : dot (hcpM (hcpNormal (-1)) (hcpNormal (-1)) (hu (-1) * |(-1)|) (hu (-1) * |(-1)|) 15)
      (hcpS hcpDirA (hcpDirCA (-1)) (hw (-1)) 15) = -(hu (-1) * hw (-1) * Real.sqrt 3) := by
    simp [hcpM, hcpS, hcpNormal, hcpDirA, hcpDirCA, dot, Fin.sum_univ_three]
    ring
  have hb : 1 / 2 < hu (-1) * hw (-1) * Real.sqrt 3 := by
    have h1 := hu_sq (-1)
    have h2 := hw_sq (-1)
    have h3 := s3_sq
    have p1 := hu_pos (-1)
    have p2 := hw_pos (-1)
    have p3 := s3_pos
    have e1 : hu (-1) ^ 2 = 4 / 7 := by linarith
    have e2 : hw (-1) ^ 2 = 1 / 2 := by linarith
    have e : (hu (-1) * hw (-1) * Real.sqrt 3) ^ 2 = 6 / 7 := by
      rw [mul_pow, mul_pow, e1, e2, Real.sq_sqrt (by norm_num)]
      norm_num
    refine lt_of_pow_lt_pow_left₀ 2 (by positivity) ?_
    rw [e]
    norm_num
  constructor
  · rw [slipGeomHCP_eq, if_pos]
    have e : hu (-1) * hw (-1) * Real.sqrt 3 / 2 * (|(-1 : ℝ)| - -1) = hu (-1) * hw (-1) * Real.sqrt 3 := by
      rw [abs_neg, abs_one]
      ring
    rw [e, abs_of_pos (by linarith), epsSqrt_eq]
    exact lt_trans (by norm_num) hb
  · obtain ⟨m, s, h1, h2⟩ := C115_ratio (-1)
    have h3 := h1
    rw [hcpMS_all] at h3
    cases h3
    have hm := C115_miss (hcpM (hcpNormal (-1)) (hcpNormal (-1)) (hu (-1) * |(-1)|) (hu (-1) * |(-1)|))
      (hcpS hcpDirA (hcpDirCA (-1)) (hw (-1))) 1 Matrix.isSymm_one 15
    have hc : ∀ a b : Vec 3, dot b ((1 : T3).mulVec a) = dot a b := by
      intro a b
      rw [Matrix.one_mulVec]
      simp only [dot, Fin.sum_univ_three]
      ring
    rw [hc, Matrix.trace_one] at hm
    simp only [Fintype.card_fin, Nat.cast_ofNat, div_self (three_ne_zero' ℝ), one_mul] at hm
    refine ⟨_, _, h1, h2, ?_, ?_, ?_⟩
    · rw [hd]; linarith
    · linarith
    · rw [hc, hd]; linarith

/-- the ratio of magnesium -/
example : (0 : ℝ) ≤ 1.624 := by norm_num

end Ecm.Props
