/- Helper lemmas for the conversion of four-index crystallographic notation. -/
import Verif.Lemmas.Hcp

namespace Ecm
open Spec Matrix

theorem mToODir_eq (v : Vec 4) (r : ℝ) (k : Fin 3) :
    mToODir v r k = ∑ j, v j * hexAxis r j k := by
  fin_cases k <;> simp [mToODir, hexAxis, Fin.sum_univ_four, sqr3] <;> ring

theorem dot_mToODir (m : Vec 3) (v : Vec 4) (r : ℝ) :
    dot m (mToODir v r) = ∑ j, v j * dot m (hexAxis r j) := by
  simp [dot, mToODir_eq, Fin.sum_univ_three, Fin.sum_univ_four]
  ring

theorem millerPlane_spec {ann : Vec 4} {r : ℝ} (hr : 0 < r)
    (hs : ann 0 + ann 1 + ann 2 = 0) (hI : ∀ j, ann j = 0 ∨ 1 / 10 ^ 8 ≤ |ann j|)
    (hne : ann ≠ 0) : ∃ m0 D, millerPlane ann r = .ok m0 ∧ D ≠ 0 ∧
      ∀ j, dot m0 (hexAxis r j) = D * ann j := by
  have h3 := s3_pos
  have h3s := s3_sq
  have small : ∀ j, |ann j| < idpEpsSqrt ↔ ann j = 0 := by
    intro j
    have e := eps_pos
    constructor
    · intro h
      rcases hI j with h' | h'
      · exact h'
      · exfalso; rw [idpEpsSqrt] at h; norm_num at h h'; linarith
    · intro h; rw [h, abs_zero]; exact e
  have h2 : ann 2 = -(ann 0 + ann 1) := by linarith
  unfold millerPlane
  by_cases hb : |ann 0| + |ann 1| + |ann 2| < idpEpsSqrt
  · rw [if_pos hb]
    have a0 := abs_nonneg (ann 0); have a1 := abs_nonneg (ann 1); have a2 := abs_nonneg (ann 2)
    have e0 : ann 0 = 0 := (small 0).1 (by linarith)
    have e1 : ann 1 = 0 := (small 1).1 (by linarith)
    have e2 : ann 2 = 0 := (small 2).1 (by linarith)
    have e3 : ann 3 ≠ 0 := by
      intro e3; apply hne; ext j; fin_cases j <;> assumption
    refine ⟨_, r / ann 3, rfl, by positivity, ?_⟩
    intro j
    fin_cases j <;> simp [dot, hexAxis, Fin.sum_univ_three, e0, e1, e2]
    field_simp
  · rw [if_neg hb]
    have hn01 : ¬ (ann 0 = 0 ∧ ann 1 = 0) := by
      rintro ⟨e0, e1⟩
      apply hb; rw [h2, e0, e1]; simpa using eps_pos
    unfold millerBasal
    simp only [small]
    by_cases e0 : ann 0 = 0
    · have e1 : ann 1 ≠ 0 := fun e1 => hn01 ⟨e0, e1⟩
      have e2 : ann 2 ≠ 0 := by rw [h2, e0]; simpa using e1
      have h2' : ann 2 = -ann 1 := by rw [h2, e0]; ring
      rw [if_pos e0, if_neg (by tauto)]
      by_cases e3 : ann 3 = 0
      · refine ⟨_, -(Real.sqrt 3 / (2 * ann 1 * ann 2)) , by simp only [Out.bind, if_pos e3]; rfl, ?_, ?_⟩
        · simp [e1, e2]
        · intro j
          fin_cases j <;>
            simp [dot, hexAxis, Fin.sum_univ_three, vecCrossProd, mToODir, sqr3, e0, e3, h2'] <;>
            field_simp <;> ring_nf
      · refine ⟨_, -(Real.sqrt 3 * r / (2 * ann 1 * ann 2 * ann 3)),
          by simp only [Out.bind, if_neg e3]; rfl, ?_, ?_⟩
        · have := hr.ne'; have := h3.ne'; simp [*]
        · intro j
          fin_cases j <;>
            simp [dot, hexAxis, Fin.sum_univ_three, vecCrossProd, mToODir, sqr3, e0, h2'] <;>
            field_simp <;> ring_nf
    · rw [if_neg e0]
      by_cases e1 : ann 1 = 0
      · have h2' : ann 2 = -ann 0 := by rw [h2, e1]; ring
        have e2 : ann 2 ≠ 0 := by rw [h2']; simpa using e0
        rw [if_pos e1, if_neg e2]
        by_cases e3 : ann 3 = 0
        · refine ⟨_, (Real.sqrt 3 / (2 * ann 0 * ann 2)) , by simp only [Out.bind, if_pos e3]; rfl, ?_, ?_⟩
          · simp [e0, e2]
          · intro j
            fin_cases j <;>
              simp [dot, hexAxis, Fin.sum_univ_three, vecCrossProd, mToODir, sqr3, e1, e3, h2'] <;>
              field_simp <;> ring_nf
        · refine ⟨_, (Real.sqrt 3 * r / (2 * ann 0 * ann 2 * ann 3)),
            by simp only [Out.bind, if_neg e3]; rfl, ?_, ?_⟩
          · have := hr.ne'; have := h3.ne'; simp [*]
          · intro j
            fin_cases j <;>
              simp [dot, hexAxis, Fin.sum_univ_three, vecCrossProd, mToODir, sqr3, e1, h2'] <;>
              field_simp <;> ring_nf
      · rw [if_neg e1]
        by_cases e3 : ann 3 = 0
        · refine ⟨_, -(Real.sqrt 3 / (2 * ann 0 * ann 1)) , by simp only [Out.bind, if_pos e3]; rfl, ?_, ?_⟩
          · simp [e0, e1]
          · intro j
            fin_cases j <;>
              simp [dot, hexAxis, Fin.sum_univ_three, vecCrossProd, mToODir, sqr3, e3, h2] <;>
              field_simp <;> ring_nf
        · refine ⟨_, -(Real.sqrt 3 * r / (2 * ann 0 * ann 1 * ann 3)),
            by simp only [Out.bind, if_neg e3]; rfl, ?_, ?_⟩
          · have := hr.ne'; have := h3.ne'; simp [*]
          · intro j
            fin_cases j <;>
              simp [dot, hexAxis, Fin.sum_univ_three, vecCrossProd, mToODir, sqr3, h2] <;>
              field_simp <;> ring_nf

end Ecm
