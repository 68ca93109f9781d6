/- Square-root constants as polynomials in √2 and √3, and a tactic that decides
   polynomial identities involving them. -/
import Verif.Model.Const
import Mathlib.Tactic.Ring
import Mathlib.Tactic.FieldSimp
import Mathlib.Tactic.Linarith
import Mathlib.Tactic.NormNum

namespace Ecm

theorem s2_sq : Real.sqrt 2 ^ 2 = 2 := Real.sq_sqrt (by norm_num)
theorem s3_sq : Real.sqrt 3 ^ 2 = 3 := Real.sq_sqrt (by norm_num)
theorem s2_p3 : Real.sqrt 2 ^ 3 = 2 * Real.sqrt 2 := by rw [pow_succ, s2_sq]
theorem s3_p3 : Real.sqrt 3 ^ 3 = 3 * Real.sqrt 3 := by rw [pow_succ, s3_sq]
theorem s2_p4 : Real.sqrt 2 ^ 4 = 4 := by
  rw [show (4:ℕ) = 2 * 2 from rfl, pow_mul, s2_sq]; norm_num
theorem s3_p4 : Real.sqrt 3 ^ 4 = 9 := by
  rw [show (4:ℕ) = 2 * 2 from rfl, pow_mul, s3_sq]; norm_num
theorem s2_pos : 0 < Real.sqrt 2 := Real.sqrt_pos.2 (by norm_num)
theorem s3_pos : 0 < Real.sqrt 3 := Real.sqrt_pos.2 (by norm_num)
theorem s6_eq : Real.sqrt 6 = Real.sqrt 2 * Real.sqrt 3 := by
  rw [← Real.sqrt_mul (by norm_num)]; norm_num

theorem sqr2i_eq : sqr2i = Real.sqrt 2 / 2 := by
  unfold sqr2i; have := s2_pos; field_simp; rw [s2_sq]
theorem sqr3i_eq : sqr3i = Real.sqrt 3 / 3 := by
  unfold sqr3i; have := s3_pos; field_simp; rw [s3_sq]
theorem sqr6i_eq : sqr6i = Real.sqrt 2 * Real.sqrt 3 / 6 := by
  unfold sqr6i; rw [s6_eq]
  have := s2_pos; have := s3_pos; field_simp; rw [s2_sq, s3_sq]; norm_num
theorem sqr2b3_eq : sqr2b3 = Real.sqrt 2 * Real.sqrt 3 / 3 := by
  unfold sqr2b3; rw [Real.sqrt_div (by norm_num)]
  have := s3_pos; field_simp; rw [s3_sq]
theorem sqr3b2_eq : sqr3b2 = Real.sqrt 2 * Real.sqrt 3 / 2 := by
  unfold sqr3b2; rw [Real.sqrt_div (by norm_num)]
  have := s2_pos; field_simp; rw [s2_sq]
theorem sqr6_eq : sqr6 = Real.sqrt 2 * Real.sqrt 3 := s6_eq

/-- rewrite all constants to √2, √3 -/
macro "sqr_unfold" : tactic => `(tactic|
  simp only [sqr2i_eq, sqr3i_eq, sqr6i_eq, sqr2b3_eq, sqr3b2_eq, sqr6_eq, sqr2, sqr3, halfsqr3,
    twosqr3])

/-- reduce powers of √2, √3 after ring normalisation -/
macro "sqr_ring" : tactic => `(tactic| (
  try sqr_unfold
  ring_nf
  try simp only [s2_sq, s3_sq, s2_p3, s3_p3, s2_p4, s3_p4]
  try ring_nf))

end Ecm
