/- Miller-Bravais indices of the hexagonal slip systems. -/
import Verif.Lemmas.Hcp

namespace Ecm
open Spec

/-- indices of the normals -/
def hcpH (i : Fin 24) : Fin 4 → ℤ :=
  ![hcpMI i 0, (hcpMI i 1 - hcpMI i 0) / 2, (-hcpMI i 0 - hcpMI i 1) / 2, hcpMI i 2]
/-- indices of the directions -/
def hcpU (i : Fin 24) : Fin 4 → ℤ :=
  ![hcpSI i 0, (3 * hcpSI i 1 - hcpSI i 0) / 2, (-hcpSI i 0 - 3 * hcpSI i 1) / 2, 3 * hcpSI i 2]

theorem hcp_axis {r : ℝ} (hr : 0 < r) (i : Fin 24) (k : Fin 4) :
    dot (hcpMx r i) (hexAxis r k) = hcpCm r (hcpFam i) * (Real.sqrt 3 / 2 * r) * hcpH i k := by
  have h3 := s3_sq
  have p1 : ∀ i, ((hcpMI i 1 - hcpMI i 0) / 2) * 2 = hcpMI i 1 - hcpMI i 0 := by decide +kernel
  have p2 : ∀ i, ((-hcpMI i 0 - hcpMI i 1) / 2) * 2 = -hcpMI i 0 - hcpMI i 1 := by decide +kernel
  have q1 := congrArg (Int.cast : ℤ → ℝ) (p1 i)
  have q2 := congrArg (Int.cast : ℤ → ℝ) (p2 i)
  rw [Int.cast_mul] at q1 q2
  push_cast at q1 q2
  simp only [dot, Fin.sum_univ_three, hcpM_int hr i _]
  generalize hcpCm r (hcpFam i) = c
  have hk : k = 0 ∨ k = 1 ∨ k = 2 ∨ k = 3 := by fin_cases k <;> simp
  rcases hk with rfl | rfl | rfl | rfl <;>
    simp only [hexAxis, hcpH, hcpDm, Matrix.cons_val] 
  · ring
  · linear_combination (-(c * Real.sqrt 3 * r / 4)) * q1
  · linear_combination (-(c * Real.sqrt 3 * r / 4)) * q2
  · ring

theorem hcp_dirvec (r : ℝ) (i : Fin 24) (j : Fin 3) :
    hcpSx r i j = hcpCs r (hcpFam i) / 3 * ∑ k, hcpU i k * hexAxis r k j := by
  have p1 : ∀ i, ((3 * hcpSI i 1 - hcpSI i 0) / 2) * 2 = 3 * hcpSI i 1 - hcpSI i 0 := by
    decide +kernel
  have p2 : ∀ i, ((-hcpSI i 0 - 3 * hcpSI i 1) / 2) * 2 = -hcpSI i 0 - 3 * hcpSI i 1 := by
    decide +kernel
  have q1 := congrArg (Int.cast : ℤ → ℝ) (p1 i)
  have q2 := congrArg (Int.cast : ℤ → ℝ) (p2 i)
  rw [Int.cast_mul] at q1 q2
  push_cast at q1 q2
  rw [hcpS_int r i j]
  generalize hcpCs r (hcpFam i) = c
  have hj : j = 0 ∨ j = 1 ∨ j = 2 := by fin_cases j <;> simp
  rcases hj with rfl | rfl | rfl <;>
    simp only [hexAxis, hcpU, hcpDs, Fin.sum_univ_four, Matrix.cons_val] <;> push_cast
  · linear_combination (c / 12) * q1 + (c / 12) * q2
  · linear_combination (-(c * Real.sqrt 3 / 12)) * q1 + (c * Real.sqrt 3 / 12) * q2
  · ring

/-- a vector is determined by its products with the axes -/
theorem hex_ext {r : ℝ} (hr : 0 < r) {m m' : V3} (h : ∀ k, dot m (hexAxis r k) = dot m' (hexAxis r k)) :
    m = m' := by
  have h0 := h 0; have h1 := h 1; have h3 := h 3
  simp only [dot, hexAxis, Fin.sum_univ_three, Matrix.cons_val] at h0 h1 h3
  have s := s3_pos
  have e0 : m 0 = m' 0 := by linarith
  have e1 : m 1 = m' 1 := by
    have : Real.sqrt 3 * (m 1 - m' 1) = 0 := by rw [e0] at h1; linarith
    rcases mul_eq_zero.1 this with h | h
    · exact absurd h s.ne'
    · linarith
  have e2 : m 2 = m' 2 := by
    have : r * (m 2 - m' 2) = 0 := by linarith
    rcases mul_eq_zero.1 this with h | h
    · exact absurd h hr.ne'
    · linarith
  funext j
  have hj : j = 0 ∨ j = 1 ∨ j = 2 := by fin_cases j <;> simp
  rcases hj with rfl | rfl | rfl <;> assumption

theorem unit_scale {a b : ℝ} {x y : V3} (ha : 0 < a) (hb : 0 < b) (hx : dot x x = 1) (hy : dot y y = 1)
    (h : ∀ j, a * x j = b * y j) : x = y := by
  have e : a ^ 2 = b ^ 2 := by
    have h1 : a ^ 2 * dot x x = b ^ 2 * dot y y := by
      simp only [dot, Fin.sum_univ_three]
      linear_combination (a * x 0 + b * y 0) * h 0 + (a * x 1 + b * y 1) * h 1
        + (a * x 2 + b * y 2) * h 2
    rwa [hx, hy, mul_one, mul_one] at h1
  have e2 : a = b := (pow_left_inj₀ ha.le hb.le two_ne_zero).1 e
  subst e2
  funext j
  exact mul_left_cancel₀ ha.ne' (h j)

theorem hcp_complete_idx : ∀ f : Fin 4, ∀ (σ : Equiv.Perm (Fin 3)) (ε δ : ℤˣ)
    (σ' : Equiv.Perm (Fin 3)) (ε' δ' : ℤˣ),
    let h := ![ε * hcpPlanes f (σ 0).castSucc, ε * hcpPlanes f (σ 1).castSucc,
      ε * hcpPlanes f (σ 2).castSucc, δ * hcpPlanes f 3]
    let u := ![ε' * hcpDirs f (σ' 0).castSucc, ε' * hcpDirs f (σ' 1).castSucc,
      ε' * hcpDirs f (σ' 2).castSucc, δ' * hcpDirs f 3]
    h 0 * u 0 + h 1 * u 1 + h 2 * u 2 + h 3 * u 3 = 0 →
    ∃ i : Fin 24, (hcpStart f.castSucc ≤ i.val ∧ i.val < hcpStart f.succ) ∧ hcpFam i = f ∧
      (hcpH i = h ∨ hcpH i = -h) ∧ (hcpU i = u ∨ hcpU i = -u) := by
  decide +kernel

theorem hcp_member_idx : ∀ f : Fin 4, ∀ i : Fin 24,
    hcpStart f.castSucc ≤ i.val → i.val < hcpStart f.succ → hcpFam i = f ∧
    (∃ (σ : Equiv.Perm (Fin 3)) (ε δ : ℤˣ), hcpH i = ![ε * hcpPlanes f (σ 0).castSucc,
      ε * hcpPlanes f (σ 1).castSucc, ε * hcpPlanes f (σ 2).castSucc, δ * hcpPlanes f 3]) ∧
    (∃ (σ : Equiv.Perm (Fin 3)) (ε δ : ℤˣ), hcpU i = ![ε * hcpDirs f (σ 0).castSucc,
      ε * hcpDirs f (σ 1).castSucc, ε * hcpDirs f (σ 2).castSucc, δ * hcpDirs f 3]) := by
  decide +kernel

end Ecm
