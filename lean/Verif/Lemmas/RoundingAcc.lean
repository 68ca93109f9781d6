/- Order and absorption of double-precision rounding, and the rounded sum of absolute values (C74). -/
import Verif.Lemmas.Rounding

namespace Ecm
open Spec

theorem dbl_le_grid {x : ℝ} {j : ℤ} (h : x ≤ j * 2 ^ (dblExp x - 52)) : dblRound x ≤ j * 2 ^ (dblExp x - 52) := by
  have h2 : (0:ℝ) < 2 ^ (dblExp x - 52) := by positivity
  unfold dblRound
  refine mul_le_mul_of_nonneg_right ?_ h2.le
  rw [← div_le_iff₀ h2] at h
  rw [round_eq]
  have : ⌊x / 2 ^ (dblExp x - 52) + 1 / 2⌋ < j + 1 := by
    rw [Int.floor_lt]; push_cast; linarith
  exact_mod_cast Int.lt_add_one_iff.1 this

theorem dbl_grid_le {x : ℝ} {j : ℤ} (h : j * 2 ^ (dblExp x - 52) ≤ x) : j * 2 ^ (dblExp x - 52) ≤ dblRound x := by
  have h2 : (0:ℝ) < 2 ^ (dblExp x - 52) := by positivity
  unfold dblRound
  refine mul_le_mul_of_nonneg_right ?_ h2.le
  rw [← le_div_iff₀ h2] at h
  rw [round_eq]
  have : j ≤ ⌊x / 2 ^ (dblExp x - 52) + 1 / 2⌋ := by
    rw [Int.le_floor]; linarith
  exact_mod_cast this

/-- a power of two that is not below the unit of the last place is on the grid -/
theorem pow_on_grid {a b : ℤ} (h : b ≤ a) : ∃ j : ℤ, (2:ℝ) ^ a = j * 2 ^ b := by
  refine ⟨2 ^ (a - b).toNat, ?_⟩
  push_cast
  rw [← zpow_natCast, Int.toNat_of_nonneg (by omega), ← zpow_add₀ two_ne_zero]
  congr 1; ring

theorem abs_lt_dblExp (x : ℝ) : |x| < 2 ^ (dblExp x + 1) := by
  have := Int.lt_zpow_succ_log_self (b := 2) (by norm_num) |x|
  push_cast at this
  refine this.trans_le (zpow_le_zpow_right₀ (by norm_num) ?_)
  have := le_max_left (Int.log 2 |x|) (-((1022 : ℕ) : ℤ))
  unfold dblExp; omega

theorem dblExp_le_abs {x : ℝ} (hx : x ≠ 0) (h : -1022 < dblExp x) : (2:ℝ) ^ dblExp x ≤ |x| := by
  have e : dblExp x = Int.log 2 |x| := by
    unfold dblExp at h ⊢
    omega
  rw [e]
  have := Int.zpow_log_le_self (b := 2) (r := |x|) (by norm_num) (abs_pos.2 hx)
  exact_mod_cast this

theorem dblExp_ge (x : ℝ) : -1022 ≤ dblExp x := le_max_right _ _

theorem dblExp_mono {x y : ℝ} (h : |x| ≤ |y|) (hx : x ≠ 0) : dblExp x ≤ dblExp y :=
  max_le_max (Int.log_mono_right (abs_pos.2 hx) h) le_rfl

theorem dblRound_zero : dblRound 0 = 0 := by unfold dblRound; rw [zero_div, round_zero, Int.cast_zero, zero_mul]

theorem dblRound_mono : Monotone dblRound := by
  intro x y h
  by_cases x0 : x = 0
  · subst x0
    rw [dblRound_zero]
    simpa using dbl_grid_le (x := y) (j := 0) (by simpa using h)
  by_cases y0 : y = 0
  · subst y0
    rw [dblRound_zero]
    simpa using dbl_le_grid (x := x) (j := 0) (by simpa using h)
  rcases lt_trichotomy (dblExp x) (dblExp y) with hE | hE | hE
  · have hy := dblExp_le_abs (x := y) y0 (by have := dblExp_ge x; omega)
    have hx : |x| < 2 ^ dblExp y := (abs_lt_dblExp x).trans_le (zpow_le_zpow_right₀ (by norm_num) (by omega))
    have hy0 : 0 ≤ y := by
      by_contra hn
      have := abs_of_neg (not_le.1 hn)
      have := abs_of_neg (lt_of_le_of_lt h (not_le.1 hn))
      linarith
    rw [abs_of_nonneg hy0] at hy
    obtain ⟨j, hj⟩ := pow_on_grid (a := dblExp y) (b := dblExp x - 52) (by omega)
    obtain ⟨i, hi⟩ := pow_on_grid (a := dblExp y) (b := dblExp y - 52) (by omega)
    have h1 := dbl_le_grid (x := x) (j := j) (by rw [← hj]; linarith [le_abs_self x])
    have h2 := dbl_grid_le (x := y) (j := i) (by rw [← hi]; exact hy)
    rw [← hj] at h1; rw [← hi] at h2
    exact h1.trans h2
  · unfold dblRound
    rw [hE]
    have h2 : (0:ℝ) < 2 ^ (dblExp y - 52) := by positivity
    refine mul_le_mul_of_nonneg_right ?_ h2.le
    rw [round_eq, round_eq]
    exact_mod_cast Int.floor_le_floor (by gcongr)
  · have hx := dblExp_le_abs (x := x) x0 (by have := dblExp_ge y; omega)
    have hy : |y| < 2 ^ dblExp x := (abs_lt_dblExp y).trans_le (zpow_le_zpow_right₀ (by norm_num) (by omega))
    have hx0 : x < 0 := by
      by_contra hn
      have := abs_of_nonneg (not_lt.1 hn)
      have := abs_of_nonneg ((not_lt.1 hn).trans h)
      linarith
    rw [abs_of_neg hx0] at hx
    obtain ⟨j, hj⟩ := pow_on_grid (a := dblExp x) (b := dblExp x - 52) (by omega)
    obtain ⟨i, hi⟩ := pow_on_grid (a := dblExp x) (b := dblExp y - 52) (by omega)
    have h1 := dbl_le_grid (x := x) (j := -j) (by push_cast; rw [neg_mul, ← hj]; linarith)
    have h2 := dbl_grid_le (x := y) (j := -i) (by push_cast; rw [neg_mul, ← hi]; linarith [neg_abs_le y])
    push_cast at h1 h2
    rw [neg_mul, ← hj] at h1; rw [neg_mul, ← hi] at h2
    exact h1.trans h2

/-- a number on its own grid is not changed -/
theorem dblRound_of_grid {x : ℝ} {j : ℤ} (h : x = j * 2 ^ (dblExp x - 52)) : dblRound x = x :=
  le_antisymm ((dbl_le_grid h.le).trans h.ge) (h.le.trans (dbl_grid_le h.ge))

theorem dblRound_idem (x : ℝ) : dblRound (dblRound x) = dblRound x := by
  set r := dblRound x with hr
  have hg : r = (round (x / 2 ^ (dblExp x - 52)) : ℤ) * 2 ^ (dblExp x - 52) := hr
  by_cases r0 : r = 0
  · rw [r0, dblRound_zero]
  rcases le_or_gt (dblExp r) (dblExp x) with hE | hE
  · obtain ⟨j, hj⟩ := pow_on_grid (a := dblExp x - 52) (b := dblExp r - 52) (by omega)
    refine dblRound_of_grid (j := round (x / 2 ^ (dblExp x - 52)) * j) ?_
    push_cast
    rw [mul_assoc, ← hj]; exact hg
  · have h1 := dblExp_le_abs (x := r) r0 (by have := dblExp_ge x; omega)
    have h2 : |r| ≤ 2 ^ (dblExp x + 1) := by
      obtain ⟨j, hj⟩ := pow_on_grid (a := dblExp x + 1) (b := dblExp x - 52) (by omega)
      have hx := abs_lt.1 (abs_lt_dblExp x)
      have a := dbl_le_grid (x := x) (j := j) (by rw [← hj]; exact hx.2.le)
      have b := dbl_grid_le (x := x) (j := -j) (by push_cast; rw [neg_mul, ← hj]; exact hx.1.le)
      push_cast at b
      rw [← hj] at a; rw [neg_mul, ← hj] at b
      exact abs_le.2 ⟨b, a⟩
    have h3 : (2:ℝ) ^ (dblExp x + 1) ≤ 2 ^ dblExp r := zpow_le_zpow_right₀ (by norm_num) (by omega)
    have h4 : |r| = 2 ^ dblExp r := le_antisymm (h2.trans h3) h1
    obtain ⟨j, hj⟩ := pow_on_grid (a := dblExp r) (b := dblExp r - 52) (by omega)
    rcases abs_choice r with hc | hc
    · exact dblRound_of_grid (j := j) (by rw [← hj, ← h4, hc])
    · exact dblRound_of_grid (j := -j) (by push_cast; rw [neg_mul, ← hj, ← h4, hc, neg_neg])

/-- an addition below half a unit of the last place is lost -/
theorem dblRound_absorb {s p : ℝ} (hs : dblRound s = s) (h1 : 2⁻¹ ^ 1000 ≤ s) (hp : 0 ≤ p)
    (hp1 : p < s / 2 ^ 54) : dblRound (s + p) = s := by
  have hs0 : 0 < s := lt_of_lt_of_le (by positivity) h1
  have hE0 : -1022 < dblExp s := by
    have a := abs_lt_dblExp s
    rw [abs_of_pos hs0] at a
    have : (2:ℝ) ^ (-(1000:ℤ)) < 2 ^ (dblExp s + 1) := by
      refine lt_of_le_of_lt (le_trans (le_of_eq ?_) h1) a
      rw [zpow_neg, inv_pow]; rfl
    have := (zpow_lt_zpow_iff_right₀ (by norm_num : (1:ℝ) < 2)).1 this
    omega
  have hg : s = (round (s / 2 ^ (dblExp s - 52)) : ℤ) * 2 ^ (dblExp s - 52) := hs.symm
  set e := dblExp s - 52 with he
  set j : ℤ := round (s / 2 ^ e) with hj
  have h2 : (0:ℝ) < 2 ^ e := by positivity
  have hlt : s < 2 ^ 53 * 2 ^ e := by
    have a := abs_lt_dblExp s
    rw [abs_of_pos hs0] at a
    have : (2:ℝ) ^ (dblExp s + 1) = 2 ^ 53 * 2 ^ e := by
      rw [he, ← zpow_natCast, ← zpow_add₀ two_ne_zero]; congr 1; push_cast; ring
    rwa [this] at a
  have hj1 : (j:ℝ) + 1 ≤ 2 ^ 53 := by
    have : (j:ℝ) < ((2 ^ 53 : ℤ) : ℝ) := by
      rw [show ((2 ^ 53 : ℤ) : ℝ) = 2 ^ 53 by norm_num]
      rw [hg] at hlt
      exact lt_of_mul_lt_mul_right hlt h2.le
    have := Int.cast_lt.1 this
    have : j + 1 ≤ 2 ^ 53 := this
    exact_mod_cast this
  have hp2 : p < 1 / 2 * 2 ^ e := by
    refine hp1.trans ?_
    rw [div_lt_iff₀ (by positivity)]
    linarith
  have hsum : s + p < 2 ^ 53 * 2 ^ e := by nlinarith
  have hE : dblExp (s + p) = dblExp s := by
    refine le_antisymm ?_ (dblExp_mono (by rw [abs_of_pos hs0, abs_of_pos (by linarith)]; linarith) hs0.ne')
    by_contra hn
    have := dblExp_le_abs (x := s + p) (by linarith) (by omega)
    rw [abs_of_pos (by linarith)] at this
    have h3 : (2:ℝ) ^ 53 * 2 ^ e ≤ 2 ^ dblExp (s + p) := by
      rw [he, ← zpow_natCast, ← zpow_add₀ two_ne_zero]
      exact zpow_le_zpow_right₀ (by norm_num) (by push_cast; omega)
    linarith
  have hr : round ((s + p) / 2 ^ e) = j := by
    rw [round_eq, Int.floor_eq_iff, add_div]
    have a : s / 2 ^ e = j := by rw [div_eq_iff h2.ne']; exact hg
    have b : p / 2 ^ e < 1 / 2 := by rw [div_lt_iff₀ h2]; exact hp2
    have c : 0 ≤ p / 2 ^ e := by positivity
    rw [a]
    constructor <;> linarith
  unfold dblRound
  rw [hE, ← he, hr]
  exact hg.symm


namespace Flt
variable (F : Flt)

theorem sumAbs_err : ∀ {n : ℕ} (v : Vec n), (∑ i, |v i|) ≤ 10 ^ 200 → (1 + F.u) ^ n ≤ 2 → n * F.η ≤ 1 →
    abs (F.sumAbs v - ∑ i, |v i|) ≤ ((1 + F.u) ^ n - 1) * (∑ i, |v i|) + (1 + F.u) ^ n * (n * F.η)
  | 0, v, _, _, _ => by simp [sumAbs]
  | n + 1, v, h, hu, hη => by
    have u0 := F.u_nonneg
    have e0 := F.η_nonneg
    rw [Fin.sum_univ_castSucc] at h ⊢
    have ih := sumAbs_err (n := n) (fun i => v i.castSucc) (by linarith [abs_nonneg (v (Fin.last n))])
      ((pow_le_pow_right₀ (by linarith) (Nat.le_succ n)).trans hu)
      (by push_cast at hη; linarith)
    have ha0 : 1 ≤ (1 + F.u) ^ n := one_le_pow₀ (by linarith)
    have hS : 0 ≤ ∑ i : Fin n, |v i.castSucc| := Finset.sum_nonneg fun i _ => abs_nonneg _
    have hl := abs_nonneg (v (Fin.last n))
    rw [sumAbs]
    rw [pow_succ] at hu ⊢
    push_cast at hη ⊢
    have hn : (0:ℝ) ≤ n := Nat.cast_nonneg n
    generalize (1 + F.u) ^ n = A at *
    generalize (∑ i : Fin n, |v i.castSucc|) = S at *
    generalize |v (Fin.last n)| = l at *
    generalize F.sumAbs (fun i => v i.castSucc) = s at *
    have hA2 : A ≤ 2 := by nlinarith
    have ih' := abs_le.1 ih
    have hnη : (n:ℝ) * F.η ≤ 1 := by linarith
    have hx : |s + l - (S + l)| ≤ (A - 1) * (S + l) + A * (n * F.η) := by
      rw [add_sub_add_right_eq_sub]
      have : 0 ≤ (A - 1) * l := mul_nonneg (by linarith) hl
      linarith
    have hx' := abs_le.1 hx
    have hxa : |s + l| ≤ A * (S + l) + A * (n * F.η) := by
      rw [abs_le]
      have : 0 ≤ A * (S + l) := by positivity
      constructor <;> linarith
    have hb : |s + l| ≤ 10 ^ 250 := by
      have h1 : A * (S + l) ≤ 2 * 10 ^ 200 := mul_le_mul hA2 h (by linarith) (by norm_num)
      have h2 : A * (n * F.η) ≤ 2 * 1 := mul_le_mul hA2 hnη (by positivity) (by norm_num)
      have : (2:ℝ) * 10 ^ 200 + 2 * 1 ≤ 10 ^ 250 := by norm_num
      linarith
    have hf := F.fl_err (s + l) hb
    have hm := mul_le_mul_of_nonneg_left hxa u0
    have tri := abs_sub_le (F.fl (s + l)) (s + l) (S + l)
    have h5 : F.η ≤ A * (1 + F.u) * F.η := by nlinarith [mul_nonneg u0 e0]
    nlinarith
end Flt

theorem pow_one_add_le {u : ℝ} (hu : 0 ≤ u) {m : ℕ} (h : m * u ≤ 1 / 2) : (1 + u) ^ m ≤ 1 + 2 * (m * u) := by
  have h1 : (1 + u) ^ m ≤ Real.exp (m * u) := by
    rw [Real.exp_nat_mul]
    exact pow_le_pow_left₀ (by linarith) (by linarith [Real.add_one_le_exp u]) m
  have h0 : 0 ≤ m * u := by positivity
  have := Real.abs_exp_sub_one_sub_id_le (x := m * u) (by rw [abs_of_nonneg h0]; linarith)
  have := (abs_le.1 this).2
  nlinarith

end Ecm
