/- Error bounds for the tables of the slip systems; a mathematical library for double precision. -/
import Verif.Model.TableRound
import Verif.Lemmas.ResidRound

namespace Ecm
open Spec Props

namespace Flt
variable {F : Flt}

theorem near_sqr2 : F.Near F.sqr2 Ecm.sqr2 2 1.4143 := by
  have hu := F.u_nonneg
  have h := Props.C46_literals.1
  have e : litSqr2 = 1.41421356237309504880168872421 := rfl
  have hl : |litSqr2| ≤ 1.4142136 := by rw [e, abs_of_pos (by norm_num)]; norm_num
  have h1 := F.fl_abs hl (by norm_num)
  have hη := F.η_le_u
  refine ⟨?_, ?_⟩
  · have := abs_add_le (-(litSqr2 - Ecm.sqr2)) litSqr2
    rw [abs_neg, show -(litSqr2 - Ecm.sqr2) + litSqr2 = Ecm.sqr2 by ring] at this
    have : (1:ℝ) / 10 ^ 28 ≤ 0.00001 := by norm_num
    linarith
  · have h2 := abs_add_le (F.fl litSqr2 - litSqr2) (litSqr2 - Ecm.sqr2)
    rw [sub_add_sub_cancel] at h2
    unfold sqr2 w
    have : (0:ℝ) < 1 / 10 ^ 28 := by positivity
    linarith

theorem near_sqr2i : F.Near F.sqr2i Ecm.sqr2i 1 0.71 := by
  refine near_lit C46_literals.2.2.2.1 ?_ (by norm_num)
  rw [litSqr2i, abs_of_pos (by norm_num)]; norm_num
theorem near_sqr3i : F.Near F.sqr3i Ecm.sqr3i 1 0.71 := by
  refine near_lit C46_literals.2.2.2.2.1 ?_ (by norm_num)
  rw [litSqr3i, abs_of_pos (by norm_num)]; norm_num
theorem near_sqr6i : F.Near F.sqr6i Ecm.sqr6i 1 0.41 := by
  refine near_lit C46_literals.2.2.2.2.2.2.1 ?_ (by norm_num)
  rw [litSqr6i, abs_of_pos (by norm_num)]; norm_num

theorem Near.add' {a b x y k l m p : ℝ} (hx : F.Near a x k m) (hy : F.Near b y l p) (hk : k + l ≤ 1000)
    (hm : m + p ≤ 100) : F.Near (F.fl (a + b)) (x + y) (k + l + (m + p) + 0.01) (m + p) :=
  hx.add hy ((abs_add_le _ _).trans (add_le_add hx.1 hy.1)) hk hm
theorem Near.sub' {a b x y k l m p : ℝ} (hx : F.Near a x k m) (hy : F.Near b y l p) (hk : k + l ≤ 1000)
    (hm : m + p ≤ 100) : F.Near (F.fl (a - b)) (x - y) (k + l + (m + p) + 0.01) (m + p) :=
  hx.sub hy ((abs_sub _ _).trans (add_le_add hx.1 hy.1)) hk hm
theorem Near.mul' {a b x y k l m p : ℝ} (hx : F.Near a x k m) (hy : F.Near b y l p) (hk : k ≤ 100) (hl : l ≤ 100)
    (hm : m ≤ 3) (hp : p ≤ 3) : F.Near (F.fl (a * b)) (x * y) (k * p + m * l + m * p + 0.03) (m * p) :=
  hx.mul hy (by rw [abs_mul]; exact mul_le_mul hx.1 hy.1 (abs_nonneg _) hx.m0) hk hl hm hp
    (by have := mul_le_mul hm hp hy.m0 (by norm_num); linarith)

theorem near_outer {a b x y : ℝ} (ha : F.Near a x 1 0.71) (hb : F.Near b y 1 0.71) :
    F.Near (F.fl (a * b)) (x * y) 1.96 0.505 :=
  (ha.mul' hb (by norm_num) (by norm_num) (by norm_num) (by norm_num)).mono (by norm_num) (by norm_num)

theorem near_half {a x k m : ℝ} (h : F.Near a x k m) (hk : k ≤ 100) (hm : m ≤ 3) :
    F.Near (F.fl ((1 / 2) * a)) ((1 / 2) * x) (1 / 2 * k + 1 / 2 * m + 0.03) (1 / 2 * m) :=
  ((Near.exact (F := F) (x := 1 / 2) (m := 1 / 2) (le_of_eq (abs_of_pos (by norm_num)))).mul' h (by norm_num) hk
    (by norm_num) hm).mono (by linarith) le_rfl

theorem near_two {a x k m : ℝ} (h : F.Near a x k m) (hk : k ≤ 100) (hm : m ≤ 3) :
    F.Near (F.fl (2 * a)) (2 * x) (2 * k + 2 * m + 0.03) (2 * m) :=
  ((Near.exact (F := F) (x := 2) (m := 2) (le_of_eq (abs_of_pos (by norm_num)))).mul' h (by norm_num) hk
    (by norm_num) hm).mono (by linarith) le_rfl

theorem near_symm {A B : Mat 3 3} (h : ∀ i j, F.Near (A i j) (B i j) 1.96 0.505) (i j : Fin 3) :
    F.Near (F.msymm A i j) (vecsMsymm B i j) 3.1 0.505 := by
  have h1 := near_half ((h i j).add' (h j i) (by norm_num) (by norm_num)) (by norm_num) (by norm_num)
  have e : vecsMsymm B i j = 1 / 2 * (B i j + B j i) := by unfold vecsMsymm; norm_num
  rw [e]
  exact h1.mono (by norm_num) (by norm_num)

theorem near_skew {A B : Mat 3 3} (h : ∀ i j, F.Near (A i j) (B i j) 1.96 0.505) (i j : Fin 3) :
    F.Near (F.mskew A i j) (vecsMskew B i j) 3.1 0.505 := by
  have h1 := near_half ((h i j).sub' (h j i) (by norm_num) (by norm_num)) (by norm_num) (by norm_num)
  have e : vecsMskew B i j = 1 / 2 * (B i j - B j i) := by unfold vecsMskew; norm_num
  rw [e]
  exact h1.mono (by norm_num) (by norm_num)

theorem near_symmToVecd {A B : Mat 3 3} (h : ∀ i j, F.Near (A i j) (B i j) 3.1 0.505) (k : Fin 5) :
    F.Near (F.symmToVecd A k) (Ecm.symmToVecd B k) 20 1 := by
  have o : ∀ i j, F.Near (F.fl (F.sqr2 * A i j)) (Ecm.sqr2 * B i j) 20 1 := fun i j =>
    (near_sqr2.mul' (h i j) (by norm_num) (by norm_num) (by norm_num) (by norm_num)).mono (by norm_num) (by norm_num)
  fin_cases k
  · exact (near_sqr2i.mul' ((h 0 0).sub' (h 1 1) (by norm_num) (by norm_num)) (by norm_num) (by norm_num)
      (by norm_num) (by norm_num)).mono (by norm_num) (by norm_num)
  · exact (near_sqr6i.mul' (((near_two (h 2 2) (by norm_num) (by norm_num)).sub' (h 0 0) (by norm_num)
      (by norm_num)).sub' (h 1 1) (by norm_num) (by norm_num)) (by norm_num) (by norm_num) (by norm_num)
      (by norm_num)).mono (by norm_num) (by norm_num)
  · exact o 1 0
  · exact o 2 0
  · exact o 2 1

/-- tables from vectors whose components are right up to a roundoff -/
theorem table_err {n : ℕ} {m s m' s' : Fin n → Vec 3} (hm : ∀ a i, F.Near (m' a i) (m a i) 1 0.71)
    (hs : ∀ a i, F.Near (s' a i) (s a i) 1 0.71) :
    (∀ k a, F.Er (F.tableP m' s' k a) ((slipPQ m s).P k a) 20 1) ∧
    (∀ k a, F.Er (F.tableQ m' s' k a) ((slipPQ m s).Q k a) 20 1) := by
  have ho : ∀ a i j, F.Near (F.fl (s' a i * m' a j)) (vecsMaTb (s a) (m a) i j) 1.96 0.505 :=
    fun a i j => near_outer (hs a i) (hm a j)
  refine ⟨fun k a => near_symmToVecd (near_symm (ho a)) k, fun k a => ?_⟩
  have : ∀ i j, F.Near (F.mskew (fun i j => F.fl (s' a i * m' a j)) i j) (vecsMskew (vecsMaTb (s a) (m a)) i j) 20 1 :=
    fun i j => (near_skew (ho a) i j).mono (by norm_num) (by norm_num)
  fin_cases k
  · exact this 2 1
  · exact this 0 2
  · exact this 1 0

theorem near_stored {v : Vec 3} (hv : ∀ i, v i = Ecm.sqr3i ∨ v i = -Ecm.sqr3i ∨ v i = Ecm.sqr2i ∨ v i = -Ecm.sqr2i ∨ v i = 0)
    (i : Fin 3) : F.Near (F.stored v i) (v i) 1 0.71 := by
  unfold stored
  split_ifs with h1 h2 h3 h4
  · rw [h1]; exact near_sqr3i
  · rw [h2]; exact near_sqr3i.neg
  · rw [h3]; exact near_sqr2i
  · rw [h4]; exact near_sqr2i.neg
  · have : v i = 0 := by
      rcases hv i with h | h | h | h | h
      · exact absurd h h1
      · exact absurd h h2
      · exact absurd h h3
      · exact absurd h h4
      · exact h
    rw [this]
    exact (Near.exact (F := F) (x := 0) (m := 0.71) (by rw [abs_zero]; norm_num)).mono (by norm_num) le_rfl

end Flt

theorem dbl_big {y : ℝ} (h : 1 / 10 ^ 250 ≤ y) : |dbl.fl y - y| ≤ 2 * dbl.u * y := by
  have y0 : 0 < y := lt_of_lt_of_le (by positivity) h
  have h1 := dblRound_err y
  rw [abs_of_pos y0] at h1
  have h2 : (2:ℝ)⁻¹ ^ (1022 + 53) ≤ 2⁻¹ ^ 53 * y := by
    rw [add_comm 1022 53, pow_add]
    refine mul_le_mul_of_nonneg_left (le_trans ?_ h) (by positivity)
    rw [inv_pow, ← one_div]
    refine one_div_le_one_div_of_le (by positivity) ?_
    calc (10:ℝ) ^ 250 ≤ (2 ^ 4) ^ 250 := pow_le_pow_left₀ (by norm_num) (by norm_num) _
      _ = 2 ^ 1000 := by rw [← pow_mul]
      _ ≤ 2 ^ 1022 := pow_le_pow_right₀ (by norm_num) (by norm_num)
  have : 2 * dbl.u * y = 2⁻¹ ^ 53 * y + 2⁻¹ ^ 53 * y := by show 2 * 2⁻¹ ^ 53 * y = _; ring
  rw [this]
  exact h1.trans (by linarith)

/-- a library for double precision that rounds the exact values -/
noncomputable def dblLibm : Libm dbl where
  expF := fun x => dbl.fl (Real.exp x)
  logF := fun x => dbl.fl (Real.log x)
  powF := fun x y => dbl.fl (x ^ y)
  exp_err := fun x hx => by
    refine dbl_big ?_
    have h1 := (abs_le.1 hx).1
    have h2 : Real.exp 500 ≤ 10 ^ 250 := by
      have : Real.exp 500 = Real.exp 1 ^ 500 := by rw [← Real.exp_nat_mul]; norm_num
      rw [this]
      have h3 : Real.exp 1 ≤ 3 := by have := Real.exp_one_lt_d9; linarith
      calc Real.exp 1 ^ 500 ≤ 3 ^ 500 := pow_le_pow_left₀ (Real.exp_pos 1).le h3 _
        _ = (3 ^ 2) ^ 250 := by rw [← pow_mul]
        _ ≤ 10 ^ 250 := pow_le_pow_left₀ (by norm_num) (by norm_num) _
    have h4 : Real.exp (-500) ≤ Real.exp x := Real.exp_le_exp.2 h1
    refine le_trans ?_ h4
    rw [Real.exp_neg, ← one_div]
    exact one_div_le_one_div_of_le (Real.exp_pos _) h2
  log_err := fun x _ _ => by
    refine (dblRound_err _).trans ?_
    have : 0 ≤ dbl.u * |Real.log x| := mul_nonneg dbl.u_nonneg (abs_nonneg _)
    show dbl.u * |Real.log x| + dbl.η ≤ _
    linarith
  pow_err := fun x y _ h _ => dbl_big (le_trans (by
    exact one_div_le_one_div_of_le (by positivity) (pow_le_pow_right₀ (by norm_num) (by norm_num))) h)

end Ecm
