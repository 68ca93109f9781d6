/- Error bounds for the quaternion update in floating-point arithmetic. -/
import Verif.Model.Rounding
import Verif.Lemmas.Stability
import Verif.Lemmas.Start
import Mathlib.Data.Int.Log
import Mathlib.Algebra.Order.Round

namespace Ecm
open Spec

theorem vecNorm_le_of_abs {n : ℕ} {x y : Vec n} (h : ∀ i, |x i| ≤ y i) : vecNorm x ≤ vecNorm y := by
  unfold vecNorm
  refine Real.sqrt_le_sqrt (Finset.sum_le_sum fun i _ => ?_)
  rw [← abs_mul_abs_self]
  exact mul_self_le_mul_self (abs_nonneg _) (h i)

theorem abs_le_vecNorm' {n : ℕ} (x : Vec n) (i : Fin n) : |x i| ≤ vecNorm x := by
  unfold vecNorm
  refine Real.le_sqrt_of_sq_le ?_
  rw [sq_abs, sq]
  exact Finset.single_le_sum (f := fun i => x i * x i) (fun j _ => mul_self_nonneg _) (Finset.mem_univ i)

theorem vecNorm_const {n : ℕ} (hn : n ≤ 4) {b : ℝ} (hb : 0 ≤ b) : vecNorm (fun _ : Fin n => b) ≤ 2 * b := by
  unfold vecNorm
  refine Real.sqrt_le_iff.2 ⟨by positivity, ?_⟩
  have : (n : ℝ) ≤ 4 := by exact_mod_cast hn
  simp only [Finset.sum_const, Finset.card_univ, Fintype.card_fin, nsmul_eq_mul]
  nlinarith [mul_nonneg hb hb]

/-- component-wise bound of a difference -/
theorem vecNorm_le_affine {n : ℕ} (hn : n ≤ 4) {x y : Vec n} {a b : ℝ} (ha : 0 ≤ a) (hb : 0 ≤ b)
    (h : ∀ i, |x i| ≤ a * |y i| + b) : vecNorm x ≤ a * vecNorm y + 2 * b := by
  refine (vecNorm_le_of_abs (y := fun i => a * |y i| + b) h).trans ?_
  have h1 := vecNorm_add_le (fun i => a * |y i|) (fun _ : Fin n => b)
  have h2 : vecNorm (fun i => a * |y i|) = a * vecNorm y := by
    unfold vecNorm
    have : ∑ i, a * |y i| * (a * |y i|) = a ^ 2 * ∑ i, y i * y i := by
      rw [Finset.mul_sum]
      refine Finset.sum_congr rfl fun i _ => ?_
      rw [← abs_mul_abs_self (y i)]; ring
    rw [this, Real.sqrt_mul (sq_nonneg a), Real.sqrt_sq ha]
  have h3 := vecNorm_const hn hb
  rw [h2] at h1
  exact le_trans h1 (by linarith)

theorem vecNorm_qn (q : Vec 4) : vecNorm q = Real.sqrt (qn q) := by
  rw [← dot_self_quat]; rfl

theorem vecNorm_quatProd (a b : Vec 4) : vecNorm (quatProd a b) = vecNorm a * vecNorm b := by
  rw [vecNorm_qn, vecNorm_qn, vecNorm_qn, qn_prod, Real.sqrt_mul]
  unfold qn; positivity

namespace Flt
variable (F : Flt)

theorem η_small : F.η ≤ F.u / 10 ^ 200 := F.η_le

theorem fl_abs {x b : ℝ} (h : |x| ≤ b) (hb : b ≤ 10 ^ 250) : |F.fl x - x| ≤ F.u * b + F.η :=
  (F.fl_err x (h.trans hb)).trans (by have := mul_le_mul_of_nonneg_left h F.u_nonneg; linarith)

theorem sumSq_err : ∀ {n : ℕ} (v : Vec n), n ≤ 4 → (∑ i, v i * v i) ≤ 10 ^ 220 →
    |F.sumSq v - ∑ i, v i * v i| ≤ 1.1 * (n + 1) * F.u * (∑ i, v i * v i) + 3 * n * F.η
  | 0, v, _, _ => by
    have := F.u_nonneg
    simp [sumSq]
  | n + 1, v, hn, hv => by
    have hu := F.u_nonneg; have hu1 := F.u_le; have hη := F.η_nonneg; have hη1 := F.η_le
    rw [Fin.sum_univ_castSucc] at hv ⊢
    set S := ∑ i : Fin n, v i.castSucc * v i.castSucc with hS
    set x := v (Fin.last n) * v (Fin.last n) with hx
    have S0 : 0 ≤ S := Finset.sum_nonneg fun i _ => mul_self_nonneg _
    have x0 : 0 ≤ x := mul_self_nonneg _
    have ih := sumSq_err (fun i => v (Fin.castSucc i)) (by omega) (by rw [← hS]; linarith)
    rw [← hS] at ih
    have hn' : (n : ℝ) ≤ 3 := by exact_mod_cast (by omega : n ≤ 3)
    have n0 : (0 : ℝ) ≤ n := Nat.cast_nonneg n
    have hx1 := F.fl_err x (by rw [abs_of_nonneg x0]; have : (10:ℝ) ^ 250 ≤ 10 ^ 250 := by norm_num
                               linarith)
    rw [abs_of_nonneg x0] at hx1
    have sdef : F.sumSq v = F.fl (F.sumSq (fun i => v i.castSucc) + F.fl x) := rfl
    rw [sdef]
    set s := F.sumSq (fun i => v i.castSucc)
    set p := F.fl x
    have e1 : 1.1 * (n + 1) * F.u * S ≤ S := by
      have : 1.1 * ((n:ℝ) + 1) * F.u ≤ 1 := by nlinarith
      nlinarith
    have η1 : F.η ≤ 1 := by
      have : F.u / 10 ^ 200 ≤ 1 := by
        rw [div_le_one (by positivity)]
        exact hu1.trans (by norm_num)
      linarith
    have hsp : |s + p| ≤ (1.1 * (n + 1) * F.u * S + 3 * n * F.η) + (F.u * x + F.η) + (S + x) := by
      have a := abs_le.1 ih; have b := abs_le.1 hx1
      rw [abs_le]; constructor <;> linarith [a.1, a.2, b.1, b.2]
    have hbig : |s + p| ≤ 10 ^ 250 := by
      refine hsp.trans ?_
      have h1 : F.u * x ≤ x := by nlinarith
      have h2 : 3 * (n:ℝ) * F.η ≤ 9 := by nlinarith
      have h3 : (2:ℝ) * 10 ^ 220 + 10 ≤ 10 ^ 250 := by norm_num
      linarith
    have h1 := F.fl_err _ hbig
    have h2 : |F.fl (s + p) - (S + x)| ≤ F.u * |s + p| + F.η + (1.1 * (n + 1) * F.u * S + 3 * n * F.η)
        + (F.u * x + F.η) := by
      have a := abs_le.1 ih; have b := abs_le.1 hx1; have c := abs_le.1 h1
      rw [abs_le]; constructor <;> linarith [a.1, a.2, b.1, b.2, c.1, c.2]
    refine h2.trans ?_
    have h3 := mul_le_mul_of_nonneg_left hsp hu
    refine (by linarith : F.u * |s + p| + F.η + (1.1 * (n + 1) * F.u * S + 3 * n * F.η) + (F.u * x + F.η)
      ≤ F.u * ((1.1 * (n + 1) * F.u * S + 3 * n * F.η) + (F.u * x + F.η) + (S + x)) + F.η
        + (1.1 * (n + 1) * F.u * S + 3 * n * F.η) + (F.u * x + F.η)).trans ?_
    push_cast
    have uS : 0 ≤ F.u * S := mul_nonneg hu S0
    have ux : 0 ≤ F.u * x := mul_nonneg hu x0
    have a1 : F.u * (1.1 * ((n:ℝ) + 1)) * (F.u * S) ≤ 0.1 * (F.u * S) :=
      mul_le_mul_of_nonneg_right (by nlinarith) uS
    have a2 : F.u * (F.u * x) ≤ 0.1 * (F.u * x) := mul_le_mul_of_nonneg_right (by linarith) ux
    have a3 : F.u * (3 * n + 1) * F.η ≤ 1 * F.η := mul_le_mul_of_nonneg_right (by nlinarith) hη
    have a4 : 0 ≤ (n:ℝ) * (F.u * x) := mul_nonneg n0 ux
    nlinarith

theorem η_mul {c : ℝ} (h : 1 / 10 ^ 190 ≤ c) : F.η ≤ 1 / 10 ^ 10 * (F.u * c) := by
  have hu := F.u_nonneg
  refine F.η_le.trans ?_
  have h1 : F.u / 10 ^ 200 = 1 / 10 ^ 10 * (F.u * (1 / 10 ^ 190)) := by ring
  rw [h1]
  have := mul_le_mul_of_nonneg_left h hu
  linarith

theorem η_le_u : F.η ≤ 1 / 10 ^ 10 * F.u := by
  have := F.η_mul (c := 1) (by norm_num); rwa [mul_one] at this

/-- relative error of the computed norm -/
theorem norm_err {n : ℕ} (hn : n ≤ 4) (v : Vec n) (h0 : 1 / 10 ^ 91 ≤ vecNorm v) (h1 : vecNorm v ≤ 10 ^ 100) :
    |F.norm v - vecNorm v| ≤ 8 * F.u * vecNorm v := by
  have hu := F.u_nonneg; have hu1 := F.u_le; have hη := F.η_nonneg
  have hd : ∑ i, v i * v i = vecNorm v ^ 2 := by
    unfold vecNorm; rw [Real.sq_sqrt (Finset.sum_nonneg fun i _ => mul_self_nonneg _)]
  set N := vecNorm v with hN
  have N0 : 0 < N := lt_of_lt_of_le (by positivity) h0
  have hsq : N ^ 2 ≤ 10 ^ 200 := by
    have : (10:ℝ) ^ 200 = (10 ^ 100) ^ 2 := by norm_num
    rw [this]; exact pow_le_pow_left₀ N0.le h1 2
  have hsq0 : 1 / 10 ^ 182 ≤ N ^ 2 := by
    have : (1:ℝ) / 10 ^ 182 = (1 / 10 ^ 91) ^ 2 := by norm_num
    rw [this]; exact pow_le_pow_left₀ (by positivity) h0 2
  have e := F.sumSq_err v hn (by rw [hd]; exact hsq.trans (by norm_num))
  rw [hd] at e
  have hn' : (n : ℝ) ≤ 4 := by exact_mod_cast hn
  have n0 : (0 : ℝ) ≤ n := Nat.cast_nonneg n
  have k1 := F.η_mul (c := N ^ 2) (le_trans (by norm_num) hsq0)
  have uN : 0 ≤ F.u * N ^ 2 := by positivity
  have e2 : |F.sumSq v - N ^ 2| ≤ 6 * F.u * N ^ 2 := by
    refine e.trans ?_
    have a1 : 1.1 * ((n:ℝ) + 1) * (F.u * N ^ 2) ≤ 5.5 * (F.u * N ^ 2) :=
      mul_le_mul_of_nonneg_right (by linarith) uN
    have a2 : 3 * (n:ℝ) * F.η ≤ 12 * F.η := mul_le_mul_of_nonneg_right (by linarith) hη
    nlinarith
  have s0 : 0 ≤ F.sumSq v := by
    have := (abs_le.1 e2).1
    have : 6 * F.u * N ^ 2 ≤ 1 * N ^ 2 := mul_le_mul_of_nonneg_right (by linarith) (by positivity)
    linarith
  have e3 : |Real.sqrt (F.sumSq v) - N| ≤ 6 * F.u * N := by
    have r0 := Real.sqrt_nonneg (F.sumSq v)
    have r1 := Real.sq_sqrt s0
    have r2 : |Real.sqrt (F.sumSq v) - N| * (Real.sqrt (F.sumSq v) + N) ≤ 6 * F.u * N ^ 2 := by
      rw [← abs_of_nonneg (by positivity : 0 ≤ Real.sqrt (F.sumSq v) + N), ← abs_mul]
      rw [show (Real.sqrt (F.sumSq v) - N) * (Real.sqrt (F.sumSq v) + N) = F.sumSq v - N ^ 2 by
        linear_combination r1]
      exact e2
    have r3 : |Real.sqrt (F.sumSq v) - N| * N ≤ 6 * F.u * N * N := by
      have := mul_le_mul_of_nonneg_left (by linarith : N ≤ Real.sqrt (F.sumSq v) + N)
        (abs_nonneg (Real.sqrt (F.sumSq v) - N))
      linarith [this, r2, (by ring : 6 * F.u * N ^ 2 = 6 * F.u * N * N)]
    exact le_of_mul_le_mul_right r3 N0
  have uN1 : 0 ≤ F.u * N := by positivity
  have e4 : |Real.sqrt (F.sumSq v)| ≤ 1.1 * N := by
    have a := abs_le.1 e3
    have : 6 * F.u * N ≤ 0.1 * N := mul_le_mul_of_nonneg_right (by linarith) N0.le
    rw [abs_le]; constructor <;> linarith [a.1, a.2]
  have e5 := F.fl_abs e4 (by
    have : (1.1:ℝ) * 10 ^ 100 ≤ 10 ^ 250 := by norm_num
    linarith)
  have k2 := F.η_mul (c := N) (le_trans (by norm_num) h0)
  unfold norm
  have a := abs_le.1 e3; have b := abs_le.1 e5
  rw [abs_le]; constructor <;> nlinarith [a.1, a.2, b.1, b.2]

/-- error of the computed reciprocal of the norm -/
theorem inv_err {n : ℕ} (hn : n ≤ 4) (v : Vec n) (h0 : 1 / 10 ^ 91 ≤ vecNorm v) (h1 : vecNorm v ≤ 10 ^ 100) :
    |F.fl (1 / F.norm v) - 1 / vecNorm v| ≤ 10 * F.u * (1 / vecNorm v) := by
  have hu := F.u_nonneg; have hu1 := F.u_le; have hη := F.η_nonneg
  have e := F.norm_err hn v h0 h1
  set N := vecNorm v
  set M := F.norm v
  have N0 : 0 < N := lt_of_lt_of_le (by positivity) h0
  have hM : 0.99 * N ≤ M := by
    have : 8 * F.u * N ≤ 0.01 * N := mul_le_mul_of_nonneg_right (by linarith) N0.le
    linarith [(abs_le.1 e).1]
  have M0 : 0 < M := by linarith [mul_pos (by norm_num : (0:ℝ) < 0.99) N0]
  have i1 : 1 / M ≤ 1.02 * (1 / N) := by
    rw [div_le_iff₀ M0, mul_one_div, div_mul_eq_mul_div, le_div_iff₀ N0]
    linarith
  have iM : 0 < 1 / M := by positivity
  have iN : 0 < 1 / N := by positivity
  have e2 : |1 / M - 1 / N| ≤ 8.2 * F.u * (1 / N) := by
    have : 1 / M - 1 / N = -(M - N) * (1 / M) * (1 / N) := by field_simp; ring
    rw [this, abs_mul, abs_mul, abs_neg, abs_of_pos iM, abs_of_pos iN]
    refine mul_le_mul_of_nonneg_right ?_ iN.le
    refine (mul_le_mul e i1 iM.le (by positivity)).trans ?_
    rw [show 8 * F.u * N * (1.02 * (1 / N)) = 8.16 * F.u by field_simp; ring]
    linarith
  have b : 1.02 * (1 / N) ≤ 10 ^ 250 := by
    have : 1 / N ≤ 10 ^ 91 := by rw [div_le_iff₀ N0]; rw [div_le_iff₀ (by positivity)] at h0; linarith
    have h : (1.02:ℝ) * 10 ^ 91 ≤ 10 ^ 250 := by norm_num
    linarith
  have e3 := F.fl_abs (x := 1 / M) (b := 1.02 * (1 / N)) (by rw [abs_of_pos iM]; exact i1) b
  have k := F.η_mul (c := 1 / N) (by
    rw [div_le_div_iff₀ (by positivity) N0]
    have : (10:ℝ) ^ 100 ≤ 10 ^ 190 := by norm_num
    linarith)
  have uN : 0 ≤ F.u * (1 / N) := by positivity
  have x := abs_le.1 e2; have y := abs_le.1 e3
  rw [abs_le]; constructor <;> nlinarith [x.1, x.2, y.1, y.2]

/-- error of a component times the computed reciprocal -/
theorem comp_err {n : ℕ} (hn : n ≤ 4) (v : Vec n) (h0 : 1 / 10 ^ 91 ≤ vecNorm v) (h1 : vecNorm v ≤ 10 ^ 100)
    (i : Fin n) :
    |F.fl (v i * F.fl (1 / F.norm v)) - v i * (1 / vecNorm v)|
      ≤ 12 * F.u * |v i * (1 / vecNorm v)| + F.η := by
  have hu := F.u_nonneg; have hu1 := F.u_le; have hη := F.η_nonneg
  have e := F.inv_err hn v h0 h1
  have hv := abs_le_vecNorm' v i
  set N := vecNorm v
  have N0 : 0 < N := lt_of_lt_of_le (by positivity) h0
  have iN : 0 < 1 / N := by positivity
  set I := F.fl (1 / F.norm v)
  have hvi : |v i * (1 / N)| ≤ 1 := by
    rw [abs_mul, abs_of_pos iN, mul_one_div, div_le_one N0]; exact hv
  have e1 : |v i * I - v i * (1 / N)| ≤ 10 * F.u * |v i * (1 / N)| := by
    rw [← mul_sub, abs_mul, abs_mul, abs_of_pos iN]
    have := mul_le_mul_of_nonneg_left e (abs_nonneg (v i))
    linarith
  set y := v i * (1 / N)
  have e2 : |v i * I| ≤ 1.1 * |y| := by
    have h2 : |v i * I| ≤ |v i * I - y| + |y| := by
      have := abs_add_le (v i * I - y) y; rwa [sub_add_cancel] at this
    have : 10 * F.u * |y| ≤ 0.1 * |y| := mul_le_mul_of_nonneg_right (by linarith) (abs_nonneg _)
    linarith
  have e3 := F.fl_abs e2 (by
    have : (1.1:ℝ) ≤ 10 ^ 250 := by norm_num
    linarith)
  have uy : 0 ≤ F.u * |y| := mul_nonneg hu (abs_nonneg _)
  have a := abs_le.1 e1; have b := abs_le.1 e3
  rw [abs_le]; constructor <;> nlinarith [a.1, a.2, b.1, b.2]

theorem unit_vec {n : ℕ} (v : Vec n) (h : 0 < vecNorm v) : vecNorm (fun i => v i * (1 / vecNorm v)) = 1 := by
  have hd : ∑ i, v i * v i = vecNorm v ^ 2 := by
    unfold vecNorm; rw [Real.sq_sqrt (Finset.sum_nonneg fun i _ => mul_self_nonneg _)]
  generalize vecNorm v = N at *
  unfold vecNorm
  have : ∑ i, v i * (1 / N) * (v i * (1 / N)) = (1 / N) ^ 2 * ∑ i, v i * v i := by
    rw [Finset.mul_sum]; exact Finset.sum_congr rfl fun i _ => by ring
  rw [this, hd, show (1 / N) ^ 2 * N ^ 2 = 1 by field_simp, Real.sqrt_one]

/-- the computed unit vector is close to the exact one -/
theorem normalize_err {n : ℕ} (hn : n ≤ 4) (v : Vec n) (h0 : 1 / 10 ^ 91 ≤ vecNorm v)
    (h1 : vecNorm v ≤ 10 ^ 100) :
    vecNorm (fun i => F.normalize v i - v i * (1 / vecNorm v)) ≤ 13 * F.u := by
  have hu := F.u_nonneg
  have N0 : 0 < vecNorm v := lt_of_lt_of_le (by positivity) h0
  have h := vecNorm_le_affine hn (x := fun i => F.normalize v i - v i * (1 / vecNorm v))
    (y := fun i => v i * (1 / vecNorm v)) (a := 12 * F.u) (b := F.η) (by positivity) F.η_nonneg
    (fun i => F.comp_err hn v h0 h1 i)
  rw [unit_vec v N0] at h
  linarith [F.η_le_u]

/-- unit quaternion of the rotation by the angle `2 a` about `n` -/
noncomputable def axisQuat (a : ℝ) (n : Vec 3) : Vec 4 :=
  ![Real.cos a, Real.sin a * n 0, Real.sin a * n 1, Real.sin a * n 2]

theorem axisQuat_norm (a : ℝ) {n : Vec 3} (h : vecNorm n = 1) : vecNorm (axisQuat a n) = 1 := by
  have h1 := vecNorm3_sq n
  rw [h] at h1
  rw [vecNorm_qn]
  have : qn (axisQuat a n) = 1 := by
    simp only [qn, axisQuat, Matrix.cons_val]
    have := Real.sin_sq_add_cos_sq a
    linear_combination this - Real.sin a ^ 2 * h1
  rw [this, Real.sqrt_one]

theorem vecNorm4_le (q : Vec 4) : vecNorm q ≤ |q 0| + vecNorm (fun i : Fin 3 => q i.succ) := by
  have h := vecNorm_nonneg (fun i : Fin 3 => q i.succ)
  have h1 := vecNorm3_sq (fun i : Fin 3 => q i.succ)
  unfold vecNorm at h h1 ⊢
  refine Real.sqrt_le_iff.2 ⟨add_nonneg (abs_nonneg _) h, ?_⟩
  rw [Fin.sum_univ_succ]
  have h2 := mul_nonneg (abs_nonneg (q 0)) h
  have h3 := sq_abs (q 0)
  have h4 : ∑ i : Fin 3, q i.succ * q i.succ = Real.sqrt (∑ i : Fin 3, q i.succ * q i.succ) ^ 2 :=
    (Real.sq_sqrt (Finset.sum_nonneg fun i _ => mul_self_nonneg _)).symm
  nlinarith

theorem invToQuat_err (t : ℝ) (w n : Vec 3) (hn : vecNorm n = 1)
    (hw : ∀ i, |w i - n i| ≤ 12 * F.u * |n i| + F.η) :
    vecNorm (fun i => F.invToQuat ![t, w 0, w 1, w 2] i - axisQuat (F.fl (t * 0.5)) n i) ≤ 20 * F.u := by
  have hu := F.u_nonneg; have hu1 := F.u_le; have hη := F.η_nonneg
  have hη1 := F.η_le_u
  set a := F.fl (t * 0.5) with ha
  have hs := F.sin_err a
  have hc := F.cos_err a
  set s := F.sinF a
  have s1 : |s| ≤ 1.1 := by
    have h1 := Real.abs_sin_le_one a
    have h2 := abs_le.1 hs; have h3 := abs_le.1 h1
    rw [abs_le]; constructor <;> linarith [h2.1, h2.2, h3.1, h3.2]
  have key : ∀ i, |F.fl (s * w i) - Real.sin a * n i| ≤ 17 * F.u * |n i| + 3 * F.η := by
    intro i
    have hi := hw i
    have ni : |n i| ≤ 1 := by rw [← hn]; exact abs_le_vecNorm' n i
    have un : 0 ≤ F.u * |n i| := mul_nonneg hu (abs_nonneg _)
    have b1 : |w i| ≤ 1.1 * |n i| + F.η := by
      have h2 : |w i| ≤ |w i - n i| + |n i| := by
        have := abs_add_le (w i - n i) (n i); rwa [sub_add_cancel] at this
      have : 12 * F.u * |n i| ≤ 0.1 * |n i| := mul_le_mul_of_nonneg_right (by linarith) (abs_nonneg _)
      linarith
    have b2 : |s * w i| ≤ 1.1 * (1.1 * |n i| + F.η) := abs_mul_le s1 b1
    have b3 := F.fl_abs b2 (by
      have : (10:ℝ) ≤ 10 ^ 250 := by norm_num
      linarith)
    have b4 : |s * (w i - n i)| ≤ 1.1 * (12 * F.u * |n i| + F.η) := abs_mul_le s1 hi
    have b5 : |(s - Real.sin a) * n i| ≤ 2 * F.u * |n i| := abs_mul_le hs le_rfl
    have b6 : F.u * F.η ≤ 0.1 * F.η := mul_le_mul_of_nonneg_right (by linarith) hη
    have c3 := abs_le.1 b3; have c4 := abs_le.1 b4; have c5 := abs_le.1 b5
    rw [abs_le]; constructor <;> nlinarith [c3.1, c3.2, c4.1, c4.2, c5.1, c5.2]
  refine (vecNorm4_le _).trans ?_
  have h1 := vecNorm_le_affine (n := 3) (by norm_num)
    (x := fun i : Fin 3 => F.invToQuat ![t, w 0, w 1, w 2] i.succ - axisQuat a n i.succ) (y := n)
    (a := 17 * F.u) (b := 3 * F.η) (by positivity) (by positivity) (fun i => by
      have hi : i = 0 ∨ i = 1 ∨ i = 2 := by fin_cases i <;> simp
      rcases hi with rfl | rfl | rfl
      · exact key 0
      · exact key 1
      · exact key 2)
  rw [hn] at h1
  have h2 : |F.invToQuat ![t, w 0, w 1, w 2] 0 - axisQuat a n 0| ≤ 2 * F.u := hc
  refine (add_le_add h2 h1).trans ?_
  linarith

theorem add4_err {x p : Fin 4 → ℝ} {B : ℝ} (hp : ∀ i, |p i - x i| ≤ F.u * |x i| + F.η)
    (hB : |x 0| + |x 1| + |x 2| + |x 3| ≤ B) (hB2 : B ≤ 2) :
    |F.fl (F.fl (F.fl (p 0 + p 1) + p 2) + p 3) - (x 0 + x 1 + x 2 + x 3)| ≤ 5 * F.u * B + 10 * F.η := by
  have hu := F.u_nonneg; have hu1 := F.u_le; have hη := F.η_nonneg
  have hη1 := F.η_le_u
  have a0 := abs_nonneg (x 0); have a1 := abs_nonneg (x 1)
  have a2 := abs_nonneg (x 2); have a3 := abs_nonneg (x 3)
  have B0 : 0 ≤ B := by linarith
  have uB : 0 ≤ F.u * B := mul_nonneg hu B0
  have uB1 : F.u * B ≤ 1 / 10 ^ 6 * B := mul_le_mul_of_nonneg_right hu1 B0
  have uuB : F.u * (F.u * B) ≤ 1 / 10 ^ 6 * (F.u * B) := mul_le_mul_of_nonneg_right hu1 uB
  have uη : F.u * F.η ≤ 1 / 10 ^ 6 * F.η := mul_le_mul_of_nonneg_right hu1 hη
  have huge : (10:ℝ) ≤ 10 ^ 250 := by norm_num
  have xu : ∀ i, |x i| ≤ B := fun i => by
    have h4 : i = 0 ∨ i = 1 ∨ i = 2 ∨ i = 3 := by fin_cases i <;> simp
    rcases h4 with rfl | rfl | rfl | rfl <;> linarith
  have q : ∀ i, x i - (F.u * |x i| + F.η) ≤ p i ∧ p i ≤ x i + (F.u * |x i| + F.η) := fun i => by
    have := abs_le.1 (hp i); constructor <;> linarith [this.1, this.2]
  have m : ∀ i, -|x i| ≤ x i ∧ x i ≤ |x i| := fun i => ⟨neg_abs_le _, le_abs_self _⟩
  have um : ∀ i, 0 ≤ F.u * |x i| := fun i => mul_nonneg hu (abs_nonneg _)
  have us : F.u * |x 0| + F.u * |x 1| + F.u * |x 2| + F.u * |x 3| ≤ F.u * B := by
    have := mul_le_mul_of_nonneg_left hB hu; linarith
  have c1 : |p 0 + p 1| ≤ B + F.u * B + 2 * F.η := by
    have := q 0; have := q 1; have := m 0; have := m 1; have := um 2; have := um 3
    rw [abs_le]; constructor <;> linarith
  have w1 : F.u * (B + F.u * B + 2 * F.η) ≤ 1.1 * (F.u * B) + 0.1 * F.η := by
    rw [mul_add, mul_add]; linarith
  have d1 := abs_le.1 (F.fl_abs c1 (by linarith))
  have c2 : |F.fl (p 0 + p 1) + p 2| ≤ B + 3 * (F.u * B) + 6 * F.η := by
    have := q 0; have := q 1; have := q 2; have := m 0; have := m 1; have := m 2; have := um 3
    rw [abs_le]; constructor <;> linarith [d1.1, d1.2]
  have w2 : F.u * (B + 3 * (F.u * B) + 6 * F.η) ≤ 1.1 * (F.u * B) + 0.1 * F.η := by
    rw [mul_add, mul_add]; linarith
  have d2 := abs_le.1 (F.fl_abs c2 (by linarith))
  have c3 : |F.fl (F.fl (p 0 + p 1) + p 2) + p 3| ≤ B + 5 * (F.u * B) + 9 * F.η := by
    have := q 0; have := q 1; have := q 2; have := q 3
    have := m 0; have := m 1; have := m 2; have := m 3
    rw [abs_le]; constructor <;> linarith [d1.1, d1.2, d2.1, d2.2]
  have w3 : F.u * (B + 5 * (F.u * B) + 9 * F.η) ≤ 1.1 * (F.u * B) + 0.1 * F.η := by
    rw [mul_add, mul_add]; linarith
  have d3 := abs_le.1 (F.fl_abs c3 (by linarith))
  have q0 := q 0; have q1 := q 1; have q2 := q 2; have q3 := q 3
  rw [abs_le]
  constructor <;> linarith [d1.1, d1.2, d2.1, d2.2, d3.1, d3.2, q0.1, q0.2, q1.1, q1.2, q2.1, q2.2,
    q3.1, q3.2]

theorem quatProd_err {a b : Vec 4} (ha : vecNorm a ≤ 1.01) (hb : vecNorm b ≤ 1.01) :
    vecNorm (fun i => F.quatProd a b i - Ecm.quatProd a b i) ≤ 12 * F.u := by
  have hu := F.u_nonneg; have hη := F.η_nonneg
  have hη1 := F.η_le_u
  have na : a 0 ^ 2 + a 1 ^ 2 + a 2 ^ 2 + a 3 ^ 2 ≤ 1.03 := by
    have := pow_le_pow_left₀ (vecNorm_nonneg a) ha 2
    rw [vecNorm_qn, Real.sq_sqrt (by unfold qn; positivity)] at this
    unfold qn at this; linarith
  have nb : b 0 ^ 2 + b 1 ^ 2 + b 2 ^ 2 + b 3 ^ 2 ≤ 1.03 := by
    have := pow_le_pow_left₀ (vecNorm_nonneg b) hb 2
    rw [vecNorm_qn, Real.sq_sqrt (by unfold qn; positivity)] at this
    unfold qn at this; linarith
  have am : ∀ i j, |a i * b j| ≤ (a i ^ 2 + b j ^ 2) / 2 := fun i j => by
    rw [abs_le]; constructor <;> nlinarith [sq_nonneg (a i - b j), sq_nonneg (a i + b j)]
  have sa : ∀ i, a i ^ 2 ≤ 1.03 := fun i => by
    have h4 : i = 0 ∨ i = 1 ∨ i = 2 ∨ i = 3 := by fin_cases i <;> simp
    rcases h4 with rfl | rfl | rfl | rfl <;>
      linarith [sq_nonneg (a 0), sq_nonneg (a 1), sq_nonneg (a 2), sq_nonneg (a 3)]
  have sb : ∀ i, b i ^ 2 ≤ 1.03 := fun i => by
    have h4 : i = 0 ∨ i = 1 ∨ i = 2 ∨ i = 3 := by fin_cases i <;> simp
    rcases h4 with rfl | rfl | rfl | rfl <;>
      linarith [sq_nonneg (b 0), sq_nonneg (b 1), sq_nonneg (b 2), sq_nonneg (b 3)]
  have fp : ∀ i j, |F.fl (a i * b j) - a i * b j| ≤ F.u * |a i * b j| + F.η := fun i j =>
    F.fl_err _ ((am i j).trans (by
      have := sa i; have := sb j
      have : (10:ℝ) ≤ 10 ^ 250 := by norm_num
      linarith))
  have fn : ∀ i j, |-F.fl (a i * b j) - -(a i * b j)| ≤ F.u * |-(a i * b j)| + F.η := fun i j => by
    rw [abs_neg, ← neg_add', abs_neg, ← sub_eq_add_neg]; exact fp i j
  have b5 : 5 * F.u * 1.03 + 10 * F.η ≤ 6 * F.u := by linarith
  have e0 := F.add4_err (x := ![a 0 * b 0, -(a 1 * b 1), -(a 2 * b 2), -(a 3 * b 3)])
    (p := ![F.fl (a 0 * b 0), -F.fl (a 1 * b 1), -F.fl (a 2 * b 2), -F.fl (a 3 * b 3)]) (B := 1.03)
    (fun i => by
      have h4 : i = 0 ∨ i = 1 ∨ i = 2 ∨ i = 3 := by fin_cases i <;> simp
      rcases h4 with rfl | rfl | rfl | rfl
      exacts [fp _ _, fn _ _, fn _ _, fn _ _])
    (by simp only [Matrix.cons_val, abs_neg]; linarith [am 0 0, am 1 1, am 2 2, am 3 3]) (by norm_num)
  have e1 := F.add4_err (x := ![a 0 * b 1, a 1 * b 0, a 2 * b 3, -(a 3 * b 2)])
    (p := ![F.fl (a 0 * b 1), F.fl (a 1 * b 0), F.fl (a 2 * b 3), -F.fl (a 3 * b 2)]) (B := 1.03)
    (fun i => by
      have h4 : i = 0 ∨ i = 1 ∨ i = 2 ∨ i = 3 := by fin_cases i <;> simp
      rcases h4 with rfl | rfl | rfl | rfl
      exacts [fp _ _, fp _ _, fp _ _, fn _ _])
    (by simp only [Matrix.cons_val, abs_neg]; linarith [am 0 1, am 1 0, am 2 3, am 3 2]) (by norm_num)
  have e2 := F.add4_err (x := ![a 0 * b 2, -(a 1 * b 3), a 2 * b 0, a 3 * b 1])
    (p := ![F.fl (a 0 * b 2), -F.fl (a 1 * b 3), F.fl (a 2 * b 0), F.fl (a 3 * b 1)]) (B := 1.03)
    (fun i => by
      have h4 : i = 0 ∨ i = 1 ∨ i = 2 ∨ i = 3 := by fin_cases i <;> simp
      rcases h4 with rfl | rfl | rfl | rfl
      exacts [fp _ _, fn _ _, fp _ _, fp _ _])
    (by simp only [Matrix.cons_val, abs_neg]; linarith [am 0 2, am 1 3, am 2 0, am 3 1]) (by norm_num)
  have e3 := F.add4_err (x := ![a 0 * b 3, a 1 * b 2, -(a 2 * b 1), a 3 * b 0])
    (p := ![F.fl (a 0 * b 3), F.fl (a 1 * b 2), -F.fl (a 2 * b 1), F.fl (a 3 * b 0)]) (B := 1.03)
    (fun i => by
      have h4 : i = 0 ∨ i = 1 ∨ i = 2 ∨ i = 3 := by fin_cases i <;> simp
      rcases h4 with rfl | rfl | rfl | rfl
      exacts [fp _ _, fp _ _, fn _ _, fp _ _])
    (by simp only [Matrix.cons_val, abs_neg]; linarith [am 0 3, am 1 2, am 2 1, am 3 0]) (by norm_num)
  simp only [Matrix.cons_val, ← sub_eq_add_neg] at e0 e1 e2 e3
  have h := vecNorm_le_of_abs (x := fun i => F.quatProd a b i - Ecm.quatProd a b i)
    (y := fun _ => 6 * F.u) (fun i => by
      have h4 : i = 0 ∨ i = 1 ∨ i = 2 ∨ i = 3 := by fin_cases i <;> simp
      rcases h4 with rfl | rfl | rfl | rfl
      exacts [e0.trans b5, e1.trans b5, e2.trans b5, e3.trans b5])
  refine h.trans ((vecNorm_const le_rfl (by positivity)).trans ?_)
  linarith

theorem quatProd_sub_left (a a' b : Vec 4) :
    (fun i => Ecm.quatProd a b i - Ecm.quatProd a' b i) = Ecm.quatProd (fun i => a i - a' i) b := by
  funext i
  fin_cases i <;> simp [Ecm.quatProd] <;> ring

theorem quatProd_sub_right (a b b' : Vec 4) :
    (fun i => Ecm.quatProd a b i - Ecm.quatProd a b' i) = Ecm.quatProd a (fun i => b i - b' i) := by
  funext i
  fin_cases i <;> simp [Ecm.quatProd] <;> ring

theorem vecNorm_tri {n : ℕ} (x y z : Vec n) :
    vecNorm (fun i => x i - z i) ≤ vecNorm (fun i => x i - y i) + vecNorm (fun i => y i - z i) := by
  have := vecNorm_add_le (fun i => x i - y i) (fun i => y i - z i)
  rwa [show ((fun i => x i - y i) + fun i => y i - z i) = fun i => x i - z i by funext i; simp] at this

theorem vecNorm_le_of_sub {n : ℕ} (x y : Vec n) : vecNorm x ≤ vecNorm (fun i => x i - y i) + vecNorm y := by
  have := vecNorm_add_le (fun i => x i - y i) y
  rwa [show ((fun i => x i - y i) + y) = x by funext i; simp] at this

/-- the product of nearly unit quaternions in floating-point arithmetic -/
theorem step_err {a b n Q : Vec 4} (hn : vecNorm n = 1) (hQ : vecNorm Q = 1)
    (ha : vecNorm (fun i => a i - n i) ≤ 13 * F.u) (hb : vecNorm (fun i => b i - Q i) ≤ 20 * F.u) :
    vecNorm (fun i => F.quatProd a b i - Ecm.quatProd n Q i) ≤ 46 * F.u := by
  have hu := F.u_nonneg; have hu1 := F.u_le
  have a1 := vecNorm_le_of_sub a n
  have b1 := vecNorm_le_of_sub b Q
  have e := F.quatProd_err (a := a) (b := b) (by linarith) (by linarith)
  have t1 := vecNorm_tri (F.quatProd a b) (Ecm.quatProd a b) (Ecm.quatProd n Q)
  have t2 := vecNorm_tri (Ecm.quatProd a b) (Ecm.quatProd n b) (Ecm.quatProd n Q)
  rw [quatProd_sub_left, quatProd_sub_right, vecNorm_quatProd, vecNorm_quatProd, hn, one_mul] at t2
  have t3 : vecNorm (fun i => a i - n i) * vecNorm b ≤ 13 * F.u * 1.01 :=
    mul_le_mul ha (by linarith) (vecNorm_nonneg _) (by positivity)
  linarith

/-- a computed norm above the threshold of the code means a norm that is not much smaller -/
theorem norm_small {n : ℕ} (hn : n ≤ 4) (v : Vec n) (h : vecNorm v < 1 / 10 ^ 91) :
    |F.norm v| ≤ 1 / 10 ^ 90 := by
  have hu := F.u_nonneg; have hu1 := F.u_le; have hη := F.η_nonneg
  have hd : ∑ i, v i * v i = vecNorm v ^ 2 := by
    unfold vecNorm; rw [Real.sq_sqrt (Finset.sum_nonneg fun i _ => mul_self_nonneg _)]
  have hN := vecNorm_nonneg v
  set N := vecNorm v
  have hsq : N ^ 2 ≤ 1 / 10 ^ 182 := by
    have : (1:ℝ) / 10 ^ 182 = (1 / 10 ^ 91) ^ 2 := by norm_num
    rw [this]; exact pow_le_pow_left₀ hN h.le 2
  have e := F.sumSq_err v hn (by rw [hd]; exact hsq.trans (by norm_num))
  rw [hd] at e
  have hn' : (n : ℝ) ≤ 4 := by exact_mod_cast hn
  have n0 : (0 : ℝ) ≤ n := Nat.cast_nonneg n
  have uN : F.u * N ^ 2 ≤ 1 / 10 ^ 6 * (1 / 10 ^ 182) := mul_le_mul hu1 hsq (by positivity) (by norm_num)
  have hη1 : F.η ≤ 1 / 10 ^ 206 := by
    have := F.η_le
    have h2 : F.u / 10 ^ 200 ≤ (1 / 10 ^ 6) / 10 ^ 200 := by gcongr
    rw [show (1 : ℝ) / 10 ^ 6 / 10 ^ 200 = 1 / 10 ^ 206 by norm_num] at h2
    linarith
  have s1 : F.sumSq v ≤ (1.1 / 10 ^ 91) ^ 2 := by
    have a1 : 1.1 * ((n:ℝ) + 1) * (F.u * N ^ 2) ≤ 5.5 * (F.u * N ^ 2) :=
      mul_le_mul_of_nonneg_right (by linarith) (by positivity)
    have a2 : 3 * (n:ℝ) * F.η ≤ 12 * F.η := mul_le_mul_of_nonneg_right (by linarith) hη
    have a3 := (abs_le.1 e).2
    have a4 : (1:ℝ) / 10 ^ 182 + 5.5 * (1 / 10 ^ 6 * (1 / 10 ^ 182)) + 12 * (1 / 10 ^ 206)
      ≤ (1.1 / 10 ^ 91) ^ 2 := by norm_num
    linarith
  have r : |Real.sqrt (F.sumSq v)| ≤ 1.1 / 10 ^ 91 := by
    rw [abs_of_nonneg (Real.sqrt_nonneg _)]
    exact (Real.sqrt_le_sqrt s1).trans (le_of_eq (Real.sqrt_sq (by positivity)))
  have f := abs_le.1 (F.fl_abs r (by norm_num))
  have g := abs_le.1 r
  have c : F.u * (1.1 / 10 ^ 91) ≤ 1 / 10 ^ 6 * (1.1 / 10 ^ 91) :=
    mul_le_mul_of_nonneg_right hu1 (by positivity)
  have c2 : (1.1:ℝ) / 10 ^ 91 + 1 / 10 ^ 6 * (1.1 / 10 ^ 91) + 1 / 10 ^ 206 ≤ 1 / 10 ^ 90 := by norm_num
  unfold norm
  rw [abs_le]; constructor <;> linarith [f.1, f.2, g.1, g.2]

theorem axis_lip (a b : ℝ) {n : Vec 3} (hn : vecNorm n = 1) :
    vecNorm (fun i => axisQuat a n i - axisQuat b n i) ≤ 2 * |a - b| := by
  refine (vecNorm4_le _).trans ?_
  have h0 : |axisQuat a n 0 - axisQuat b n 0| ≤ |a - b| := by
    have := Real.abs_cos_sub_cos_le a b
    exact this
  have h1 := vecNorm_le_affine (n := 3) (by norm_num)
    (x := fun i : Fin 3 => axisQuat a n i.succ - axisQuat b n i.succ) (y := n)
    (a := |a - b|) (b := 0) (abs_nonneg _) le_rfl (fun i => by
      have h : |Real.sin a - Real.sin b| ≤ |a - b| := Real.abs_sin_sub_sin_le a b
      have hi : i = 0 ∨ i = 1 ∨ i = 2 := by fin_cases i <;> simp
      rw [add_zero]
      rcases hi with rfl | rfl | rfl <;> simp only [axisQuat, Fin.succ_zero_eq_one, Matrix.cons_val,
        Fin.succ_one_eq_two]
      · rw [← sub_mul, abs_mul]; exact mul_le_mul_of_nonneg_right h (abs_nonneg _)
      · rw [← sub_mul, abs_mul]; exact mul_le_mul_of_nonneg_right h (abs_nonneg _)
      · show |Real.sin a * n 2 - Real.sin b * n 2| ≤ _
        rw [← sub_mul, abs_mul]; exact mul_le_mul_of_nonneg_right h (abs_nonneg _))
  rw [hn] at h1
  linarith

/-- the computed quaternion of the increment: nearly unit for every increment, and close to the
    exponential -/
theorem emap_err (xi : Vec 3) (h1 : vecNorm xi ≤ 10 ^ 100) : ∃ Q : Vec 4, vecNorm Q = 1 ∧
    vecNorm (fun i => F.emapToQuat xi i - Q i) ≤ 20 * F.u ∧
    vecNorm (fun i => Q i - expQuat xi i) ≤ 10 * F.u * vecNorm xi + 1 / 10 ^ 89 := by
  have hu := F.u_nonneg; have hu1 := F.u_le; have hη := F.η_nonneg
  have hN := vecNorm_nonneg xi
  by_cases hb : 1 / 10 ^ 90 < F.norm xi
  · have h0 : 1 / 10 ^ 91 ≤ vecNorm xi := by
      by_contra hc
      have := F.norm_small (by norm_num) xi (not_le.1 hc)
      exact absurd (le_abs_self _ |>.trans this) (not_le.2 hb)
    have N0 : 0 < vecNorm xi := lt_of_lt_of_le (by positivity) h0
    set n : Vec 3 := fun i => xi i * (1 / vecNorm xi) with hn
    have n1 : vecNorm n = 1 := unit_vec xi N0
    refine ⟨axisQuat (F.fl (F.norm xi * 0.5)) n, axisQuat_norm _ n1, ?_, ?_⟩
    · have := F.invToQuat_err (F.norm xi) (fun i => F.fl (F.fl (1 / F.norm xi) * xi i)) n n1 (fun i => by
        rw [mul_comm (F.fl (1 / F.norm xi))]
        exact F.comp_err (by norm_num) xi h0 h1 i)
      simpa only [emapToQuat, if_pos hb] using this
    · have hx : xi ≠ 0 := ne_zero_of_vecNorm_pos N0
      have e : expQuat xi = axisQuat (vecNorm xi / 2) n := by
        have hl : len xi = vecNorm xi := rfl
        unfold expQuat axisQuat
        rw [if_neg hx, hl]
        simp only [hn, mul_one_div]
      rw [e]
      refine (axis_lip _ _ n1).trans ?_
      have f := abs_le.1 (F.norm_err (by norm_num) xi h0 h1)
      have uN : 0 ≤ F.u * vecNorm xi := by positivity
      have uN1 : F.u * vecNorm xi ≤ 1 / 10 ^ 6 * vecNorm xi := mul_le_mul_of_nonneg_right hu1 hN
      have b : |F.norm xi * 0.5| ≤ 0.6 * vecNorm xi := by
        rw [abs_le]; constructor <;> linarith [f.1, f.2]
      have g := abs_le.1 (F.fl_abs b (by
        have : (0.6:ℝ) * 10 ^ 100 ≤ 10 ^ 250 := by norm_num
        linarith))
      have k := F.η_mul (c := vecNorm xi) (le_trans (by norm_num) h0)
      have : |F.fl (F.norm xi * 0.5) - vecNorm xi / 2| ≤ 5 * (F.u * vecNorm xi) := by
        rw [abs_le]; constructor <;> linarith [f.1, f.2, g.1, g.2]
      have : (0:ℝ) < 1 / 10 ^ 89 := by positivity
      linarith
  · have n1 : vecNorm (![1, 0, 0] : Vec 3) = 1 := by simp [vecNorm, Fin.sum_univ_three]
    refine ⟨axisQuat (F.fl (F.norm xi * 0.5)) ![1, 0, 0], axisQuat_norm _ n1, ?_, ?_⟩
    · have := F.invToQuat_err (F.norm xi) ![1, 0, 0] ![1, 0, 0] n1 (fun i => by
        rw [sub_self, abs_zero]
        have := abs_nonneg ((![1, 0, 0] : Vec 3) i)
        positivity)
      simpa only [emapToQuat, if_neg hb, Matrix.cons_val] using this
    · have hx : vecNorm xi ≤ 2 / 10 ^ 90 := by
        by_contra hc
        push Not at hc
        have f := (abs_le.1 (F.norm_err (by norm_num) xi (le_trans (by norm_num) hc.le) h1)).1
        have uN1 : F.u * vecNorm xi ≤ 1 / 10 ^ 6 * vecNorm xi := mul_le_mul_of_nonneg_right hu1 hN
        apply hb
        have : (1:ℝ) / 10 ^ 90 < 0.9 * (2 / 10 ^ 90) := by norm_num
        linarith
      have hM : |F.norm xi| ≤ 2.1 / 10 ^ 90 := by
        by_cases h0 : 1 / 10 ^ 91 ≤ vecNorm xi
        · have f := abs_le.1 (F.norm_err (by norm_num) xi h0 h1)
          have uN1 : F.u * vecNorm xi ≤ 1 / 10 ^ 6 * vecNorm xi := mul_le_mul_of_nonneg_right hu1 hN
          have c : (2:ℝ) / 10 ^ 90 + 8 * (1 / 10 ^ 6 * (2 / 10 ^ 90)) ≤ 2.1 / 10 ^ 90 := by norm_num
          rw [abs_le]; constructor <;> linarith [f.1, f.2]
        · exact (F.norm_small (by norm_num) xi (not_le.1 h0)).trans (by norm_num)
      have ha : |F.fl (F.norm xi * 0.5)| ≤ 2 / 10 ^ 90 := by
        have b : |F.norm xi * 0.5| ≤ 1.05 / 10 ^ 90 := by
          rw [abs_mul, abs_of_pos (by norm_num : (0:ℝ) < 0.5)]
          have : (2.1:ℝ) / 10 ^ 90 * 0.5 = 1.05 / 10 ^ 90 := by ring
          linarith
        have g := abs_le.1 (F.fl_abs b (by norm_num))
        have b' := abs_le.1 b
        have hη1 : F.η ≤ 1 / 10 ^ 206 := by
          have := F.η_le
          have h2 : F.u / 10 ^ 200 ≤ (1 / 10 ^ 6) / 10 ^ 200 := by gcongr
          rw [show (1 : ℝ) / 10 ^ 6 / 10 ^ 200 = 1 / 10 ^ 206 by norm_num] at h2
          linarith
        have c : F.u * (1.05 / 10 ^ 90) ≤ 1 / 10 ^ 6 * (1.05 / 10 ^ 90) :=
          mul_le_mul_of_nonneg_right hu1 (by positivity)
        have c2 : (1.05:ℝ) / 10 ^ 90 + 1 / 10 ^ 6 * (1.05 / 10 ^ 90) + 1 / 10 ^ 206 ≤ 2 / 10 ^ 90 := by
          norm_num
        rw [abs_le]; constructor <;> linarith [b'.1, b'.2, g.1, g.2]
      have id0 : ∀ n : Vec 3, axisQuat 0 n = ![1, 0, 0, 0] := fun n => by simp [axisQuat]
      have l1 := axis_lip (F.fl (F.norm xi * 0.5)) 0 n1
      rw [id0, sub_zero] at l1
      have l2 : vecNorm (fun i => (![1, 0, 0, 0] : Vec 4) i - expQuat xi i) ≤ 2 / 10 ^ 90 := by
        by_cases hx0 : xi = 0
        · have : expQuat xi = ![1, 0, 0, 0] := by unfold expQuat; rw [if_pos hx0]
          rw [this]
          simp [vecNorm]
          positivity
        · have N0 := vecNorm_pos_of_ne hx0
          have m1 := unit_vec xi N0
          have e : expQuat xi = axisQuat (vecNorm xi / 2) (fun i => xi i * (1 / vecNorm xi)) := by
            have hl : len xi = vecNorm xi := rfl
            unfold expQuat axisQuat
            rw [if_neg hx0, hl]
            simp only [mul_one_div]
          have := axis_lip 0 (vecNorm xi / 2) m1
          rw [id0, zero_sub, abs_neg, abs_of_nonneg (by positivity)] at this
          rw [e]
          linarith
      have t := vecNorm_tri (axisQuat (F.fl (F.norm xi * 0.5)) ![1, 0, 0]) ![1, 0, 0, 0] (expQuat xi)
      have p : 0 ≤ 10 * F.u * vecNorm xi := by positivity
      have c : 2 * ((2:ℝ) / 10 ^ 90) + 2 / 10 ^ 90 ≤ 1 / 10 ^ 89 := by norm_num
      linarith

end Flt
theorem vecNorm_sign {n : ℕ} (σ : ℤˣ) (x : Vec n) : vecNorm (fun i => ((σ : ℤ) : ℝ) * x i) = vecNorm x := by
  rcases Int.units_eq_one_or σ with h | h <;> simp [h, vecNorm]

theorem step_close (F : Flt) {q : Vec 4} {xi : Vec 3} (h0 : 1 / 10 ^ 91 ≤ len q) (h1 : len q ≤ 10 ^ 100)
    (hx : len xi ≤ 10 ^ 100) : ∃ Q, vecNorm Q = 1 ∧
      vecNorm (fun i => F.quatStep q xi i - quatProd (fun i => q i * (1 / vecNorm q)) Q i) ≤ 46 * F.u ∧
      vecNorm (fun i => Q i - expQuat xi i) ≤ 10 * F.u * vecNorm xi + 1 / 10 ^ 89 := by
  obtain ⟨Q, hQ, e1, e2⟩ := F.emap_err xi hx
  have q0 : 0 < vecNorm q := lt_of_lt_of_le (by positivity) h0
  exact ⟨Q, hQ, F.step_err (Flt.unit_vec q q0) hQ (F.normalize_err le_rfl q h0 h1) e1, e2⟩

/-! ### Double precision meets the hypotheses -/

/-- exponent of a double, with gradual underflow -/
noncomputable def dblExp (x : ℝ) : ℤ := max (Int.log 2 |x|) (-((1022 : ℕ) : ℤ))

/-- rounding to the nearest number with 53 significant bits (no overflow) -/
noncomputable def dblRound (x : ℝ) : ℝ := round (x / 2 ^ (dblExp x - 52)) * 2 ^ (dblExp x - 52)

theorem two_pow_neg (a b : ℕ) : (2:ℝ) ^ (-(a : ℤ)) * 2⁻¹ ^ b = 2⁻¹ ^ (a + b) := by
  rw [zpow_neg, zpow_natCast, ← inv_pow, ← pow_add]

theorem dblRound_err (x : ℝ) : |dblRound x - x| ≤ 2⁻¹ ^ 53 * |x| + 2⁻¹ ^ (1022 + 53) := by
  by_cases hx : x = 0
  · subst hx
    have : dblRound 0 = 0 := by unfold dblRound; rw [zero_div, round_zero, Int.cast_zero, zero_mul]
    rw [this, sub_zero, abs_zero, mul_zero, zero_add]
    exact pow_nonneg (by norm_num) _
  set e := dblExp x - 52 with he
  have h2 : (0:ℝ) < 2 ^ e := by positivity
  have h1 := abs_sub_round (x / 2 ^ e)
  have h3 : |dblRound x - x| ≤ 1 / 2 * 2 ^ e := by
    have : dblRound x - x = -(x / 2 ^ e - round (x / 2 ^ e)) * 2 ^ e := by
      unfold dblRound; rw [← he]; field_simp; ring
    rw [this, abs_mul, abs_neg, abs_of_pos h2]
    exact mul_le_mul_of_nonneg_right h1 h2.le
  refine h3.trans ?_
  have hz : (1:ℝ) / 2 * 2 ^ e = 2 ^ (dblExp x) * 2⁻¹ ^ 53 := by
    rw [he, zpow_sub₀ two_ne_zero]
    norm_num
    ring
  rw [hz]
  unfold dblExp
  have hη : (0:ℝ) ≤ 2⁻¹ ^ (1022 + 53) := pow_nonneg (by norm_num) _
  have h5 := two_pow_neg 1022 53
  generalize (2:ℝ)⁻¹ ^ (1022 + 53) = η at *
  have h7 : (0:ℝ) < 2⁻¹ ^ 53 := by positivity
  generalize (2:ℝ)⁻¹ ^ 53 = u at *
  rcases le_total (Int.log 2 |x|) (-((1022 : ℕ) : ℤ)) with h | h
  · rw [max_eq_right h, h5]
    have : 0 ≤ u * |x| := by positivity
    linarith
  · rw [max_eq_left h]
    have h6 : (2:ℝ) ^ Int.log 2 |x| ≤ |x| := by
      have := Int.zpow_log_le_self (b := 2) (r := |x|) (by norm_num) (abs_pos.2 hx)
      exact_mod_cast this
    have := mul_le_mul_of_nonneg_right h6 h7.le
    linarith

theorem dbl_trig {f x : ℝ} (h : |x| ≤ 1) (hf : |f - x| ≤ 2⁻¹ ^ 53 * |x| + 2⁻¹ ^ (1022 + 53)) :
    |f - x| ≤ 2 * 2⁻¹ ^ 53 := by
  have h2 : (2:ℝ)⁻¹ ^ (1022 + 53) ≤ 2⁻¹ ^ 53 :=
    pow_le_pow_of_le_one (by norm_num) (by norm_num) (Nat.le_add_left _ _)
  generalize (2:ℝ)⁻¹ ^ (1022 + 53) = η at *
  have h7 : (0:ℝ) < 2⁻¹ ^ 53 := by positivity
  generalize (2:ℝ)⁻¹ ^ 53 = u at *
  have h3 : u * |x| ≤ u * 1 := mul_le_mul_of_nonneg_left h h7.le
  linarith

/-- double precision with a library that rounds the exact values of the trigonometric functions -/
noncomputable def dbl : Flt where
  u := 2⁻¹ ^ 53
  η := 2⁻¹ ^ (1022 + 53)
  fl := dblRound
  cosF := fun x => dblRound (Real.cos x)
  sinF := fun x => dblRound (Real.sin x)
  u_nonneg := by positivity
  u_le := by norm_num
  η_nonneg := pow_nonneg (by norm_num) _
  η_le := by
    rw [add_comm 1022 53, pow_add, div_eq_mul_inv]
    refine mul_le_mul_of_nonneg_left ?_ (by positivity)
    rw [inv_pow]
    refine inv_anti₀ (by positivity) ?_
    calc (10:ℝ) ^ 200 ≤ (2 ^ 4) ^ 200 := pow_le_pow_left₀ (by norm_num) (by norm_num) _
      _ = 2 ^ 800 := by rw [← pow_mul]
      _ ≤ 2 ^ 1022 := pow_le_pow_right₀ (by norm_num) (by norm_num)
  fl_err := fun x _ => dblRound_err x
  cos_err := fun x => dbl_trig (Real.abs_cos_le_one x) (dblRound_err _)
  sin_err := fun x => dbl_trig (Real.abs_sin_le_one x) (dblRound_err _)

end Ecm
