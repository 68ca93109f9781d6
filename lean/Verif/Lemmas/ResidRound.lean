/- Error bounds for the residual of the implicit step in floating-point arithmetic. -/
import Verif.Lemmas.LawRound
import Verif.Props.RotRound
import Verif.Lemmas.RotLip

namespace Ecm
open Spec Props

/-- a positive number between `10^-j` and `10^j` -/
def Pw (m : ℝ) (j : ℕ) : Prop := 1 / 10 ^ j ≤ m ∧ m ≤ 10 ^ j

namespace Pw

theorem pos {m : ℝ} {j : ℕ} (h : Pw m j) : 0 < m := lt_of_lt_of_le (by positivity) h.1

theorem mono {m : ℝ} {i j : ℕ} (h : Pw m i) (hij : i ≤ j) : Pw m j := by
  have : (10 : ℝ) ^ i ≤ 10 ^ j := pow_le_pow_right₀ (by norm_num) hij
  exact ⟨(one_div_le_one_div_of_le (by positivity) this).trans h.1, h.2.trans this⟩

theorem mul {m p : ℝ} {i j : ℕ} (h : Pw m i) (h' : Pw p j) : Pw (m * p) (i + j) := by
  refine ⟨?_, ?_⟩
  · rw [pow_add, ← one_div_mul_one_div]
    exact mul_le_mul h.1 h'.1 (by positivity) h.pos.le
  · rw [pow_add]
    exact mul_le_mul h.2 h'.2 h'.pos.le (by positivity)

theorem add {m p : ℝ} {j : ℕ} (h : Pw m j) (h' : Pw p j) : Pw (m + p) (j + 1) := by
  refine ⟨?_, ?_⟩
  · have := (h.mono (by omega : j ≤ j + 1)).1
    linarith [h'.pos]
  · have := h.2; have := h'.2
    have h1 : (0:ℝ) < 10 ^ j := by positivity
    rw [pow_succ]; linarith

theorem inv {m : ℝ} {j : ℕ} (h : Pw m j) : Pw (1 / m) j := by
  refine ⟨one_div_le_one_div_of_le h.pos h.2, ?_⟩
  have := one_div_le_one_div_of_le (by positivity) h.1
  rwa [one_div_one_div] at this

theorem div {m p : ℝ} {i j : ℕ} (h : Pw m i) (h' : Pw p j) : Pw (m / p) (i + j) := by
  rw [div_eq_mul_one_div]; exact h.mul h'.inv

theorem of_num {m : ℝ} (j : ℕ) (h0 : 1 / 10 ^ j ≤ m) (h1 : m ≤ 10 ^ j) : Pw m j := ⟨h0, h1⟩

end Pw

namespace Flt
variable (F : Flt)

/-- `a` is a computed value of `x`: the magnitude of `x` is at most `m`, the error at most `e` roundoffs -/
def Er (a x e m : ℝ) : Prop := |x| ≤ m ∧ |a - x| ≤ e * F.w

variable {F}

theorem η_le_w {m : ℝ} (h : Pw m 190) : F.η ≤ 1 / 10 ^ 10 * (F.w * m) := by
  refine (F.η_mul h.1).trans ?_
  have := mul_le_mul_of_nonneg_right F.u_le_w h.pos.le
  linarith

theorem Er.mono {a x e m e' m' : ℝ} (h : F.Er a x e m) (he : e ≤ e') (hm : m ≤ m') : F.Er a x e' m' :=
  ⟨h.1.trans hm, h.2.trans (mul_le_mul_of_nonneg_right he F.w_pos.le)⟩

theorem Er.exact {x m : ℝ} (h : |x| ≤ m) : F.Er x x 0 m := ⟨h, by simp⟩

theorem Er.e0 {a x e m : ℝ} (h : F.Er a x e m) : 0 ≤ e :=
  nonneg_of_mul_nonneg_left ((abs_nonneg _).trans h.2) F.w_pos

theorem Er.m0 {a x e m : ℝ} (h : F.Er a x e m) : 0 ≤ m := (abs_nonneg _).trans h.1

theorem Er.neg {a x e m : ℝ} (h : F.Er a x e m) : F.Er (-a) (-x) e m :=
  ⟨by rw [abs_neg]; exact h.1, by rw [show -a - -x = -(a - x) by ring, abs_neg]; exact h.2⟩

theorem Er.size {a x e m : ℝ} (h : F.Er a x e m) (he : e ≤ 2000 * m) : |a| ≤ 1.0023 * m := by
  have := abs_add_le (a - x) x
  rw [sub_add_cancel] at this
  have hw := F.w_le; have hw0 := F.w_pos
  have h1 : e * F.w ≤ 2000 * m * F.w := mul_le_mul_of_nonneg_right he hw0.le
  have h2 : 2000 * m * F.w ≤ 2000 * m * (1.1 / 10 ^ 6) :=
    mul_le_mul_of_nonneg_left hw (by linarith [h.m0])
  linarith [h.1, h.2, h.m0]

theorem Er.round {a x e m : ℝ} (h : F.Er a x e m) (he : e ≤ 2000 * m) (hm : Pw m 190) :
    F.Er (F.fl a) x (e + 1.01 * m) m := by
  have ha := h.size he
  have hη := F.η_le_w hm
  have m0 := hm.pos
  have hw := F.w_pos
  have h2 := F.fl_abs ha (by
    have : (1.0023 : ℝ) * 10 ^ 190 ≤ 10 ^ 250 := by norm_num
    linarith [hm.2])
  refine ⟨h.1, ?_⟩
  have t := abs_add_le (F.fl a - a) (a - x)
  rw [sub_add_sub_cancel] at t
  have h3 : F.u * (1.0023 * m) ≤ F.w * (1.0023 * m) := mul_le_mul_of_nonneg_right F.u_le_w (by positivity)
  have h4 : 0 ≤ F.w * m := by positivity
  have e1 : (e + 1.01 * m) * F.w = e * F.w + 1.01 * (F.w * m) := by ring
  have e2 : F.w * (1.0023 * m) = 1.0023 * (F.w * m) := by ring
  rw [e1]; rw [e2] at h3
  linarith [h.2]

theorem Er.add {a b x y e f m p : ℝ} (hx : F.Er a x e m) (hy : F.Er b y f p) (he : e ≤ 2000 * m)
    (hf : f ≤ 2000 * p) (hm : Pw (m + p) 190) :
    F.Er (F.fl (a + b)) (x + y) (e + f + 1.01 * (m + p)) (m + p) := by
  refine Er.round ⟨(abs_add_le _ _).trans (add_le_add hx.1 hy.1), ?_⟩ (by linarith) hm
  rw [show a + b - (x + y) = (a - x) + (b - y) by ring, add_mul]
  exact (abs_add_le _ _).trans (add_le_add hx.2 hy.2)

theorem Er.sub {a b x y e f m p : ℝ} (hx : F.Er a x e m) (hy : F.Er b y f p) (he : e ≤ 2000 * m)
    (hf : f ≤ 2000 * p) (hm : Pw (m + p) 190) :
    F.Er (F.fl (a - b)) (x - y) (e + f + 1.01 * (m + p)) (m + p) := by
  rw [sub_eq_add_neg, sub_eq_add_neg]
  exact hx.add hy.neg he hf hm

/-- product before rounding -/
theorem Er.prod {a b x y e f m p : ℝ} (hx : F.Er a x e m) (hy : F.Er b y f p) (he : e ≤ 2000 * m) :
    F.Er (a * b) (x * y) (e * p + 1.003 * (m * f)) (m * p) := by
  have hw := F.w_pos
  refine ⟨by rw [abs_mul]; exact mul_le_mul hx.1 hy.1 (abs_nonneg _) hx.m0, ?_⟩
  have ha := hx.size he
  rw [show a * b - x * y = (a - x) * y + a * (b - y) by ring]
  refine (abs_add_le _ _).trans ?_
  rw [abs_mul, abs_mul]
  have t1 := mul_le_mul hx.2 hy.1 (abs_nonneg _) (by have := hx.e0; positivity)
  have t2 := mul_le_mul ha hy.2 (abs_nonneg _) (by have := hx.m0; positivity)
  have h0 : 0 ≤ m * (f * F.w) := mul_nonneg hx.m0 (mul_nonneg hy.e0 hw.le)
  have e1 : (e * p + 1.003 * (m * f)) * F.w = e * F.w * p + 1.003 * (m * (f * F.w)) := by ring
  rw [e1]
  have e2 : 1.0023 * m * (f * F.w) = 1.0023 * (m * (f * F.w)) := by ring
  rw [e2] at t2
  linarith

theorem Er.mul {a b x y e f m p : ℝ} (hx : F.Er a x e m) (hy : F.Er b y f p) (he : e ≤ 900 * m)
    (hf : f ≤ 1050 * p) (hm : Pw (m * p) 190) :
    F.Er (F.fl (a * b)) (x * y) (e * p + 1.003 * (m * f) + 1.01 * (m * p)) (m * p) := by
  refine Er.round (hx.prod hy (by have := hx.m0; linarith)) ?_ hm
  have t1 := mul_le_mul_of_nonneg_right he hy.m0
  have t2 := mul_le_mul_of_nonneg_left hf hx.m0
  have : 0 ≤ m * p := mul_nonneg hx.m0 hy.m0
  have e1 : 900 * m * p = 900 * (m * p) := by ring
  have e2 : m * (1050 * p) = 1050 * (m * p) := by ring
  rw [e1] at t1; rw [e2] at t2
  linarith

/-- the same with an exact second factor, as large an error of the first as is allowed -/
theorem Er.scale {b y f p : ℝ} (s : ℝ) {m : ℝ} (hs : |s| ≤ m) (hy : F.Er b y f p)
    (hf : f ≤ 1900 * p) (hm : Pw (m * p) 190) :
    F.Er (F.fl (s * b)) (s * y) (m * f + 1.01 * (m * p)) (m * p) := by
  have m0 : 0 ≤ m := (abs_nonneg _).trans hs
  have key : F.Er (s * b) (s * y) (m * f) (m * p) := by
    refine ⟨by rw [abs_mul]; exact mul_le_mul hs hy.1 (abs_nonneg _) m0, ?_⟩
    rw [← mul_sub, abs_mul, mul_assoc]
    exact mul_le_mul hs hy.2 (abs_nonneg _) m0
  refine Er.round key ?_ hm
  have t2 := mul_le_mul_of_nonneg_left hf m0
  have : 0 ≤ m * p := mul_nonneg m0 hy.m0
  have e2 : m * (1900 * p) = 1900 * (m * p) := by ring
  rw [e2] at t2
  linarith

/-- accumulation of a product -/
theorem Er.dot {n : ℕ} (hn : n ≤ 30) {a b x y : Vec n} {e f m p : ℝ} (hx : ∀ i, F.Er (a i) (x i) e m)
    (hy : ∀ i, F.Er (b i) (y i) f p) (he : e ≤ 900 * m) (hf : f ≤ 1000 * p) (hm : Pw (m * p) 150) :
    F.Er (F.dot a b) (∑ i, x i * y i) (n * (e * p + 1.003 * (m * f) + 1.13 * (n + 1) * (m * p)))
      (n * (m * p)) := by
  have hw := F.w_pos
  have mp := hm.pos
  rcases Nat.eq_zero_or_pos n with rfl | hn0
  · simp [Flt.dot, Er]
  have n1 : (1:ℝ) ≤ n := by exact_mod_cast hn0
  have n2 : (n:ℝ) ≤ 30 := by exact_mod_cast hn
  have i0 : Fin n := ⟨0, hn0⟩
  have m0 := (hx i0).m0
  have p0 := (hy i0).m0
  have e0 := (hx i0).e0
  have f0 := (hy i0).e0
  have hpr : ∀ i, F.Er (a i * b i) (x i * y i) (e * p + 1.003 * (m * f)) (m * p) :=
    fun i => (hx i).prod (hy i) (by linarith)
  have t1 := mul_le_mul_of_nonneg_right he p0
  have t2 := mul_le_mul_of_nonneg_left hf m0
  have e1 : 900 * m * p = 900 * (m * p) := by ring
  have e2 : m * (1000 * p) = 1000 * (m * p) := by ring
  rw [e1] at t1; rw [e2] at t2
  have hsz : ∀ i, |a i * b i| ≤ 1.0023 * (m * p) := fun i => (hpr i).size (by linarith)
  have hsum : ∑ i, |a i * b i| ≤ n * (1.0023 * (m * p)) := by
    refine (Finset.sum_le_sum fun i _ => hsz i).trans (le_of_eq ?_)
    simp
  have hs0 : 0 ≤ ∑ i, |a i * b i| := Finset.sum_nonneg fun i _ => abs_nonneg _
  have hd := F.dot_err a b hn (by
    have : (30:ℝ) * (1.0023 * 10 ^ 150) ≤ 10 ^ 220 := by norm_num
    have : n * (1.0023 * (m * p)) ≤ 30 * (1.0023 * 10 ^ 150) := by
      refine mul_le_mul n2 (by linarith [hm.2]) (by positivity) (by norm_num)
    linarith)
  have hs2 : |∑ i, a i * b i - ∑ i, x i * y i| ≤ n * ((e * p + 1.003 * (m * f)) * F.w) := by
    rw [← Finset.sum_sub_distrib]
    refine (Finset.abs_sum_le_sum_abs _ _).trans ?_
    refine (Finset.sum_le_sum fun i _ => (hpr i).2).trans (le_of_eq ?_)
    simp
  refine ⟨?_, ?_⟩
  · refine (Finset.abs_sum_le_sum_abs _ _).trans ?_
    refine (Finset.sum_le_sum fun i _ => (hpr i).1).trans (le_of_eq ?_)
    simp
  have t := abs_add_le (F.dot a b - ∑ i, a i * b i) (∑ i, a i * b i - ∑ i, x i * y i)
  rw [sub_add_sub_cancel] at t
  have hη := F.η_le_w (hm.mono (by norm_num : 150 ≤ 190))
  have wm : 0 ≤ F.w * (m * p) := by positivity
  have h3 : 1.1 * (n + 1) * F.u * (∑ i, |a i * b i|) ≤ 1.1 * (n + 1) * F.w * (n * (1.0023 * (m * p))) :=
    mul_le_mul (mul_le_mul_of_nonneg_left F.u_le_w (by positivity)) hsum hs0 (by positivity)
  have h4 : 3 * n * F.η ≤ n * (0.0001 * (F.w * (m * p))) := by
    have : 3 * F.η ≤ 0.0001 * (F.w * (m * p)) := by linarith
    have := mul_le_mul_of_nonneg_left this (by linarith : (0:ℝ) ≤ n)
    linarith
  have h5 : 0 ≤ n * (n * (F.w * (m * p))) := by positivity
  have h6 : 0 ≤ n * (F.w * (m * p)) := by positivity
  have e3 : n * (e * p + 1.003 * (m * f) + 1.13 * (n + 1) * (m * p)) * F.w
      = n * ((e * p + 1.003 * (m * f)) * F.w) + 1.13 * (n * (n * (F.w * (m * p)))) + 1.13 * (n * (F.w * (m * p))) := by
    ring
  have e4 : 1.1 * (n + 1) * F.w * (n * (1.0023 * (m * p)))
      = 1.1 * 1.0023 * (n * (n * (F.w * (m * p)))) + 1.1 * 1.0023 * (n * (F.w * (m * p))) := by ring
  rw [e3]; rw [e4] at h3
  linarith

end Flt
end Ecm
