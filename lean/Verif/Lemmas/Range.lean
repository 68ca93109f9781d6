/- Helper lemmas: orders of magnitude, and when the range-checked operations succeed. -/
import Verif.Model.Range
import Verif.Lemmas.KMBalD
import Mathlib.Analysis.Complex.ExponentialBounds

namespace Ecm
open Classical

/-- at most 10^n in magnitude -/
def Sz (x : ℝ) (n : ℕ) : Prop := |x| ≤ 10 ^ n
/-- at least 10^-n in magnitude -/
def Lz (x : ℝ) (n : ℕ) : Prop := 1 / 10 ^ n ≤ |x|

theorem ten_mono {m n : ℕ} (h : m ≤ n) : (10 : ℝ) ^ m ≤ 10 ^ n := pow_le_pow_right₀ (by norm_num) h

theorem Sz.mono {x : ℝ} {m n : ℕ} (h : Sz x m) (hmn : m ≤ n) : Sz x n := le_trans h (ten_mono hmn)
theorem Lz.mono {x : ℝ} {m n : ℕ} (h : Lz x m) (hmn : m ≤ n) : Lz x n :=
  le_trans (one_div_le_one_div_of_le (by positivity) (ten_mono hmn)) h
theorem Sz.mul {x y : ℝ} {m n : ℕ} (h : Sz x m) (h' : Sz y n) : Sz (x * y) (m + n) := by
  unfold Sz at *
  rw [abs_mul, pow_add]
  exact mul_le_mul h h' (abs_nonneg _) (by positivity)
theorem Sz.neg {x : ℝ} {m : ℕ} (h : Sz x m) : Sz (-x) m := by unfold Sz at *; rwa [abs_neg]
theorem Sz.abs {x : ℝ} {m : ℕ} (h : Sz x m) : Sz |x| m := by unfold Sz at *; rwa [abs_abs]
theorem Sz.copysign {x t : ℝ} {m : ℕ} (h : Sz x m) : Sz (copysign x t) m := by
  unfold Sz at *; rwa [abs_copysign]
theorem Sz.add {x y : ℝ} {m : ℕ} (h : Sz x m) (h' : Sz y m) : Sz (x + y) (m + 1) := by
  unfold Sz at *
  rw [pow_succ]
  have := abs_add_le x y
  have : (0 : ℝ) < 10 ^ m := by positivity
  linarith
theorem Sz.sub {x y : ℝ} {m : ℕ} (h : Sz x m) (h' : Sz y m) : Sz (x - y) (m + 1) := by
  rw [sub_eq_add_neg]; exact h.add h'.neg
theorem Sz.le {x y : ℝ} {m : ℕ} (h : Sz x m) (h' : |y| ≤ |x|) : Sz y m := le_trans h' h
theorem Sz.of_nonneg {x y : ℝ} {m : ℕ} (h : Sz y m) (h0 : 0 ≤ x) (h' : x ≤ y) : Sz x m := by
  refine h.le ?_
  rw [abs_of_nonneg h0]; exact h'.trans (le_abs_self y)
theorem Sz.of_unit {x : ℝ} (h0 : 0 ≤ x) (h1 : x ≤ 1) : Sz x 0 := by
  unfold Sz; rw [abs_of_nonneg h0]; simpa using h1
theorem Sz.zero (n : ℕ) : Sz 0 n := by unfold Sz; rw [abs_zero]; positivity
theorem Sz.one (n : ℕ) : Sz 1 n := by unfold Sz; rw [abs_one]; exact one_le_pow₀ (by norm_num)
theorem Sz.div {x y : ℝ} {m n : ℕ} (h : Sz x m) (h' : Lz y n) : Sz (x / y) (m + n) := by
  unfold Sz Lz at *
  have h0 : (0 : ℝ) < 1 / 10 ^ n := by positivity
  rw [abs_div, div_le_iff₀ (h0.trans_le h'), pow_add]
  calc |x| ≤ 10 ^ m := h
    _ = 10 ^ m * 10 ^ n * (1 / 10 ^ n) := by field_simp
    _ ≤ 10 ^ m * 10 ^ n * |y| := mul_le_mul_of_nonneg_left h' (by positivity)
theorem Lz.mul {x y : ℝ} {m n : ℕ} (h : Lz x m) (h' : Lz y n) : Lz (x * y) (m + n) := by
  unfold Lz at *
  rw [abs_mul, pow_add, ← one_div_mul_one_div]
  exact mul_le_mul h h' (by positivity) (abs_nonneg _)
theorem Lz.abs {x : ℝ} {m : ℕ} (h : Lz x m) : Lz |x| m := by unfold Lz at *; rwa [abs_abs]
theorem Lz.inv {x : ℝ} {n : ℕ} (h : Sz x n) (h0 : x ≠ 0) : Lz (1 / x) n := by
  unfold Sz Lz at *
  rw [abs_div, abs_one]
  exact one_div_le_one_div_of_le (abs_pos.2 h0) h
theorem Lz.of_le {x y : ℝ} {m : ℕ} (h : Lz y m) (h0 : 0 ≤ y) (h' : y ≤ x) : Lz x m := by
  unfold Lz at *
  rw [abs_of_nonneg h0] at h
  exact h.trans (h'.trans (le_abs_self x))
theorem Lz.ne {x : ℝ} {m : ℕ} (h : Lz x m) : x ≠ 0 := by
  have : (0 : ℝ) < 1 / 10 ^ m := by positivity
  exact abs_pos.1 (this.trans_le h)

theorem bind_of {α β : Type} {x : Option α} {a : α} {f : α → Option β} (h : x = some a) : (x >>= f) = f a := by
  rw [h]; rfl

namespace Lim

theorem chk_ok {x : ℝ} {n : ℕ} (h : Sz x n) (hn : n ≤ 300) : dblLim.chk x = some x := by
  unfold chk; exact if_pos (h.mono hn)
theorem mul_ok {a b : ℝ} {n : ℕ} (h : Sz (a * b) n) (hn : n ≤ 300) : dblLim.mul a b = some (a * b) := chk_ok h hn
theorem add_ok {a b : ℝ} {n : ℕ} (h : Sz (a + b) n) (hn : n ≤ 300) : dblLim.add a b = some (a + b) := chk_ok h hn
theorem sub_ok {a b : ℝ} {n : ℕ} (h : Sz (a - b) n) (hn : n ≤ 300) : dblLim.sub a b = some (a - b) := chk_ok h hn
theorem div_ok {a b : ℝ} {m n : ℕ} (hb : Lz b m) (hm : m ≤ 300) (h : Sz (a / b) n) (hn : n ≤ 300) :
    dblLim.div a b = some (a / b) := by
  unfold div; exact (if_pos (hb.mono hm)).trans (chk_ok h hn)
theorem exp_ok {a : ℝ} {n : ℕ} (h : Sz (Real.exp a) n) (hn : n ≤ 300) : dblLim.exp a = some (Real.exp a) := chk_ok h hn
theorem log_ok {a : ℝ} {m n : ℕ} (h0 : 0 ≤ a) (ha : Lz a m) (hm : m ≤ 300) (h : Sz (Real.log a) n) (hn : n ≤ 300) :
    dblLim.log a = some (Real.log a) := by
  unfold log
  have := ha.mono hm
  unfold Lz at this
  rw [abs_of_nonneg h0] at this
  exact (if_pos this).trans (chk_ok h hn)
theorem pow_ok {a b : ℝ} {m n : ℕ} (h0 : 0 ≤ a) (ha : Lz a m) (hm : m ≤ 300) (h : Sz (a ^ b) n) (hn : n ≤ 300) :
    dblLim.pow a b = some (a ^ b) := by
  unfold pow
  have := ha.mono hm
  unfold Lz at this
  rw [abs_of_nonneg h0] at this
  exact (if_pos this).trans (chk_ok h hn)
theorem sqrt_ok {a : ℝ} {n : ℕ} (h0 : 0 ≤ a) (h : Sz (Real.sqrt a) n) (hn : n ≤ 300) :
    dblLim.sqrt a = some (Real.sqrt a) := by
  unfold sqrt; exact (if_pos h0).trans (chk_ok h hn)

end Lim

/-- the power of a number between 0 and 10^m to an exponent in [0, 1] -/
theorem Sz.rpow {a b : ℝ} {m : ℕ} (h0 : 0 ≤ a) (h : Sz a m) (hb0 : 0 ≤ b) (hb1 : b ≤ 1) : Sz (a ^ b) m := by
  rcases le_total a 1 with h1 | h1
  · exact (Sz.of_unit (Real.rpow_nonneg h0 _) (Real.rpow_le_one h0 h1 hb0)).mono (Nat.zero_le _)
  · refine h.of_nonneg (Real.rpow_nonneg h0 _) ?_
    calc a ^ b ≤ a ^ (1 : ℝ) := Real.rpow_le_rpow_of_exponent_le h1 hb1
      _ = a := Real.rpow_one a

theorem Sz.rpow2 {a b : ℝ} {m : ℕ} (h0 : 0 ≤ a) (h : Sz a m) (hb0 : 0 ≤ b) (hb1 : b ≤ 2) :
    Sz (a ^ b) (m + m) := by
  have e : a ^ b = a ^ (b / 2) * a ^ (b / 2) := by
    rw [← Real.rpow_add_of_nonneg h0 (by linarith) (by linarith), add_halves]
  rw [e]
  exact (h.rpow h0 (by linarith) (by linarith)).mul (h.rpow h0 (by linarith) (by linarith))


/-- logarithm of a number between 10^-m and 10^m -/
theorem log_size {a : ℝ} {m : ℕ} (h0 : 0 < a) (hs : Sz a m) (hl : Lz a m) : |Real.log a| ≤ 3 * m := by
  unfold Sz Lz at *
  rw [abs_of_pos h0] at hs hl
  have h10 : Real.log 10 ≤ 3 := by
    rw [Real.log_le_iff_le_exp (by norm_num)]
    have h1 := Real.exp_one_gt_d9
    have h2 : Real.exp 3 = Real.exp 1 ^ 3 := by rw [← Real.exp_nat_mul]; norm_num
    rw [h2]
    calc (10 : ℝ) ≤ 2.7182818283 ^ 3 := by norm_num
      _ ≤ Real.exp 1 ^ 3 := pow_le_pow_left₀ (by norm_num) h1.le 3
  have hm : (0 : ℝ) ≤ m := Nat.cast_nonneg m
  rw [abs_le]
  constructor
  · have := Real.log_le_log (by positivity) hl
    rw [Real.log_div one_ne_zero (by positivity), Real.log_one, Real.log_pow] at this
    nlinarith
  · have := Real.log_le_log h0 hs
    rw [Real.log_pow] at this
    nlinarith

/-- the power-law factor `exp(xn*log(at))` -/
theorem plaw_size {xm a : ℝ} (h0 : 0 < xm) (h1 : xm ≤ 1) (ha : 0 < a) (hmax : a ≤ gamRatioOvf ^ xm) :
    Sz (Real.exp ((1 / xm - 1) * Real.log a)) 60 := by
  have hxn : 0 ≤ 1 / xm - 1 := by rw [sub_nonneg, le_div_iff₀ h0]; linarith
  have e : Real.exp ((1 / xm - 1) * Real.log a) = a ^ (1 / xm - 1) := by
    rw [Real.rpow_def_of_pos ha, mul_comm]
  rw [e]
  rcases le_total a 1 with h | h
  · exact (Sz.of_unit (Real.rpow_nonneg ha.le _) (Real.rpow_le_one ha.le h hxn)).mono (by norm_num)
  · refine Sz.of_nonneg (y := 10 ^ 60) (by unfold Sz; rw [abs_of_pos (by positivity)]) (Real.rpow_nonneg ha.le _) ?_
    calc a ^ (1 / xm - 1) ≤ a ^ (1 / xm) := Real.rpow_le_rpow_of_exponent_le h (by linarith)
      _ ≤ (gamRatioOvf ^ xm) ^ (1 / xm) := Real.rpow_le_rpow ha.le hmax (by positivity)
      _ = gamRatioOvf := by
        rw [← Real.rpow_mul (by unfold gamRatioOvf; positivity), mul_one_div_cancel h0.ne', Real.rpow_one]

theorem tMax_size {xm : ℝ} (h0 : 0 ≤ xm) (h1 : xm ≤ 1) : Sz (gamRatioOvf ^ xm) 60 :=
  Sz.rpow (by unfold gamRatioOvf; positivity) (by unfold gamRatioOvf Sz; rw [abs_of_pos (by positivity)]) h0 h1

theorem tMin_size {xm : ℝ} (h0 : 0 ≤ xm) (h1 : xm ≤ 1) : 1 / 10 ^ 60 ≤ gamRatioMin ^ xm := by
  have h : (0 : ℝ) < gamRatioMin := gamRatioMin_pos
  calc (1 : ℝ) / 10 ^ 60 = gamRatioMin ^ (1 : ℝ) := by rw [Real.rpow_one]; rfl
    _ ≤ gamRatioMin ^ xm := Real.rpow_le_rpow_of_exponent_ge h (by unfold gamRatioMin; norm_num) h1

/-- the exponent `xn*log(at)` itself -/
theorem blog_size {xm a : ℝ} (h6 : 1 / 10 ^ 6 ≤ xm) (h1 : xm ≤ 1) (ha : 0 < a) (hs : Sz a 60) (hl : Lz a 60) :
    Sz ((1 / xm - 1) * Real.log a) 9 ∧ Sz (Real.log a) 3 ∧ Sz (1 / xm) 6 := by
  have h0 : 0 < xm := lt_of_lt_of_le (by positivity) h6
  have hL := log_size ha hs hl
  have hx : 1 / xm ≤ 10 ^ 6 := by rw [div_le_iff₀ h0]; linarith
  have hxn : 0 ≤ 1 / xm - 1 := by rw [sub_nonneg, le_div_iff₀ h0]; linarith
  have s1 : Sz (1 / xm - 1) 6 := by unfold Sz; rw [abs_of_nonneg hxn]; linarith
  have s2 : Sz (Real.log a) 3 := by unfold Sz; push_cast at hL; linarith
  exact ⟨s1.mul s2, s2, by unfold Sz; rw [abs_of_pos (by positivity)]; exact hx⟩

/-- the Voce rate with range checks -/
theorem Voce.evalGdotR_ok (k : Voce) {gIn tau : ℝ} (h6 : 1 / 10 ^ 6 ≤ k.xm) (h1 : k.xm ≤ 1) (hW : Sz k.gamW 50)
    (hg : 0 < gIn) (hgl : Lz gIn 50) (ht : Sz tau 200) :
    k.evalGdotR dblLim gIn tau = some (k.evalGdot gIn tau) := by
  have h0 : 0 < k.xm := lt_of_lt_of_le (by positivity) h6
  have sI : Sz (1 / gIn) 50 := ((Sz.one 0).div hgl).mono (by norm_num)
  have sT : Sz (tau * (1 / gIn)) 250 := (ht.mul sI).mono (by norm_num)
  have sG : Sz (gamRatioOvffx * k.gamW) 95 := by
    refine (Sz.mul (m := 45) ?_ hW).mono (by norm_num)
    unfold Sz gamRatioOvffx; rw [abs_of_pos (by positivity)]
  unfold Voce.evalGdotR Voce.evalGdot
  rw [Lim.div_ok hgl (by norm_num) sI (by norm_num)]
  simp only [Option.bind_eq_bind, Option.bind_some]
  rw [Lim.mul_ok sT (by norm_num)]
  simp only [Option.bind_some]
  by_cases ha : k.tMin < |tau * (1 / gIn)|
  · simp only [if_pos ha]
    by_cases hb : k.tMax < |tau * (1 / gIn)|
    · simp only [if_pos hb]
      rw [Lim.mul_ok sG (by norm_num)]
      rfl
    · simp only [if_neg hb]
      push Not at hb
      have hlo : 1 / 10 ^ 60 ≤ |tau * (1 / gIn)| := (tMin_size h0.le h1).trans ha.le
      have hpos : 0 < |tau * (1 / gIn)| := lt_of_lt_of_le (by positivity) hlo
      have hL : Lz |tau * (1 / gIn)| 60 := by unfold Lz; rwa [abs_abs]
      have hS : Sz |tau * (1 / gIn)| 60 := (tMax_size h0.le h1).of_nonneg hpos.le hb
      obtain ⟨b1, b2, b3⟩ := blog_size h6 h1 hpos hS hL
      have b4 := plaw_size h0 h1 hpos hb
      have hS' : Sz (tau * (1 / gIn)) 60 := by unfold Sz at *; rwa [abs_abs] at hS
      have c1 := hW.mul b4
      have c2 := c1.mul hS'
      have c3 := c1.mul b3
      have c4 := c3.mul sI
      have c5 := c4.neg.mul hS'
      unfold Voce.xn Voce.xnn
      rw [Lim.log_ok hpos.le hL (by norm_num) b2 (by norm_num)]
      simp only [Option.bind_some]
      rw [Lim.mul_ok b1 (by norm_num)]
      simp only [Option.bind_some]
      rw [Lim.exp_ok b4 (by norm_num)]
      simp only [Option.bind_some]
      rw [Lim.mul_ok c1 (by norm_num)]
      simp only [Option.bind_some]
      rw [Lim.mul_ok c2 (by norm_num), Lim.mul_ok c3 (by norm_num)]
      simp only [Option.bind_some]
      rw [Lim.mul_ok c4 (by norm_num)]
      simp only [Option.bind_some]
      rw [Lim.mul_ok c5 (by norm_num)]
      rfl
  · simp only [if_neg ha]; rfl

end Ecm
