/- Error bound for the power law in floating-point arithmetic. -/
import Verif.Model.ResidRound
import Verif.Lemmas.Rounding
import Verif.Lemmas.Range
import Verif.Props.ConvergeVoce

namespace Ecm
open Spec Props

namespace Flt
variable (F : Flt)

/-- `a` is `x` up to `k` roundoffs of its magnitude -/
def Rel (a x k : ℝ) : Prop := |a - x| ≤ k * F.u * |x|

variable {F}

theorem Rel.refl (x : ℝ) : F.Rel x x 0 := by simp [Rel]

theorem Rel.mono {a x k l : ℝ} (h : F.Rel a x k) (hkl : k ≤ l) : F.Rel a x l :=
  le_trans h (mul_le_mul_of_nonneg_right (mul_le_mul_of_nonneg_right hkl F.u_nonneg) (abs_nonneg _))

theorem Rel.round {a x k : ℝ} (h : F.Rel a x k) (hk0 : 0 ≤ k) (hk : k ≤ 1000) (h0 : 1 / 10 ^ 190 ≤ |x|)
    (h1 : |x| ≤ 10 ^ 240) : F.Rel (F.fl a) x (k + 1.01) := by
  have hu := F.u_nonneg; have hu1 := F.u_le
  have hη := F.η_mul h0
  have hx := abs_nonneg x
  unfold Rel at *
  have ha : |a| ≤ 1.002 * |x| := by
    have := abs_add_le (a - x) x
    rw [sub_add_cancel] at this
    have : k * F.u * |x| ≤ 0.001 * |x| := mul_le_mul_of_nonneg_right (by nlinarith) hx
    linarith
  have h2 := F.fl_abs ha (by
    have : (1.002 : ℝ) * 10 ^ 240 ≤ 10 ^ 250 := by norm_num
    linarith)
  have t := abs_add_le (F.fl a - a) (a - x)
  rw [sub_add_sub_cancel] at t
  have e : (k + 1.01) * F.u * |x| = k * F.u * |x| + 1.01 * (F.u * |x|) := by ring
  have e2 : F.u * (1.002 * |x|) = 1.002 * (F.u * |x|) := by ring
  rw [e2] at h2
  rw [e]
  have : 0 ≤ F.u * |x| := by positivity
  linarith

theorem Rel.mul {a b x y k l : ℝ} (hx : F.Rel a x k) (hy : F.Rel b y l) (hk0 : 0 ≤ k) (hl0 : 0 ≤ l)
    (hk : k ≤ 1000) : F.Rel (a * b) (x * y) (k + 1.001 * l) := by
  have hu := F.u_nonneg; have hu1 := F.u_le
  unfold Rel at *
  rw [show a * b - x * y = (a - x) * y + x * (b - y) + (a - x) * (b - y) by ring]
  refine (abs_add_le _ _).trans ?_
  have t := abs_add_le ((a - x) * y) (x * (b - y))
  rw [abs_mul, abs_mul] at t
  rw [abs_mul, abs_mul x y]
  have t1 := mul_le_mul_of_nonneg_right hx (abs_nonneg y)
  have t2 := mul_le_mul_of_nonneg_left hy (abs_nonneg x)
  have t3 := mul_le_mul hx hy (abs_nonneg _) (by positivity)
  have t4 : k * F.u * |x| * (l * F.u * |y|) ≤ 0.001 * (l * F.u * (|x| * |y|)) := by
    have e : k * F.u * |x| * (l * F.u * |y|) = (k * F.u) * (l * F.u * (|x| * |y|)) := by ring
    rw [e]
    exact mul_le_mul_of_nonneg_right (by nlinarith) (by positivity)
  have e : (k + 1.001 * l) * F.u * (|x| * |y|)
      = k * F.u * |x| * |y| + |x| * (l * F.u * |y|) + 0.001 * (l * F.u * (|x| * |y|)) := by ring
  rw [e]
  linarith

theorem log_ten : Real.log 10 ≤ 2.31 := by
  rw [Real.log_le_iff_le_exp (by norm_num)]
  have h1 := Real.exp_one_gt_d9
  have h2 : Real.exp 2.31 ^ 100 = Real.exp 1 ^ 231 := by
    rw [← Real.exp_nat_mul, ← Real.exp_nat_mul]; norm_num
  by_contra hc
  have h3 := pow_lt_pow_left₀ (not_le.1 hc) (Real.exp_pos _).le (n := 100) (by norm_num)
  rw [h2] at h3
  have h4 : (10 : ℝ) ^ 100 ≤ Real.exp 1 ^ 231 := by
    calc (10 : ℝ) ^ 100 ≤ 2.7182818283 ^ 231 := by norm_num
      _ ≤ Real.exp 1 ^ 231 := pow_le_pow_left₀ (by norm_num) h1.le 231
  linarith

theorem log_ten_pos : 0 < Real.log 10 := Real.log_pos (by norm_num)

/-- a power of a perturbed base -/
theorem rpow_one_add {δ n b : ℝ} (hδ : 0 ≤ δ) (hn : 0 ≤ n) (hb : n * δ ≤ b) (hb1 : b ≤ 1) :
    (1 + δ) ^ n ≤ 1 + b + b ^ 2 := by
  have h1 : 1 + δ ≤ Real.exp δ := by rw [add_comm]; exact Real.add_one_le_exp δ
  have h2 := Real.rpow_le_rpow (by linarith) h1 hn
  rw [← Real.exp_mul] at h2
  have h3 : δ * n ≤ b := by rwa [mul_comm]
  have h4 := Real.exp_le_exp.2 h3
  have b0 : 0 ≤ b := le_trans (by positivity) hb
  have h5 := abs_le.1 (Real.abs_exp_sub_one_sub_id_le (x := b) (by rwa [abs_of_nonneg b0]))
  linarith [h5.2]

theorem fl_pow_ten (e : ℝ) (h0 : 1 / 10 ^ 100 ≤ e) (h1 : e ≤ 10 ^ 100) :
    |F.fl e - e| ≤ 1.01 / 10 ^ 6 * e := by
  have he : 0 < e := lt_of_lt_of_le (by positivity) h0
  have hE : |e| = e := abs_of_pos he
  have := Rel.round (F := F) (Rel.refl e) le_rfl (by norm_num) (by
    rw [hE]; refine le_trans ?_ h0
    exact one_div_le_one_div_of_le (by positivity) (pow_le_pow_right₀ (by norm_num) (by norm_num))) (by
      rw [hE]; exact h1.trans (pow_le_pow_right₀ (by norm_num) (by norm_num)))
  unfold Rel at this
  rw [hE] at this
  have hu := F.u_nonneg; have hu1 := F.u_le
  refine this.trans (mul_le_mul_of_nonneg_right ?_ he.le)
  linarith

/-- a threshold computed by `pow` from a rounded literal is right to 1e-5 -/
theorem pow_close (L : Libm F) {e y : ℝ} (h0 : 1 / 10 ^ 60 ≤ e) (h1 : e ≤ 10 ^ 60) (y0 : 0 ≤ y) (y1 : y ≤ 1) :
    |L.powF (F.fl e) y - e ^ y| ≤ 1 / 10 ^ 5 * e ^ y := by
  have he : 0 < e := lt_of_lt_of_le (by positivity) h0
  have hf := abs_le.1 (F.fl_pow_ten e (le_trans (by norm_num) h0) (h1.trans (by norm_num)))
  have hu := F.u_nonneg; have hu1 := F.u_le
  set f := F.fl e with hfd
  have f0 : 0 < f := by nlinarith
  have hey : 0 < e ^ y := Real.rpow_pos_of_pos he _
  have up : f ^ y ≤ (1 + 1.02 / 10 ^ 6) * e ^ y := by
    have : f ≤ (1 + 1.01 / 10 ^ 6) * e := by linarith
    refine (Real.rpow_le_rpow f0.le this y0).trans ?_
    rw [Real.mul_rpow (by norm_num) he.le]
    refine mul_le_mul_of_nonneg_right ?_ hey.le
    refine (Real.rpow_le_rpow_of_exponent_le (by norm_num) y1).trans ?_
    rw [Real.rpow_one]; norm_num
  have lo : (1 - 1.02 / 10 ^ 6) * e ^ y ≤ f ^ y := by
    have : (1 - 1.01 / 10 ^ 6) * e ≤ f := by linarith
    refine le_trans ?_ (Real.rpow_le_rpow (by positivity) this y0)
    rw [Real.mul_rpow (by norm_num) he.le]
    refine mul_le_mul_of_nonneg_right ?_ hey.le
    refine le_trans ?_ (Real.rpow_le_rpow_of_exponent_ge (by norm_num) (by norm_num) y1)
    rw [Real.rpow_one]; norm_num
  have b1 : e ^ y ≤ 10 ^ 60 := by
    refine (Real.rpow_le_rpow he.le h1 y0).trans ?_
    refine (Real.rpow_le_rpow_of_exponent_le (by norm_num) y1).trans ?_
    rw [Real.rpow_one]
  have b2 : 1 / 10 ^ 60 ≤ e ^ y := by
    refine le_trans ?_ (Real.rpow_le_rpow (by positivity) h0 y0)
    refine le_trans ?_ (Real.rpow_le_rpow_of_exponent_ge (by positivity) (by norm_num) y1)
    rw [Real.rpow_one]
  have hp := L.pow_err f y f0 (by
    have : (1:ℝ) / 10 ^ 150 ≤ (1 - 1.02 / 10 ^ 6) * (1 / 10 ^ 60) := by norm_num
    nlinarith) (by
    have : (1 + 1.02 / 10 ^ 6) * (10:ℝ) ^ 60 ≤ 10 ^ 150 := by norm_num
    nlinarith)
  have hp2 : 2 * F.u * f ^ y ≤ 2.1 / 10 ^ 6 * e ^ y := by
    have h3 : 0 ≤ f ^ y := by positivity
    have : 2 * F.u * f ^ y ≤ 2 / 10 ^ 6 * f ^ y := mul_le_mul_of_nonneg_right (by linarith) h3
    nlinarith
  have := abs_le.1 (hp.trans hp2)
  rw [abs_le]
  constructor <;> nlinarith

/-- the logarithm between the two thresholds -/
theorem log_range {xm a : ℝ} (h0 : 1 / 1000 ≤ xm) (hlo : 0.99998 * (1 / 10 ^ 60 : ℝ) ^ xm ≤ a)
    (hhi : a ≤ (10 ^ 60 : ℝ) ^ xm) : |Real.log a| ≤ 139 * xm := by
  have t0 : 0 < (1 / 10 ^ 60 : ℝ) ^ xm := Real.rpow_pos_of_pos (by positivity) _
  have a0 : 0 < a := lt_of_lt_of_le (by positivity) hlo
  have e1 : Real.log ((10 ^ 60 : ℝ) ^ xm) = xm * (60 * Real.log 10) := by
    rw [Real.log_rpow (by positivity), Real.log_pow]; norm_num
  have e2 : Real.log ((1 / 10 ^ 60 : ℝ) ^ xm) = -(xm * (60 * Real.log 10)) := by
    rw [Real.log_rpow (by positivity), one_div, Real.log_inv, Real.log_pow]; norm_num
  have h1 := Real.log_le_log a0 hhi
  have h2 := Real.log_le_log (by positivity) hlo
  rw [Real.log_mul (by norm_num) t0.ne', e2] at h2
  rw [e1] at h1
  have h3 : -0.0001 ≤ Real.log 0.99998 := by
    have := Real.one_sub_inv_le_log_of_pos (x := 0.99998) (by norm_num)
    refine le_trans ?_ this
    norm_num
  have h10 := log_ten
  have hp := log_ten_pos
  have h4 : xm * (60 * Real.log 10) ≤ xm * 138.6 := mul_le_mul_of_nonneg_left (by linarith) (by linarith)
  have h5 : 0 ≤ xm * (60 * Real.log 10) := by have : 0 < xm := by linarith
                                              positivity
  rw [abs_le]
  constructor <;> linarith

/-- the value between the two thresholds -/
theorem voce_active (L : Libm F) {xm γ t : ℝ} (hm : 1 / 1000 ≤ xm) (hm1 : xm ≤ 1) (hγ : 1 / 10 ^ 100 ≤ γ)
    (hγ1 : γ ≤ 10 ^ 100) (hlo : 0.99998 * (1 / 10 ^ 60 : ℝ) ^ xm ≤ |t|) (hhi : |t| ≤ (10 ^ 60 : ℝ) ^ xm) :
    F.Rel (F.fl (F.fl (γ * L.expF (F.fl (F.fl (F.fl (1 / xm) - 1) * L.logF |t|))) * t))
      (γ * signPow (1 / xm) t) 708 := by
  have hu := F.u_nonneg; have hu1 := F.u_le; have hηu := F.η_le_u; have hη0 := F.η_nonneg
  have hm0 : 0 < xm := by linarith
  set n := 1 / xm with hn
  have n1 : 1 ≤ n := by rw [hn, le_div_iff₀ hm0]; linarith
  have n2 : n ≤ 1000 := by rw [hn, div_le_iff₀ hm0]; linarith
  have nm : n * xm = 1 := by rw [hn]; field_simp
  have hlog := log_range hm hlo hhi
  have tmin : 1 / 10 ^ 60 ≤ (1 / 10 ^ 60 : ℝ) ^ xm := by
    refine le_trans ?_ (Real.rpow_le_rpow_of_exponent_ge (by positivity) (by norm_num) hm1)
    rw [Real.rpow_one]
  have tmax : (10 ^ 60 : ℝ) ^ xm ≤ 10 ^ 60 := by
    refine (Real.rpow_le_rpow_of_exponent_le (by norm_num) hm1).trans ?_
    rw [Real.rpow_one]
  have at1 : 0.99998 / 10 ^ 60 ≤ |t| := by
    refine le_trans ?_ hlo
    rw [div_eq_mul_one_div]
    exact mul_le_mul_of_nonneg_left tmin (by norm_num)
  have at2 : |t| ≤ 10 ^ 60 := hhi.trans tmax
  have at0 : 0 < |t| := lt_of_lt_of_le (by positivity) at1
  -- the exponent
  have hl := L.log_err |t| (le_trans (by norm_num) at1) (at2.trans (by norm_num))
  set lg := Real.log |t| with hlg
  set lF := L.logF |t| with hlF
  have x1 : |F.fl n - n| ≤ 1.01 * F.u * n := by
    have := Rel.round (F := F) (Rel.refl n) le_rfl (by norm_num) (by
      rw [abs_of_pos (by linarith)]; exact le_trans (by norm_num) n1) (by
      rw [abs_of_pos (by linarith)]; exact n2.trans (by norm_num))
    unfold Rel at this
    rw [abs_of_pos (by linarith : 0 < n), zero_add] at this
    exact this
  have x2 : |F.fl (F.fl n - 1) - (n - 1)| ≤ 2.03 * F.u * n := by
    have un : 0 ≤ F.u * n := by positivity
    have un1 : F.u * n ≤ 0.001 * n := mul_le_mul_of_nonneg_right (by linarith) (by linarith)
    have y1 := abs_le.1 x1
    have hb : |F.fl n - 1| ≤ 1.002 * n := by
      rw [abs_le]; constructor <;> linarith
    have h2 := F.fl_abs hb (le_trans (by linarith) (by norm_num : (1002:ℝ) ≤ 10 ^ 250))
    have t1 := abs_add_le (F.fl (F.fl n - 1) - (F.fl n - 1)) (F.fl n - n)
    rw [show F.fl (F.fl n - 1) - (F.fl n - 1) + (F.fl n - n) = F.fl (F.fl n - 1) - (n - 1) by ring] at t1
    have : F.η ≤ 0.001 * (F.u * n) := by
      have : F.u ≤ F.u * n := le_mul_of_one_le_right hu n1
      linarith
    have e : F.u * (1.002 * n) = 1.002 * (F.u * n) := by ring
    have e2 : 2.03 * F.u * n = 2.03 * (F.u * n) := by ring
    have e3 : 1.01 * F.u * n = 1.01 * (F.u * n) := by ring
    rw [e] at h2; rw [e2]; rw [e3] at x1
    linarith
  set xn := F.fl (F.fl n - 1) with hxn
  have l2 : |lF - lg| ≤ 278.1 * F.u * xm := by
    have h3 : 2 * F.u * |lg| ≤ 2 * F.u * (139 * xm) := mul_le_mul_of_nonneg_left hlog (by positivity)
    have h4 : F.η ≤ 0.1 * F.u * xm := by
      have : F.u * (1 / 1000) ≤ F.u * xm := mul_le_mul_of_nonneg_left hm hu
      linarith
    linarith
  have l3 : |lF| ≤ 139.01 * xm := by
    have := abs_add_le (lF - lg) lg
    rw [sub_add_cancel] at this
    have : 278.1 * F.u * xm ≤ 0.01 * xm := mul_le_mul_of_nonneg_right (by linarith) hm0.le
    linarith
  have b1 : |xn * lF - (n - 1) * lg| ≤ 561 * F.u := by
    rw [show xn * lF - (n - 1) * lg = (xn - (n - 1)) * lF + (n - 1) * (lF - lg) by ring]
    refine (abs_add_le _ _).trans ?_
    rw [abs_mul, abs_mul, abs_of_nonneg (by linarith : 0 ≤ n - 1)]
    have m1 := mul_le_mul x2 l3 (abs_nonneg _) (by positivity)
    have m2 := mul_le_mul (by linarith : n - 1 ≤ n) l2 (abs_nonneg _) (by linarith)
    have e1 : 2.03 * F.u * n * (139.01 * xm) = 2.03 * 139.01 * F.u * (n * xm) := by ring
    have e2 : n * (278.1 * F.u * xm) = 278.1 * F.u * (n * xm) := by ring
    rw [e1, nm] at m1
    rw [e2, nm] at m2
    linarith
  have b2 : |(n - 1) * lg| ≤ 139 := by
    rw [abs_mul, abs_of_nonneg (by linarith : 0 ≤ n - 1)]
    have := mul_le_mul (by linarith : n - 1 ≤ n) hlog (abs_nonneg _) (by linarith)
    have e : n * (139 * xm) = 139 * (n * xm) := by ring
    rw [e, nm] at this; linarith
  have b3 : |xn * lF| ≤ 139.01 := by
    have := abs_add_le (xn * lF - (n - 1) * lg) ((n - 1) * lg)
    rw [sub_add_cancel] at this
    linarith
  have b4 : |F.fl (xn * lF) - (n - 1) * lg| ≤ 701 * F.u := by
    have h2 := F.fl_abs b3 (by norm_num)
    have := abs_add_le (F.fl (xn * lF) - xn * lF) (xn * lF - (n - 1) * lg)
    rw [sub_add_sub_cancel] at this
    linarith
  set β := (n - 1) * lg with hβ
  set bF := F.fl (xn * lF) with hbF
  have eb : Real.exp bF = Real.exp β * Real.exp (bF - β) := by rw [← Real.exp_add]; congr 1; ring
  have d1 : |Real.exp (bF - β) - 1| ≤ 702 * F.u := by
    have h2 := Real.abs_exp_sub_one_sub_id_le (x := bF - β) (by linarith)
    have h3 : (bF - β) ^ 2 ≤ 1 * F.u := by
      rw [← sq_abs]
      have := mul_le_mul b4 b4 (abs_nonneg _) (by positivity)
      nlinarith
    have := abs_add_le (Real.exp (bF - β) - 1 - (bF - β)) (bF - β)
    rw [sub_add_cancel] at this
    linarith
  have eβ := Real.exp_pos β
  have r1 : F.Rel (L.expF bF) (Real.exp β) 705 := by
    unfold Rel
    rw [abs_of_pos eβ]
    have h2 := L.exp_err bF (by
      have := abs_add_le (bF - β) β
      rw [sub_add_cancel] at this
      linarith)
    have h3 : |Real.exp bF - Real.exp β| ≤ 702 * F.u * Real.exp β := by
      rw [eb, show Real.exp β * Real.exp (bF - β) - Real.exp β = (Real.exp (bF - β) - 1) * Real.exp β by ring,
        abs_mul, abs_of_pos eβ]
      exact mul_le_mul_of_nonneg_right d1 eβ.le
    have h4 : 2 * F.u * Real.exp bF ≤ 2.1 * F.u * Real.exp β := by
      rw [eb]
      have : Real.exp (bF - β) ≤ 1.01 := by linarith [(abs_le.1 d1).2]
      have : Real.exp β * Real.exp (bF - β) ≤ Real.exp β * 1.01 := mul_le_mul_of_nonneg_left this eβ.le
      have := mul_le_mul_of_nonneg_left this (by positivity : 0 ≤ 2 * F.u)
      have : 0 ≤ F.u * Real.exp β := by positivity
      linarith
    have := abs_add_le (L.expF bF - Real.exp bF) (Real.exp bF - Real.exp β)
    rw [sub_add_sub_cancel] at this
    have : 0 ≤ F.u * Real.exp β := by positivity
    linarith
  have hexp : Real.exp β = |t| ^ (n - 1) := by
    rw [hβ, hlg, Real.rpow_def_of_pos at0, mul_comm]
  have big : (1:ℝ) / 10 ^ 61 ≤ Real.exp β ∧ Real.exp β ≤ 10 ^ 61 := by
    have hb := abs_le.1 b2
    have h10 : 139 ≤ 61 * Real.log 10 := by
      have h1 := Real.exp_one_lt_d9
      have : 2.3 ≤ Real.log 10 := by
        rw [Real.le_log_iff_exp_le (by norm_num)]
        by_contra hc
        have h3 := pow_lt_pow_left₀ (not_le.1 hc) (by norm_num) (n := 10) (by norm_num)
        have h2 : Real.exp 2.3 ^ 10 = Real.exp 1 ^ 23 := by
          rw [← Real.exp_nat_mul, ← Real.exp_nat_mul]; norm_num
        rw [h2] at h3
        have h4 : Real.exp 1 ^ 23 ≤ 10 ^ 10 := by
          calc Real.exp 1 ^ 23 ≤ 2.7182818286 ^ 23 := pow_le_pow_left₀ (Real.exp_pos _).le h1.le 23
            _ ≤ 10 ^ 10 := by norm_num
        linarith
      linarith
    have e61 : Real.exp (61 * Real.log 10) = 10 ^ 61 := by
      rw [show (61 : ℝ) = ((61 : ℕ) : ℝ) by norm_num, Real.exp_nat_mul, Real.exp_log (by norm_num)]
    constructor
    · rw [one_div, ← e61, ← Real.exp_neg]
      exact Real.exp_le_exp.2 (by linarith)
    · rw [← e61]; exact Real.exp_le_exp.2 (by linarith)
  have γ0 : 0 < γ := lt_of_lt_of_le (by positivity) hγ
  have r2 : F.Rel (F.fl (γ * L.expF bF)) (γ * Real.exp β) (705.8 + 1.01) := by
    refine Rel.round (Rel.mono (Rel.mul (Rel.refl γ) r1 le_rfl (by norm_num) (by norm_num)) (by norm_num))
      (by norm_num) (by norm_num) ?_ ?_
    · rw [abs_of_pos (by positivity)]
      have := mul_le_mul hγ big.1 (by positivity) γ0.le
      refine le_trans ?_ this
      norm_num
    · rw [abs_of_pos (by positivity)]
      have := mul_le_mul hγ1 big.2 eβ.le (by positivity)
      refine this.trans ?_
      norm_num
  have hval : γ * Real.exp β * t = γ * signPow n t := by
    rw [mul_assoc]
    congr 1
    rw [hexp]
    unfold signPow
    have hn0 : n - 1 + 1 = n := by ring
    split_ifs with h
    · have ht : 0 < t := lt_of_le_of_ne h (abs_pos.1 at0).symm
      rw [abs_of_pos ht]
      conv_rhs => rw [← hn0, Real.rpow_add_one ht.ne']
    · have ht : t < 0 := not_le.1 h
      rw [abs_of_neg ht]
      conv_rhs => rw [← hn0, Real.rpow_add_one (by linarith : -t ≠ 0)]
      ring
  have hmag : |γ * Real.exp β * t| = γ * (Real.exp β * |t|) := by
    rw [abs_mul, abs_of_pos (by positivity), mul_assoc]
  have hpow : Real.exp β * |t| = |t| ^ n := by
    rw [hexp, ← Real.rpow_add_one at0.ne']; congr 1; ring
  have hp1 : 1 / 10 ^ 61 ≤ |t| ^ n := by
    have h1 : (0.99998 : ℝ) ^ n * (1 / 10 ^ 60) ≤ |t| ^ n := by
      have := Real.rpow_le_rpow (by positivity) hlo (by linarith : 0 ≤ n)
      rw [Real.mul_rpow (by norm_num) (by positivity), ← Real.rpow_mul (by positivity), mul_comm xm n, nm,
        Real.rpow_one] at this
      exact this
    have h2 : (0.1 : ℝ) ≤ (0.99998 : ℝ) ^ n := by
      refine le_trans ?_ (Real.rpow_le_rpow_of_exponent_ge (by norm_num) (by norm_num) n2)
      rw [show (1000 : ℝ) = ((1000 : ℕ) : ℝ) by norm_num, Real.rpow_natCast]
      have := one_add_mul_le_pow (a := (-0.00002 : ℝ)) (by norm_num) 1000
      rw [show (0.99998 : ℝ) = 1 + -0.00002 by norm_num]
      refine le_trans ?_ this
      norm_num
    have : (0.1 : ℝ) * (1 / 10 ^ 60) ≤ (0.99998 : ℝ) ^ n * (1 / 10 ^ 60) :=
      mul_le_mul_of_nonneg_right h2 (by positivity)
    refine le_trans ?_ h1
    refine le_trans ?_ this
    norm_num
  have hp2 : |t| ^ n ≤ 10 ^ 60 := by
    have := Real.rpow_le_rpow at0.le hhi (by linarith : 0 ≤ n)
    rw [← Real.rpow_mul (by positivity), mul_comm xm n, nm, Real.rpow_one] at this
    exact this
  rw [← hval]
  have r3 := Rel.mul r2 (Rel.refl t) (by norm_num) le_rfl (by norm_num)
  refine Rel.mono (Rel.round r3 (by norm_num) (by norm_num) ?_ ?_) (by norm_num)
  · rw [hmag, hpow]
    have := mul_le_mul hγ hp1 (by positivity) γ0.le
    refine le_trans ?_ this
    norm_num
  · rw [hmag, hpow]
    have := mul_le_mul hγ1 hp2 (by positivity) (by positivity)
    refine this.trans ?_
    norm_num

/-- the computed ratio of stress and strength -/
theorem frac_err {g t : ℝ} (hg : 1 / 10 ^ 100 ≤ g) (hg1 : g ≤ 10 ^ 100) (ht : |t| ≤ 10 ^ 140) :
    |F.fl (t * F.fl (1 / g)) - t / g| ≤ 2.02 * F.u * (|t| / g) + F.η := by
  have hu := F.u_nonneg; have hu1 := F.u_le
  have g0 : 0 < g := lt_of_lt_of_le (by positivity) hg
  have i0 : 0 < 1 / g := by positivity
  have i1 : 1 / g ≤ 10 ^ 100 := by
    rw [div_le_iff₀ g0]
    have := mul_le_mul_of_nonneg_left hg (by positivity : (0:ℝ) ≤ 10 ^ 100)
    rwa [mul_one_div_cancel (by positivity)] at this
  have i2 : 1 / 10 ^ 100 ≤ 1 / g := one_div_le_one_div_of_le g0 hg1
  have r := Rel.round (F := F) (Rel.refl (1 / g)) le_rfl (by norm_num) (by
    rw [abs_of_pos i0]; exact le_trans (by norm_num) i2) (by
    rw [abs_of_pos i0]; exact i1.trans (by norm_num))
  unfold Rel at r
  rw [abs_of_pos i0, zero_add] at r
  set gi := F.fl (1 / g) with hgi
  have e1 : |t * gi - t / g| ≤ 1.01 * F.u * (|t| / g) := by
    rw [show t * gi - t / g = t * (gi - 1 / g) by ring, abs_mul]
    have := mul_le_mul_of_nonneg_left r (abs_nonneg t)
    refine this.trans (le_of_eq ?_)
    ring
  have tg : 0 ≤ |t| / g := by positivity
  have e2 : |t * gi| ≤ 1.002 * (|t| / g) := by
    have := abs_add_le (t * gi - t / g) (t / g)
    rw [sub_add_cancel, abs_div, abs_of_pos g0] at this
    have : 1.01 * F.u * (|t| / g) ≤ 0.002 * (|t| / g) := mul_le_mul_of_nonneg_right (by linarith) tg
    linarith
  have e3 := F.fl_abs e2 (by
    have : |t| / g ≤ 10 ^ 140 * 10 ^ 100 := by
      rw [div_eq_mul_one_div]; exact mul_le_mul ht i1 i0.le (by positivity)
    have h2 : 1.002 * ((10:ℝ) ^ 140 * 10 ^ 100) ≤ 10 ^ 250 := by norm_num
    linarith)
  have := abs_add_le (F.fl (t * gi) - t * gi) (t * gi - t / g)
  rw [sub_add_sub_cancel] at this
  have h0 : 0 ≤ F.u * (|t| / g) := by positivity
  have e4 : F.u * (1.002 * (|t| / g)) = 1.002 * (F.u * (|t| / g)) := by ring
  have e5 : 2.02 * F.u * (|t| / g) = 2.02 * (F.u * (|t| / g)) := by ring
  rw [e4] at e3
  rw [e5]
  have e6 : 1.01 * F.u * (|t| / g) = 1.01 * (F.u * (|t| / g)) := by ring
  rw [e6] at e1
  linarith

theorem signPow_abs {p x : ℝ} : |signPow p x| = |x| ^ p := by
  unfold signPow
  split_ifs with h
  · rw [abs_of_nonneg h, abs_of_nonneg (Real.rpow_nonneg h _)]
  · push Not at h
    rw [abs_neg, abs_of_neg h, abs_of_nonneg (Real.rpow_nonneg (by linarith) _)]

set_option maxHeartbeats 2000000 in
/-- **the power law**: error of the computed slip rate when the resolved stress is known up to `ε` -/
theorem voceLaw_err (L : Libm F) (k : Voce) {g t t' T ε : ℝ} (hm : 1 / 1000 ≤ k.xm) (hm1 : k.xm ≤ 1)
    (hγ : 1 / 10 ^ 100 ≤ k.gamW) (hγ1 : k.gamW ≤ 10 ^ 100) (hg : 1 / 10 ^ 100 ≤ g) (hg1 : g ≤ 10 ^ 40)
    (ht : |t| ≤ T) (htt : |t' - t| ≤ ε) (hT : T + ε ≤ 0.99 * ((10 ^ 60 : ℝ) ^ k.xm * g)) :
    |voceLaw L k g t' - (k.evalGdot g t).gdot|
      ≤ k.gamW * ((710 + 2.1 / k.xm) * F.u * ((T + ε) / g) ^ (1 / k.xm)
        + 1.01 / k.xm * ((T + ε) / g) ^ (1 / k.xm - 1) * (ε / g) + 3 / 10 ^ 60) := by
  have hu := F.u_nonneg; have hu1 := F.u_le; have hηu := F.η_le; have hη0 := F.η_nonneg
  have hm0 : 0 < k.xm := by linarith
  have g0 : 0 < g := lt_of_lt_of_le (by positivity) hg
  have γ0 : 0 < k.gamW := lt_of_lt_of_le (by positivity) hγ
  have eMin : k.tMin = (1 / 10 ^ 60 : ℝ) ^ k.xm := by unfold Voce.tMin gamRatioMin; norm_num
  have eMax : k.tMax = (10 ^ 60 : ℝ) ^ k.xm := by unfold Voce.tMax gamRatioOvf; norm_num
  have tmin : 1 / 10 ^ 60 ≤ (1 / 10 ^ 60 : ℝ) ^ k.xm := by
    refine le_trans ?_ (Real.rpow_le_rpow_of_exponent_ge (by positivity) (by norm_num) hm1)
    rw [Real.rpow_one]
  have tmin1 : (1 / 10 ^ 60 : ℝ) ^ k.xm ≤ 1 := Real.rpow_le_one (by positivity) (by norm_num) hm0.le
  have tmax : (10 ^ 60 : ℝ) ^ k.xm ≤ 10 ^ 60 := by
    refine (Real.rpow_le_rpow_of_exponent_le (by norm_num) hm1).trans ?_
    rw [Real.rpow_one]
  have pMin := abs_le.1 (pow_close L (e := 1 / 10 ^ 60) (y := k.xm) le_rfl (by norm_num) hm0.le hm1)
  have pMax := abs_le.1 (pow_close L (e := 10 ^ 60) (y := k.xm) (by norm_num) le_rfl hm0.le hm1)
  have ε0 : 0 ≤ ε := (abs_nonneg _).trans htt
  have T0 : 0 ≤ T := (abs_nonneg _).trans ht
  have ht' : |t'| ≤ T + ε := by
    have := abs_add_le (t' - t) t
    rw [sub_add_cancel] at this; linarith
  set a := (1 / 10 ^ 60 : ℝ) ^ k.xm with ha
  set b := (10 ^ 60 : ℝ) ^ k.xm with hb
  have bg : b * g ≤ 10 ^ 100 := by
    have := mul_le_mul tmax hg1 g0.le (by positivity)
    refine this.trans (by norm_num)
  have b0 : 0 < b := by positivity
  have fe := F.frac_err (t := t') hg (hg1.trans (by norm_num)) (ht'.trans (by
    have : (10:ℝ) ^ 100 ≤ 10 ^ 140 := by norm_num
    nlinarith))
  set Y := (T + ε) / g with hY
  have Y0 : 0 ≤ Y := by positivity
  have Yb : Y ≤ 0.99 * b := by rw [hY, div_le_iff₀ g0]; linarith
  have hy : |t| / g ≤ Y := div_le_div_of_nonneg_right (by linarith) g0.le
  have hy' : |t'| / g ≤ Y := div_le_div_of_nonneg_right ht' g0.le
  have hn1 : 1 ≤ 1 / k.xm := by rw [le_div_iff₀ hm0]; linarith
  have hn2 : 1 / k.xm ≤ 1000 := by rw [div_le_iff₀ hm0]; linarith
  have nm : k.xm * (1 / k.xm) = 1 := by field_simp
  set n := 1 / k.xm with hn
  have e21 : 2.1 / k.xm = 2.1 * n := by rw [hn]; ring
  have e101 : 1.01 / k.xm = 1.01 * n := by rw [hn]; ring
  rw [e21, e101]
  have Yn : 0 ≤ Y ^ n := by positivity
  have Yn1 : 0 ≤ Y ^ (n - 1) := by positivity
  set tf := F.fl (t' * F.fl (1 / g)) with htf
  have eg : ε / g ≤ Y := div_le_div_of_nonneg_right (by linarith) g0.le
  have hηs : F.η ≤ 1 / 10 ^ 100 * (F.u * (1 / 10 ^ 60)) := by
    refine hηu.trans ?_
    rw [div_eq_mul_one_div]
    have : (1:ℝ) / 10 ^ 200 ≤ 1 / 10 ^ 100 * (1 / 10 ^ 60) := by norm_num
    have := mul_le_mul_of_nonneg_left this hu
    linarith
  have fe2 : |tf - t' / g| ≤ 2.02 * F.u * Y + F.η :=
    fe.trans (add_le_add (mul_le_mul_of_nonneg_left hy' (by positivity)) le_rfl)
  have tfY : |tf| ≤ Y + (2.02 * F.u * Y + F.η) := by
    have := abs_add_le (tf - t' / g) (t' / g)
    rw [sub_add_cancel, abs_div, abs_of_pos g0] at this
    linarith
  have hRHS : 0 ≤ k.gamW * ((710 + 2.1 * n) * F.u * Y ^ n + 1.01 * n * Y ^ (n - 1) * (ε / g) + 3 / 10 ^ 60) := by
    positivity
  -- very small stresses: no slip in both
  by_cases hsmall : Y ≤ a / 2
  · have c1 : |tf| ≤ L.powF (F.fl (1 / 10 ^ 60)) k.xm := by
      have : 2.02 * F.u * Y ≤ 0.01 * Y := mul_le_mul_of_nonneg_right (by linarith) Y0
      have h2 : F.η ≤ 0.01 * (1 / 10 ^ 60) := by
        have : 1 / 10 ^ 100 * (F.u * (1 / 10 ^ 60)) ≤ 1 / 10 ^ 100 * (1 * (1 / 10 ^ 60)) := by
          refine mul_le_mul_of_nonneg_left (mul_le_mul_of_nonneg_right (by linarith) (by positivity)) (by positivity)
        have h3 : (1:ℝ) / 10 ^ 100 * (1 * (1 / 10 ^ 60)) ≤ 0.01 * (1 / 10 ^ 60) := by norm_num
        linarith
      linarith [pMin.1]
    have e1 : voceLaw L k g t' = 0 := by
      simp only [voceLaw]
      rw [if_neg (not_lt.2 c1)]
    have e2 : (k.evalGdot g t).gdot = 0 := by
      rw [k.evalGdot_low g0 (by rw [eMin]; linarith)]
    rw [e1, e2, sub_self, abs_zero]
    exact hRHS
  push Not at hsmall
  have Yl : 1 / 10 ^ 61 ≤ Y := by
    have : (1:ℝ) / 10 ^ 61 ≤ (1 / 10 ^ 60) / 2 := by norm_num
    linarith
  have hηY : F.η ≤ 0.01 * F.u * Y := by
    have h3 : (1:ℝ) / 10 ^ 100 * (1 / 10 ^ 60) ≤ 0.01 * (1 / 10 ^ 61) := by norm_num
    have h4 : 1 / 10 ^ 100 * (1 / 10 ^ 60) ≤ 0.01 * Y := h3.trans (mul_le_mul_of_nonneg_left Yl (by norm_num))
    have := mul_le_mul_of_nonneg_left h4 hu
    linarith
  have fe3 : |tf - t' / g| ≤ 2.03 * F.u * Y := by linarith
  have Ypos : 0 < Y := lt_of_lt_of_le (by positivity) Yl
  set M := (1 + 2.03 * F.u) * Y with hM
  have M0 : 0 ≤ M := by positivity
  have tfM : |tf| ≤ M := by rw [hM]; linarith
  have tM : |t / g| ≤ M := by
    rw [abs_div, abs_of_pos g0, hM]
    have : 0 ≤ F.u * Y := by positivity
    linarith
  have pw : (1 + 2.03 * F.u) ^ n ≤ 1.0021 := by
    have := rpow_one_add (δ := 2.03 * F.u) (n := n) (b := 0.00203) (by positivity) (by linarith) (by
      have : n * (2.03 * F.u) ≤ 1000 * (2.03 * (1 / 10 ^ 6)) := by
        refine mul_le_mul hn2 (by linarith) (by positivity) (by norm_num)
      refine this.trans (by norm_num)) (by norm_num)
    refine this.trans (by norm_num)
  have Mn : M ^ n ≤ 1.0021 * Y ^ n := by
    rw [hM, Real.mul_rpow (by positivity) Y0]
    exact mul_le_mul_of_nonneg_right pw Yn
  have Mn1 : M ^ (n - 1) ≤ 1.0021 * Y ^ (n - 1) := by
    rw [hM, Real.mul_rpow (by positivity) Y0]
    refine mul_le_mul_of_nonneg_right (le_trans ?_ pw) Yn1
    exact Real.rpow_le_rpow_of_exponent_le (by linarith) (by linarith)
  have hdiff : |tf - t / g| ≤ 2.03 * F.u * Y + ε / g := by
    have h1 : |t' / g - t / g| ≤ ε / g := by
      rw [← sub_div, abs_div, abs_of_pos g0]
      exact div_le_div_of_nonneg_right htt g0.le
    have := abs_add_le (tf - t' / g) (t' / g - t / g)
    rw [sub_add_sub_cancel] at this
    linarith
  have hlip : |signPow n tf - signPow n (t / g)| ≤ n * (1.0021 * Y ^ (n - 1)) * (2.03 * F.u * Y + ε / g) := by
    refine (signPow_lip hn1 tfM tM).trans ?_
    refine mul_le_mul (mul_le_mul_of_nonneg_left Mn1 (by linarith)) hdiff (abs_nonneg _) (by positivity)
  have hYY : Y ^ (n - 1) * Y = Y ^ n := by
    rw [← Real.rpow_add_one Ypos.ne']; congr 1; ring
  -- the exact law
  have hexact := k.powLaw_close hm0 γ0 g0 (τ := t) (by rw [eMax]; linarith)
  have hxnn : k.xnn = n := rfl
  rw [powLaw_eq_signPow k g0, hxnn] at hexact
  -- the computed law
  have hcomp : |voceLaw L k g t' - k.gamW * signPow n tf| ≤ k.gamW * (709.5 * F.u * Y ^ n + 1.02 / 10 ^ 60) := by
    have hf : |signPow n tf| ≤ 1.0021 * Y ^ n := by
      rw [signPow_abs]
      exact (Real.rpow_le_rpow (abs_nonneg _) tfM (by linarith)).trans Mn
    by_cases hact : L.powF (F.fl (1 / 10 ^ 60)) k.xm < |tf|
    · have hnot : ¬ L.powF (F.fl (10 ^ 60)) k.xm < |tf| := by
        rw [not_lt]
        have : M ≤ 0.991 * b := by
          rw [hM]
          have : (1 + 2.03 * F.u) * Y ≤ 1.00001 * (0.99 * b) := mul_le_mul (by linarith) Yb Y0 (by norm_num)
          linarith
        have p := pMax.1
        revert p
        generalize L.powF (F.fl (10 ^ 60)) k.xm = z
        intro p
        linarith
      have e1 : voceLaw L k g t' = F.fl (F.fl (k.gamW * L.expF (F.fl (F.fl (F.fl (1 / k.xm) - 1) * L.logF |tf|))) * tf) := by
        simp only [voceLaw]
        rw [if_pos hact, if_neg hnot]
      have hmain := voce_active L (t := tf) hm hm1 hγ hγ1 (by linarith [pMin.1]) (by
        have : M ≤ 1 * b := by
          rw [hM]
          have : (1 + 2.03 * F.u) * Y ≤ 1.00001 * (0.99 * b) := mul_le_mul (by linarith) Yb Y0 (by norm_num)
          linarith
        linarith)
      rw [e1]
      unfold Rel at hmain
      refine hmain.trans ?_
      rw [abs_mul, abs_of_pos γ0]
      have h1 := mul_le_mul_of_nonneg_left hf γ0.le
      have h2 := mul_le_mul_of_nonneg_left h1 (by positivity : 0 ≤ 708 * F.u)
      have h3 : 0 ≤ k.gamW * (F.u * Y ^ n) := by positivity
      have h4 : 0 ≤ k.gamW * (1.02 / 10 ^ 60) := by positivity
      have e2 : 708 * F.u * (k.gamW * (1.0021 * Y ^ n)) = 708 * 1.0021 * (k.gamW * (F.u * Y ^ n)) := by ring
      have e3 : k.gamW * (709.5 * F.u * Y ^ n + 1.02 / 10 ^ 60)
          = 709.5 * (k.gamW * (F.u * Y ^ n)) + k.gamW * (1.02 / 10 ^ 60) := by ring
      rw [e2] at h2
      rw [e3]
      linarith
    · have e1 : voceLaw L k g t' = 0 := by
        simp only [voceLaw]
        rw [if_neg hact]
      rw [e1, zero_sub, abs_neg, abs_mul, abs_of_pos γ0, signPow_abs]
      refine mul_le_mul_of_nonneg_left ?_ γ0.le
      have h1 : |tf| ≤ (1 + 1 / 10 ^ 5) * a := by
        push Not at hact
        linarith [pMin.2]
      have h2 := Real.rpow_le_rpow (abs_nonneg _) h1 (by linarith : 0 ≤ n)
      rw [Real.mul_rpow (by positivity) (by positivity), ha, ← Real.rpow_mul (by positivity), nm, Real.rpow_one] at h2
      have h3 := rpow_one_add (δ := 1 / 10 ^ 5) (n := n) (b := 0.01) (by positivity) (by linarith) (by
        have : n * (1 / 10 ^ 5) ≤ 1000 * (1 / 10 ^ 5) := mul_le_mul_of_nonneg_right hn2 (by positivity)
        refine this.trans (by norm_num)) (by norm_num)
      have h4 : (1 + 1 / 10 ^ 5 : ℝ) ^ n * (1 / 10 ^ 60) ≤ 1.02 * (1 / 10 ^ 60) :=
        mul_le_mul_of_nonneg_right (h3.trans (by norm_num)) (by positivity)
      have h5 : 0 ≤ F.u * Y ^ n := by positivity
      have e2 : (1.02 : ℝ) * (1 / 10 ^ 60) = 1.02 / 10 ^ 60 := by ring
      rw [e2] at h4
      linarith
  have t1 := abs_add_le (voceLaw L k g t' - k.gamW * signPow n tf) (k.gamW * signPow n tf - (k.evalGdot g t).gdot)
  rw [sub_add_sub_cancel] at t1
  have t2 := abs_add_le (k.gamW * signPow n tf - k.gamW * signPow n (t / g))
    (k.gamW * signPow n (t / g) - (k.evalGdot g t).gdot)
  rw [sub_add_sub_cancel, ← mul_sub, abs_mul, abs_of_pos γ0] at t2
  rw [abs_sub_comm] at hexact
  have h1 := mul_le_mul_of_nonneg_left hlip γ0.le
  have e1 : k.gamW * (n * (1.0021 * Y ^ (n - 1)) * (2.03 * F.u * Y + ε / g))
      = 1.0021 * 2.03 * n * (k.gamW * (F.u * (Y ^ (n - 1) * Y))) + 1.0021 * (k.gamW * (n * Y ^ (n - 1) * (ε / g))) := by
    ring
  rw [e1, hYY] at h1
  have e2 : k.gamW * ((710 + 2.1 * n) * F.u * Y ^ n + 1.01 * n * Y ^ (n - 1) * (ε / g) + 3 / 10 ^ 60)
      = 710 * (k.gamW * (F.u * Y ^ n)) + 2.1 * n * (k.gamW * (F.u * Y ^ n))
        + 1.01 * (k.gamW * (n * Y ^ (n - 1) * (ε / g))) + 3 * (1 / 10 ^ 60 * k.gamW) := by ring
  have e3 : k.gamW * (709.5 * F.u * Y ^ n + 1.02 / 10 ^ 60)
      = 709.5 * (k.gamW * (F.u * Y ^ n)) + 1.02 * (1 / 10 ^ 60 * k.gamW) := by ring
  rw [e2]
  rw [e3] at hcomp
  have p1 : 0 ≤ k.gamW * (F.u * Y ^ n) := by positivity
  have p2 : 0 ≤ k.gamW * (n * Y ^ (n - 1) * (ε / g)) := by positivity
  have p3 : 0 ≤ 1 / 10 ^ 60 * k.gamW := by positivity
  have p4 : 0 ≤ n * (k.gamW * (F.u * Y ^ n)) := by positivity
  linarith

end Flt
end Ecm
