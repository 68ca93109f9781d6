/- Error bounds for the density update in floating-point arithmetic, and the implicit equation of the logarithm of the
   density. -/
import Verif.Model.DensRound
import Verif.Lemmas.HardRound

namespace Ecm.Flt
variable {F : Flt}

/-- the exponential of the library at a computed argument -/
theorem exp_err_at (L : Libm F) {a t e : ℝ} (h : F.Er a t e 400) (he : e ≤ 900) :
    F.Er (L.expF a) (Real.exp t) ((1.002 * e + 2.003) * Real.exp t) (Real.exp t) := by
  have hw := F.w_pos; have hw1 := F.w_le; have hu := F.u_le_w
  have e0 := h.e0
  have E0 := Real.exp_pos t
  refine ⟨(abs_of_pos E0).le, ?_⟩
  have hd : |a - t| ≤ 1 / 1000 := by
    refine h.2.trans ?_
    nlinarith
  have ha : |a| ≤ 500 := by
    have := abs_add_le (a - t) t
    rw [sub_add_cancel] at this
    have := h.1
    linarith
  have e1 := L.exp_err a ha
  -- exp a against exp t
  have hea : Real.exp a = Real.exp t * Real.exp (a - t) := by rw [← Real.exp_add]; congr 1; ring
  have e2 : |Real.exp (a - t) - 1| ≤ 1.001 * (e * F.w) := by
    have q := Real.abs_exp_sub_one_sub_id_le (x := a - t) (by linarith)
    have q1 : |Real.exp (a - t) - 1| ≤ |a - t| + (a - t) ^ 2 := by
      have := abs_add_le (Real.exp (a - t) - 1 - (a - t)) (a - t)
      rw [sub_add_cancel] at this
      linarith
    have q2 : (a - t) ^ 2 ≤ 1 / 1000 * |a - t| := by
      rw [← sq_abs, sq]
      exact mul_le_mul_of_nonneg_right hd (abs_nonneg _)
    have := h.2
    linarith
  have e3 : Real.exp (a - t) ≤ 1.0011 := by
    have := (abs_le.1 e2).2
    have : 1.001 * (e * F.w) ≤ 0.0011 := by nlinarith
    linarith
  have e4 : |Real.exp a - Real.exp t| ≤ Real.exp t * (1.001 * (e * F.w)) := by
    rw [hea, show Real.exp t * Real.exp (a - t) - Real.exp t = Real.exp t * (Real.exp (a - t) - 1) by ring, abs_mul,
      abs_of_pos E0]
    exact mul_le_mul_of_nonneg_left e2 E0.le
  have e5 : 2 * F.u * Real.exp a ≤ Real.exp t * (2.0022 * F.w) := by
    rw [hea]
    have : 2 * F.u * Real.exp (a - t) ≤ 2.0022 * F.w := by
      have := mul_le_mul hu e3 (Real.exp_pos _).le hw.le
      nlinarith
    nlinarith
  have := abs_sub_le (L.expF a) (Real.exp a) (Real.exp t)
  have e6 : Real.exp t * (1.001 * (e * F.w)) + Real.exp t * (2.0022 * F.w)
      ≤ (1.002 * e + 2.003) * Real.exp t * F.w := by
    have : 0 ≤ Real.exp t * F.w := by positivity
    have := mul_nonneg this e0
    nlinarith
  linarith

/-- a coefficient times a power, computed from the quotient `q` -/
theorem scaled_pow_err (L : Libm F) {t q m : ℝ} (hm0 : 0 ≤ m) (hm1 : m ≤ 1) (hq : Pw q 100) (ht : Pw t 50) :
    |F.fl (t * L.powF (F.fl q) m) - t * q ^ m| ≤ 4.1 * F.u * (t * q ^ m) := by
  have hu := F.u_nonneg; have hu1 := F.u_le
  have t0 := ht.pos
  have q0 := hq.pos
  have p0 : 0 < q ^ m := Real.rpow_pos_of_pos q0 _
  have r1 := Flt.Rel.round (F := F) (Flt.Rel.refl q) le_rfl (by norm_num)
    (by rw [abs_of_pos q0]; exact (hq.mono (by norm_num : 100 ≤ 190)).1)
    (by rw [abs_of_pos q0]; exact (hq.mono (by norm_num : 100 ≤ 240)).2)
  unfold Flt.Rel at r1
  rw [abs_of_pos q0, zero_add] at r1
  set f := F.fl q with hf
  have r2 := abs_le.1 r1
  have lo : (1 - 1.01 * F.u) * q ≤ f := by linarith
  have hi : f ≤ (1 + 1.01 * F.u) * q := by linarith
  have l0 : 0 < (1 - 1.01 * F.u) * q := mul_pos (by linarith) q0
  have f0 : 0 < f := lt_of_lt_of_le l0 lo
  have up : f ^ m ≤ (1 + 1.01 * F.u) * q ^ m := by
    refine (Real.rpow_le_rpow f0.le hi hm0).trans ?_
    rw [Real.mul_rpow (by linarith) q0.le]
    refine mul_le_mul_of_nonneg_right ?_ p0.le
    refine (Real.rpow_le_rpow_of_exponent_le (by linarith) hm1).trans ?_
    rw [Real.rpow_one]
  have dn : (1 - 1.01 * F.u) * q ^ m ≤ f ^ m := by
    refine le_trans ?_ (Real.rpow_le_rpow l0.le lo hm0)
    rw [Real.mul_rpow (by linarith) q0.le]
    refine mul_le_mul_of_nonneg_right ?_ p0.le
    refine le_trans ?_ (Real.rpow_le_rpow_of_exponent_ge (by linarith) (by linarith) hm1)
    rw [Real.rpow_one]
  have b1 : q ^ m ≤ 10 ^ 100 := by
    refine (Real.rpow_le_rpow q0.le hq.2 hm0).trans ?_
    refine (Real.rpow_le_rpow_of_exponent_le (by norm_num) hm1).trans ?_
    rw [Real.rpow_one]
  have b2 : 1 / 10 ^ 100 ≤ q ^ m := by
    refine le_trans ?_ (Real.rpow_le_rpow (by positivity) hq.1 hm0)
    refine le_trans ?_ (Real.rpow_le_rpow_of_exponent_ge (by positivity) (by norm_num) hm1)
    rw [Real.rpow_one]
  have hp := L.pow_err f m f0 (by
      refine le_trans ?_ dn
      have : (1:ℝ) / 10 ^ 150 ≤ 0.9 * (1 / 10 ^ 100) := by norm_num
      nlinarith) (by
      refine up.trans ?_
      have : (1.1:ℝ) * 10 ^ 100 ≤ 10 ^ 150 := by norm_num
      nlinarith)
  have hp' := abs_le.1 hp
  set P := L.powF f m with hP
  have rel : F.Rel P (q ^ m) 3.02 := by
    unfold Flt.Rel
    rw [abs_of_pos p0, abs_le]
    have h3 : 2 * F.u * f ^ m ≤ 2.001 * F.u * q ^ m := by
      have := mul_le_mul_of_nonneg_left up (by linarith : 0 ≤ 2 * F.u)
      have h4 : 2 * F.u * ((1 + 1.01 * F.u) * q ^ m) = (2 * (1 + 1.01 * F.u)) * (F.u * q ^ m) := by ring
      rw [h4] at this
      have h5 : (2 * (1 + 1.01 * F.u)) * (F.u * q ^ m) ≤ 2.001 * (F.u * q ^ m) :=
        mul_le_mul_of_nonneg_right (by linarith) (by positivity)
      linarith
    have : 0 ≤ F.u * q ^ m := by positivity
    constructor <;> linarith
  have rm := (Flt.Rel.refl (F := F) t).mul rel le_rfl (by norm_num) (by norm_num)
  have sz : |t * q ^ m| = t * q ^ m := abs_of_pos (by positivity)
  have rr := rm.round (by norm_num) (by norm_num)
    (by
      rw [sz]
      have := mul_le_mul ht.1 b2 (by positivity) t0.le
      exact le_trans (by norm_num) this)
    (by
      rw [sz]
      have := mul_le_mul ht.2 b1 p0.le (by positivity)
      exact this.trans (by norm_num))
  unfold Flt.Rel at rr
  rw [sz] at rr
  refine rr.trans ?_
  have m2 : 0 ≤ t * q ^ m := by positivity
  exact mul_le_mul_of_nonneg_right (by linarith) m2

set_option maxHeartbeats 800000 in
/-- the residual of the density update: error in roundoffs.  `Y` bounds the old logarithm and its change. -/
theorem dens_err (L : Libm F) {nV : ℕ} {k : KMBalD nV} {g k2 yO dt x Y : ℝ} (hY1 : 1 ≤ Y) (hY : Y ≤ 50)
    (hK : Pw k.k1 20) (hk0 : 0 ≤ k2) (hk1 : k2 ≤ 10 ^ 20) (hdt : Pw dt 20) (hg0 : 0 ≤ g) (hg1 : g ≤ 10 ^ 20)
    (hO : |yO| ≤ Y) (hx : |x * max yO 1| ≤ Y) :
    F.Er (F.hardNew yO x) (yO + x * max yO 1) (3.03 * Y) (2 * Y) ∧
    F.Er (densResid L k g k2 yO dt x)
      ((x * max yO 1 - (k.k1 * Real.exp (-(1 / 2) * (yO + x * max yO 1)) - k2) * g * dt) * (1 / max yO 1))
      (18 * (Y * max (dt * g * (k.k1 * Real.exp (-(1 / 2) * (yO + x * max yO 1)) + k2)) 1 * (1 / max yO 1)))
      ((Y + max (dt * g * (k.k1 * Real.exp (-(1 / 2) * (yO + x * max yO 1)) + k2)) 1) * (1 / max yO 1)) := by
  have y0 : 0 < Y := by linarith
  have hYp : Pw Y 2 := ⟨by norm_num; linarith, by norm_num; linarith⟩
  have K0 := hK.pos; have t0 := hdt.pos
  set xs := max yO 1 with hxs
  have xs1 : 1 ≤ xs := le_max_right _ _
  have hXs : Pw xs 2 := ⟨le_trans (by norm_num) xs1, max_le ((le_abs_self _).trans (hO.trans hYp.2)) (by norm_num)⟩
  have two : Pw 2 1 := ⟨by norm_num, by norm_num⟩
  have half : Pw (1 / 2) 1 := ⟨by norm_num, by norm_num⟩
  have e1 : F.Er (F.hardDelta yO x) (x * xs) (1.01 * Y) Y := prod_err hx (hYp.mono (by norm_num))
  have e2 : F.Er (F.hardNew yO x) (yO + x * xs) (3.03 * Y) (2 * Y) := by
    have := (Er.exact (F := F) hO).add e1 (by linarith) (by linarith) ((hYp.add hYp).mono (by norm_num))
    exact this.mono (by linarith) (by linarith)
  refine ⟨e2, ?_⟩
  set y := yO + x * xs with hy
  have e3 : F.Er (F.fl (-(1 / 2) * F.hardNew yO x)) (-(1 / 2) * y) (2.53 * Y) Y := by
    have := e2.scale (s := -(1 / 2)) (m := 1 / 2) (by norm_num) (by linarith) ((half.mul (two.mul hYp)).mono (by norm_num))
    exact this.mono (by linarith) (by linarith)
  set E := Real.exp (-(1 / 2) * y) with hE
  have E0 : 0 < E := Real.exp_pos _
  have hyB : |-(1 / 2) * y| ≤ 50 := e3.1.trans hY
  have hEp : Pw E 30 := by
    have h1 : Real.exp 50 ≤ 10 ^ 30 := by
      have h := Real.exp_one_lt_d9
      calc Real.exp 50 = Real.exp 1 ^ 50 := by rw [← Real.exp_nat_mul]; norm_num
        _ ≤ 3 ^ 50 := pow_le_pow_left₀ (Real.exp_pos 1).le (by linarith) _
        _ ≤ 10 ^ 30 := by norm_num
    have := abs_le.1 hyB
    constructor
    · have h2 : Real.exp (-50) ≤ E := Real.exp_le_exp.2 this.1
      refine le_trans ?_ h2
      rw [Real.exp_neg, ← one_div]
      exact one_div_le_one_div_of_le (Real.exp_pos _) h1
    · exact (Real.exp_le_exp.2 this.2).trans h1
  have e4 : F.Er (L.expF (F.fl (-(1 / 2) * F.hardNew yO x))) E (4.6 * Y * E) E := by
    have := exp_err_at L (e3.mono le_rfl (by linarith : Y ≤ 400)) (by linarith)
    refine this.mono ?_ le_rfl
    nlinarith
  have e5 : F.Er (F.fl (k.k1 * L.expF (F.fl (-(1 / 2) * F.hardNew yO x)))) (k.k1 * E) (5.7 * Y * (k.k1 * E)) (k.k1 * E) := by
    have := e4.scale (s := k.k1) (abs_of_pos K0).le (by nlinarith) ((hK.mul hEp).mono (by norm_num))
    refine this.mono ?_ le_rfl
    have p : 0 < k.k1 * E := by positivity
    nlinarith
  set P := k.k1 * E with hP
  have p0 : 0 < P := by positivity
  have hPp : Pw P 50 := (hK.mul hEp).mono (by norm_num)
  have hSp : Pw (P + k2) 51 := ⟨by
      have := hPp.1
      have h1 : (1 : ℝ) / 10 ^ 51 ≤ 1 / 10 ^ 50 := by norm_num
      linarith, by
      have := hPp.2
      have : (10 : ℝ) ^ 50 + 10 ^ 20 ≤ 10 ^ 51 := by norm_num
      linarith⟩
  have e6 : F.Er (F.fl (F.fl (k.k1 * L.expF (F.fl (-(1 / 2) * F.hardNew yO x))) - k2)) (P - k2)
      (6.8 * Y * (P + k2)) (P + k2) := by
    have := e5.sub (Er.exact (F := F) (abs_of_nonneg hk0).le) (by nlinarith) (by linarith) (hSp.mono (by norm_num))
    refine this.mono ?_ le_rfl
    nlinarith [mul_nonneg y0.le hk0, mul_pos y0 p0]
  set S := P + k2 with hS
  have s0 := hSp.pos
  set G := max g (1 / (dt * S)) with hG
  have hfl : Pw (1 / (dt * S)) 71 := ((hdt.mul hSp).inv).mono (by norm_num)
  have hGp : Pw G 71 := ⟨hfl.1.trans (le_max_right _ _), max_le (hg1.trans (by norm_num)) hfl.2⟩
  have g0 := hGp.pos
  have gG : |g| ≤ G := by rw [abs_of_nonneg hg0]; exact le_max_left _ _
  have gs0 : 0 < G * S := by positivity
  have hGS : Pw (G * S) 122 := (hGp.mul hSp).mono (by norm_num)
  have e7 : F.Er (densRate L k g k2 (F.hardNew yO x)) ((P - k2) * g) (7.9 * Y * (G * S)) (G * S) := by
    have := e6.scale (s := g) gG (by nlinarith) (hGS.mono (by norm_num))
    rw [densRate, mul_comm _ g, mul_comm _ g]
    refine this.mono ?_ le_rfl
    nlinarith
  set W := dt * (G * S) with hW
  have hWp : Pw W 142 := (hdt.mul hGS).mono (by norm_num)
  have w0 := hWp.pos
  have e8 : F.Er (F.fl (densRate L k g k2 (F.hardNew yO x) * dt)) ((P - k2) * g * dt) (9 * Y * W) W := by
    have := e7.scale (s := dt) (abs_of_pos t0).le (by nlinarith) (hWp.mono (by norm_num))
    rw [mul_comm _ dt, mul_comm _ dt]
    refine this.mono ?_ le_rfl
    rw [hW]; nlinarith [mul_pos t0 gs0]
  have hWA : W = max (dt * g * S) 1 := by
    rw [hW, hG, max_mul_of_nonneg _ _ s0.le, mul_max_of_nonneg _ _ t0.le]
    congr 1
    · ring
    · field_simp
  have hW1 : 1 ≤ W := by rw [hWA]; exact le_max_right _ _
  rw [← hWA]
  have hYW : Pw (Y + W) 143 := ⟨by
      have : (1 : ℝ) / 10 ^ 143 ≤ 1 := by norm_num
      linarith, by
      have := hWp.2
      have : (10 : ℝ) ^ 142 + 50 ≤ 10 ^ 143 := by norm_num
      linarith⟩
  have yw : 0 < Y * W := by positivity
  have yw1 : Y ≤ Y * W := by nlinarith
  have yw2 : W ≤ Y * W := by nlinarith
  have e9 : F.Er (F.fl (F.hardDelta yO x - F.fl (densRate L k g k2 (F.hardNew yO x) * dt)))
      (x * xs - (P - k2) * g * dt) (9 * (Y * W) + 2.02 * Y + 1.01 * W) (Y + W) := by
    have := e1.sub e8 (by linarith) (by nlinarith) (hYW.mono (by norm_num))
    exact this.mono (by nlinarith) le_rfl
  have e10 : F.Er (F.fl (1 / xs)) (1 / xs) (1.01 * (1 / xs)) (1 / xs) := by
    have := (Er.exact (F := F) (x := 1 / xs) (m := 1 / xs) (abs_of_pos hXs.inv.pos).le).round
      (by have := hXs.inv.pos; linarith) (hXs.inv.mono (by norm_num))
    exact this.mono (by linarith) le_rfl
  have xi := hXs.inv.pos
  have := e9.mul e10 (by nlinarith) (by linarith) ((hYW.mul hXs.inv).mono (by norm_num))
  rw [densResid]
  refine this.mono ?_ le_rfl
  have h1 : (9 * (Y * W) + 2.02 * Y + 1.01 * W) * (1 / xs) + 1.003 * ((Y + W) * (1.01 * (1 / xs)))
      + 1.01 * ((Y + W) * (1 / xs))
    = (9 * (Y * W) + 2.02 * Y + 1.01 * W + 1.003 * 1.01 * (Y + W) + 1.01 * (Y + W)) * (1 / xs) := by ring
  rw [h1]
  have h2 : 9 * (Y * W) + 2.02 * Y + 1.01 * W + 1.003 * 1.01 * (Y + W) + 1.01 * (Y + W) ≤ 18 * (Y * W) := by linarith
  have := mul_le_mul_of_nonneg_right h2 xi.le
  linarith

end Ecm.Flt

namespace Ecm

/-- distance from the solution of the implicit equation of the logarithm of the density, when the equation is violated
    by `p` and a fraction `q` of the storage term -/
theorem dens_distance {a b yO y z p q : ℝ} (ha : 0 ≤ a) (hp : 0 ≤ p) (hq : 0 ≤ q) (hq1 : q ≤ 1 / 2)
    (hz : z - yO = a * Real.exp (-(1 / 2) * z) - b)
    (hy : |y - yO - (a * Real.exp (-(1 / 2) * y) - b)| ≤ p + q * (a * Real.exp (-(1 / 2) * y))) :
    |y - z| ≤ p + 2 * q / (1 - q) := by
  set E := Real.exp (-(1 / 2) * y) with hE
  have E0 : 0 < E := Real.exp_pos _
  have hq' : 2 * q ≤ 2 * q / (1 - q) := by
    rw [le_div_iff₀ (by linarith)]; nlinarith
  have hEz : Real.exp (-(1 / 2) * z) = E * Real.exp ((y - z) / 2) := by
    rw [hE, ← Real.exp_add]; congr 1; ring
  have hd : y - yO - (a * E - b) = (y - z) + a * E * (Real.exp ((y - z) / 2) - 1) := by
    rw [hEz] at hz
    linear_combination hz
  rw [hd] at hy
  have hA : 0 ≤ a * E := mul_nonneg ha E0.le
  generalize a * E = A at hy hA
  have c1 := Real.add_one_le_exp ((y - z) / 2)
  rcases le_total 0 (y - z) with h | h
  · rw [abs_of_nonneg h]
    have h1 := (abs_le.1 hy).2
    have h2 : (y - z) + A * ((y - z) / 2) ≤ p + q * A := by
      have := mul_le_mul_of_nonneg_left (by linarith : (y - z) / 2 ≤ Real.exp ((y - z) / 2) - 1) hA
      linarith
    by_contra hc
    rw [not_le] at hc
    have h3 : p + 2 * q < y - z := by linarith
    nlinarith
  · rw [abs_of_nonpos h]
    set d := -(y - z) with hd'
    have d0 : 0 ≤ d := by linarith
    have h1 := (abs_le.1 hy).1
    rw [show (y - z) / 2 = -(d / 2) by rw [hd']; ring] at h1
    rw [show y - z = -d by rw [hd']; ring] at h1
    by_contra hc
    rw [not_le] at hc
    have hqp : 0 ≤ 2 * q / (1 - q) := by
      apply div_nonneg <;> linarith
    have hdp : p < d := by linarith
    have h2 : A * (1 - Real.exp (-(d / 2))) < q * A := by nlinarith
    have hA' : 0 < A := by
      rcases hA.lt_or_eq with h | h
      · exact h
      · rw [← h] at h2; simp at h2
    have h3 : 1 - Real.exp (-(d / 2)) < q := by
      by_contra hcc
      rw [not_lt] at hcc
      have := mul_le_mul_of_nonneg_left hcc hA'.le
      linarith
    -- exp(-d/2) > 1 - q, hence d < 2 q / (1 - q)
    have h4 : Real.exp (-(d / 2)) * (1 + d / 2) ≤ 1 := by
      have := Real.add_one_le_exp (d / 2)
      have e : Real.exp (-(d / 2)) * Real.exp (d / 2) = 1 := by rw [← Real.exp_add]; simp
      nlinarith [Real.exp_pos (-(d / 2))]
    have h5 : (1 - q) * (1 + d / 2) ≤ 1 := by
      refine le_trans (mul_le_mul_of_nonneg_right (by linarith) (by linarith)) h4
    have h6 : d ≤ 2 * q / (1 - q) := by
      rw [le_div_iff₀ (by linarith)]; nlinarith
    linarith

/-- the solution of the implicit equation depends on the old value with a factor of at most one -/
theorem dens_nonexpansive {a b yO zO y z : ℝ} (ha : 0 ≤ a) (hy : y - yO = a * Real.exp (-(1 / 2) * y) - b)
    (hz : z - zO = a * Real.exp (-(1 / 2) * z) - b) : |y - z| ≤ |yO - zO| := by
  have mono : ∀ s t : ℝ, s ≤ t → Real.exp (-(1 / 2) * t) ≤ Real.exp (-(1 / 2) * s) := fun s t h =>
    Real.exp_le_exp.2 (by linarith)
  rcases le_total y z with h | h
  · rw [abs_of_nonpos (by linarith)]
    have := mul_le_mul_of_nonneg_left (mono y z h) ha
    have := neg_le_abs (yO - zO)
    linarith
  · rw [abs_of_nonneg (by linarith)]
    have := mul_le_mul_of_nonneg_left (mono z y h) ha
    have := le_abs_self (yO - zO)
    linarith

/-- the implicit equation has a solution -/
theorem dens_exists {a b yO : ℝ} (ha : 0 ≤ a) (hb : 0 ≤ b) : ∃ z, z - yO = a * Real.exp (-(1 / 2) * z) - b := by
  have hc : Continuous fun z : ℝ => z - yO - (a * Real.exp (-(1 / 2) * z) - b) := by fun_prop
  have e0 := Real.exp_pos (-(1 / 2) * yO)
  have hle : yO - b ≤ yO + a * Real.exp (-(1 / 2) * yO) := by
    have := mul_nonneg ha e0.le
    linarith
  have h1 : yO - b - yO - (a * Real.exp (-(1 / 2) * (yO - b)) - b) ≤ 0 := by
    have := mul_nonneg ha (Real.exp_pos (-(1 / 2) * (yO - b))).le
    linarith
  have h2 : 0 ≤ yO + a * Real.exp (-(1 / 2) * yO) - yO
      - (a * Real.exp (-(1 / 2) * (yO + a * Real.exp (-(1 / 2) * yO))) - b) := by
    have := mul_le_mul_of_nonneg_left (Real.exp_le_exp.2 (by
      have := mul_nonneg ha e0.le
      linarith : -(1 / 2) * (yO + a * Real.exp (-(1 / 2) * yO)) ≤ -(1 / 2) * yO)) ha
    linarith
  obtain ⟨z, -, hz⟩ := intermediate_value_Icc hle hc.continuousOn ⟨h1, h2⟩
  exact ⟨z, by have : z - yO - (a * Real.exp (-(1 / 2) * z) - b) = 0 := hz; linarith⟩

/-- the solution lies between the old value and the value at which storage and recovery balance -/
theorem dens_range {a b yO z L U : ℝ} (ha : 0 ≤ a) (hz : z - yO = a * Real.exp (-(1 / 2) * z) - b) (h1 : L ≤ yO)
    (h2 : yO ≤ U) (h3 : b ≤ a * Real.exp (-(1 / 2) * L)) (h4 : a * Real.exp (-(1 / 2) * U) ≤ b) : L ≤ z ∧ z ≤ U := by
  constructor <;> by_contra hc <;> rw [not_le] at hc
  · have := mul_le_mul_of_nonneg_left (Real.exp_le_exp.2 (by linarith : -(1 / 2) * L ≤ -(1 / 2) * z)) ha
    linarith
  · have := mul_le_mul_of_nonneg_left (Real.exp_le_exp.2 (by linarith : -(1 / 2) * z ≤ -(1 / 2) * U)) ha
    linarith

end Ecm
