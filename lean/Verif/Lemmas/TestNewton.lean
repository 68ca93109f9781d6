/- Newton's method on the three equations of the tests of the hardening laws (test/test_hardening.cxx,
   test/test_aniso_hardening.cxx): helper lemmas for C114. -/
import Verif.Model.TestHard
import Verif.SpecNewton
import Verif.Props.PlainNewton
import Verif.Props.TestValues
import Verif.Props.AnisoVoce

namespace Ecm.Props
open Ecm Spec Classical

variable {n : ℕ}

/-! ### Newton's method -/

/-- Newton's method that looks at the residual only after a step: the first step is taken in any case -/
noncomputable def newtonAfter (δ : ℝ) (n : ℕ) : Solver n := fun F tol maxIter x0 =>
  match F x0 with
  | none => ⟨false, x0, x0, 1⟩
  | some (r, J) =>
    if J.det = 0 ∨ δ < len (J⁻¹.mulVec r) then ⟨false, x0, x0, 1⟩
    else newtonRun δ F tol maxIter 1 (x0 - J⁻¹.mulVec r)

theorem newtonRun_claims (δ : ℝ) (F : Problem n) (tol : ℝ) : ∀ k c x, (newtonRun δ F tol k c x).converged = true →
    (∃ r J, F (newtonRun δ F tol k c x).x = some (r, J) ∧ vecNorm r ≤ tol) ∧
    (newtonRun δ F tol k c x).xLast = (newtonRun δ F tol k c x).x := by
  intro k
  induction k with
  | zero => intro c x hc; simp [newtonRun] at hc
  | succ k ih =>
    intro c x hc
    unfold newtonRun at hc ⊢
    cases hF : F x with
    | none => simp [hF] at hc
    | some a =>
      obtain ⟨r, J⟩ := a
      simp only [hF] at hc ⊢
      split_ifs at hc ⊢ with h1 h2
      · exact ⟨⟨r, J, hF, h1⟩, rfl⟩
      · exact ih _ _ hc

theorem newtonAfter_sound (δ : ℝ) (n : ℕ) : (newtonAfter δ n).Sound := by
  intro F tol maxIter x0 hc
  unfold newtonAfter at hc ⊢
  cases hF : F x0 with
  | none => simp [hF] at hc
  | some a =>
    obtain ⟨r, J⟩ := a
    simp only [hF] at hc ⊢
    split_ifs at hc ⊢ with h1
    exact newtonRun_claims _ _ _ _ _ _ hc

/-- the same residual `f` in all equations, and the diagonal matrix with the entry `g` -/
def Uniform (F : Problem n) (x f g : ℝ) : Prop := F (fun _ => x) = some (fun _ => f, Matrix.diagonal fun _ => g)

theorem len_const (a : ℝ) : len (fun _ : Fin n => a) = Real.sqrt n * |a| := by
  unfold len dot
  rw [Finset.sum_const, Finset.card_univ, Fintype.card_fin, nsmul_eq_mul, Real.sqrt_mul (Nat.cast_nonneg n),
    Real.sqrt_mul_self_eq_abs]

theorem diag_step {f g : ℝ} (hg : g ≠ 0) : (Matrix.diagonal fun _ : Fin n => g).det ≠ 0 ∧
    (Matrix.diagonal fun _ : Fin n => g)⁻¹.mulVec (fun _ => f) = fun _ => f / g := by
  have hi : (Matrix.diagonal fun _ : Fin n => g)⁻¹ = Matrix.diagonal fun _ => g⁻¹ := by
    apply Matrix.inv_eq_left_inv
    rw [Matrix.diagonal_mul_diagonal]
    simp [hg]
  rw [hi]
  refine ⟨by simp [Matrix.det_diagonal, hg], ?_⟩
  funext i
  rw [Matrix.mulVec_diagonal]
  field_simp

theorem newtonRun_step {F : Problem n} {x f g tol δ : ℝ} (hF : Uniform F x f g) (hg : g ≠ 0) (hf : tol < Real.sqrt n * |f|)
    (hd : Real.sqrt n * |f / g| ≤ δ) (k c : ℕ) :
    newtonRun δ F tol (k + 1) c (fun _ => x) = newtonRun δ F tol k (c + 1) (fun _ => x - f / g) := by
  obtain ⟨h1, h2⟩ := diag_step (n := n) (f := f) hg
  rw [newtonRun, hF]
  simp only [h2, len_const]
  rw [if_neg (not_le.2 hf), if_neg (by push Not; exact ⟨h1, hd⟩)]
  rfl

theorem newtonRun_stop {F : Problem n} {x f g tol δ : ℝ} (hF : Uniform F x f g) (hf : Real.sqrt n * |f| ≤ tol) (k c : ℕ) :
    newtonRun δ F tol (k + 1) c (fun _ => x) = ⟨true, fun _ => x, fun _ => x, c + 1⟩ := by
  rw [newtonRun, hF]
  simp only [len_const]
  rw [if_pos hf]

theorem newtonAfter_first {F : Problem n} {f g tol δ : ℝ} (hF : Uniform F 0 f g) (hg : g ≠ 0)
    (hd : Real.sqrt n * |f / g| ≤ δ) (k : ℕ) :
    newtonAfter δ n F tol k (fun _ => 0) = newtonRun δ F tol k 1 (fun _ => -(f / g)) := by
  obtain ⟨h1, h2⟩ := diag_step (n := n) (f := f) hg
  have hF' : F (fun _ => 0) = _ := hF
  unfold newtonAfter
  rw [hF']
  simp only [h2, len_const]
  rw [if_neg (by push Not; exact ⟨h1, hd⟩)]
  congr 1
  funext i
  simp

/-! ### The linear law -/

theorem sqrt_small (hn : n ≤ 16) : Real.sqrt n ≤ 4 := by
  rw [show (4 : ℝ) = Real.sqrt 16 by rw [show (16 : ℝ) = 4 ^ 2 by norm_num, Real.sqrt_sq (by norm_num)]]
  exact Real.sqrt_le_sqrt (by exact_mod_cast hn)

theorem sqrt_large (hn : 1 ≤ n) : 1 ≤ Real.sqrt n := by
  rw [Real.one_le_sqrt]
  exact_mod_cast hn

theorem newton_linear {F : Problem n} (hn4 : n ≤ 16) {w : ℝ} (hw : 0 < w)
    (hF : ∀ x, Uniform F x (x - (1 - x / w) / 60000) (1 + 1 / (60000 * w))) :
    ∃ y, newtonAfter 1 n F (1 / 10 ^ 10) 100 (fun _ => 0) = ⟨true, fun _ => y, fun _ => y, 2⟩ ∧
      y - (1 - y / w) / 60000 = 0 := by
  have hs := sqrt_small hn4
  have hs0 := Real.sqrt_nonneg (n : ℝ)
  have hG : 0 < 1 / (60000 * w) := by positivity
  set G := 1 + 1 / (60000 * w) with hGdef
  have h0 : Uniform F 0 (-(1 / 60000)) G := by simpa using hF 0
  have hG0 : G ≠ 0 := by linarith
  set y : ℝ := -(-(1 / 60000) / G) with hy
  have hyG : y * G = 1 / 60000 := by rw [hy]; field_simp
  have hy0 : y - (1 - y / w) / 60000 = 0 := by
    have : y - (1 - y / w) / 60000 = y * G - 1 / 60000 := by rw [hGdef]; field_simp; ring
    rw [this, hyG, sub_self]
  have habs : |(-(1 / 60000) / G : ℝ)| ≤ 1 / 60000 := by
    rw [abs_div, abs_neg, abs_of_pos (by norm_num : (0 : ℝ) < 1 / 60000), abs_of_pos (by linarith : 0 < G)]
    exact div_le_self (by norm_num) (by linarith)
  refine ⟨y, ?_, hy0⟩
  rw [newtonAfter_first h0 hG0 (by nlinarith [abs_nonneg (-(1 / 60000) / G : ℝ)])]
  refine newtonRun_stop (hF y) ?_ 99 1
  rw [hy0]
  simp

/-! ### The quadratic law -/

theorem newton_quadratic {F : Problem n} (hn : 1 ≤ n) (hn4 : n ≤ 16) {w : ℝ} (h1 : 6048 / 10 ^ 6 ≤ w) (h2 : w ≤ 6049 / 10 ^ 6)
    (hF : ∀ x ≤ w, Uniform F x (x - (1 - x / w) ^ 2 / 60000) (1 + (1 - x / w) / (30000 * w))) :
    ∃ y, newtonAfter 1 n F (1 / 10 ^ 10) 100 (fun _ => 0) = ⟨true, fun _ => y, fun _ => y, 3⟩ ∧ y ≤ w ∧
      |y - (1 - y / w) ^ 2 / 60000| ≤ 1 / 10 ^ 18 := by
  have hs := sqrt_small hn4
  have hs1 := sqrt_large hn
  have hw : 0 < w := by linarith
  have hG : 0 < 1 / (30000 * w) := by positivity
  have hG2 : 1 / (30000 * w) ≤ 1 / (30000 * (6048 / 10 ^ 6)) := by
    apply one_div_le_one_div_of_le <;> linarith
  set G := 1 + 1 / (30000 * w) with hGdef
  have hG0 : 0 < G := by linarith
  have h0 : Uniform F 0 (-(1 / 60000)) G := by
    have := hF 0 hw.le
    rwa [zero_div, sub_zero, one_pow, zero_sub, ← hGdef] at this
  set y : ℝ := -(-(1 / 60000) / G) with hy
  have hyG : y * G = 1 / 60000 := by rw [hy]; field_simp
  have hyp : 0 < y := by rw [hy]; have : 0 < (1 / 60000) / G := by positivity
                         rw [neg_div]; linarith
  have hyu : y ≤ 1 / 60000 := by nlinarith
  have hyl : 1657 / 10 ^ 8 ≤ y := by
    have : G ≤ 1 + 1 / (30000 * (6048 / 10 ^ 6)) := by linarith
    norm_num at this
    nlinarith
  set c : ℝ := 1 / (60000 * w ^ 2) with hc
  have hcl : 1 / (60000 * (6049 / 10 ^ 6) ^ 2) ≤ c := by
    apply one_div_le_one_div_of_le (by positivity)
    nlinarith
  have hcu : c ≤ 1 / (60000 * (6048 / 10 ^ 6) ^ 2) := by
    apply one_div_le_one_div_of_le (by norm_num)
    nlinarith
  norm_num at hcl hcu
  have hf1 : y - (1 - y / w) ^ 2 / 60000 = -(c * y ^ 2) := by
    have : y - (1 - y / w) ^ 2 / 60000 = y * G - 1 / 60000 - c * y ^ 2 := by rw [hGdef, hc]; field_simp; ring
    rw [this, hyG]
    ring
  have hyw : y ≤ w := by linarith
  have hq : 0 ≤ (1 - y / w) / (30000 * w) := by
    have : y / w ≤ 1 := (div_le_one hw).2 hyw
    exact div_nonneg (by linarith) (by positivity)
  have hU := hF y hyw
  rw [hf1] at hU
  set g : ℝ := 1 + (1 - y / w) / (30000 * w) with hg
  have hg1 : 1 ≤ g := by linarith
  have hfl : 12 / 10 ^ 11 ≤ c * y ^ 2 := by nlinarith
  have hfu : c * y ^ 2 ≤ 13 / 10 ^ 11 := by nlinarith
  have hd : |(-(c * y ^ 2) / g)| ≤ 13 / 10 ^ 11 := by
    rw [abs_div, abs_neg, abs_of_pos (by linarith : 0 < c * y ^ 2), abs_of_pos (by linarith : 0 < g)]
    exact (div_le_self (by linarith) hg1).trans hfu
  set z : ℝ := y - -(c * y ^ 2) / g with hz
  have hzw : z ≤ w := by
    have := (abs_le.1 hd).1
    linarith
  have hf2 : z - (1 - z / w) ^ 2 / 60000 = -(c * (-(c * y ^ 2) / g) ^ 2) := by
    have e1 : z - (1 - z / w) ^ 2 / 60000
        = (y - (1 - y / w) ^ 2 / 60000) + g * (z - y) - c * (z - y) ^ 2 := by
      rw [hg, hc]; field_simp; ring
    have e2 : g * (z - y) = c * y ^ 2 := by rw [hz]; field_simp; ring
    rw [e1, hf1, e2, show z - y = -(-(c * y ^ 2) / g) by rw [hz]; ring]
    ring
  have hf2b : |z - (1 - z / w) ^ 2 / 60000| ≤ 1 / 10 ^ 18 := by
    rw [hf2, abs_neg, abs_mul, abs_of_pos (by linarith : 0 < c), abs_pow]
    have := abs_nonneg (-(c * y ^ 2) / g)
    generalize |(-(c * y ^ 2) / g)| = d at *
    nlinarith
  refine ⟨z, ?_, hzw, hf2b⟩
  rw [newtonAfter_first h0 hG0.ne' ?_, newtonRun_step hU (by linarith) ?_ ?_ 99 1]
  · refine newtonRun_stop (hF z hzw) ?_ 98 2
    exact (mul_le_mul hs hf2b (abs_nonneg _) (by norm_num)).trans (by norm_num)
  · rw [abs_neg, abs_of_pos (by linarith : 0 < c * y ^ 2)]
    have := mul_le_mul hs1 hfl (by norm_num) (by linarith)
    linarith
  · exact (mul_le_mul hs hd (abs_nonneg _) (by norm_num)).trans (by norm_num)
  · rw [show |(-(1 / 60000) / G)| = y by rw [← abs_neg, ← hy, abs_of_pos hyp]]
    exact (mul_le_mul hs hyu hyp.le (by norm_num)).trans (by norm_num)

/-! ### The law of the dislocation density -/

theorem exp_second {t : ℝ} (h0 : 0 ≤ t) (h1 : t ≤ 1) :
    t ^ 2 / 2 - 2 / 9 * t ^ 3 ≤ Real.exp (-t) - 1 + t ∧ Real.exp (-t) - 1 + t ≤ t ^ 2 / 2 + 2 / 9 * t ^ 3 := by
  have h := Real.exp_bound (x := -t) (n := 3) (by rw [abs_neg, abs_of_nonneg h0]; exact h1) (by norm_num)
  simp only [Finset.sum_range_succ, Finset.sum_range_zero, Nat.factorial, abs_neg, abs_of_nonneg h0] at h
  norm_num at h
  rw [abs_le] at h
  constructor <;> nlinarith [h.1, h.2]

theorem prod_bounds {a x b c y d : ℝ} (ha : 0 ≤ a) (h1 : a ≤ x) (h2 : x ≤ b) (hc : 0 ≤ c) (h3 : c ≤ y) (h4 : y ≤ d) :
    a * c ≤ x * y ∧ x * y ≤ b * d :=
  ⟨mul_le_mul h1 h3 hc (ha.trans h1), mul_le_mul h2 h4 (hc.trans h3) (ha.trans (h1.trans h2))⟩

/-- the residual of the density in the test, as a function of the unknown -/
noncomputable def kmR (r x : ℝ) : ℝ := x - (200 * Real.exp (-(x / 2)) - 10 * r) / 120

/-- and its derivative -/
noncomputable def kmS (x : ℝ) : ℝ := 1 + 5 / 6 * Real.exp (-(x / 2))

/-- what is left of the residual after a Newton step -/
theorem kmR_next (r x : ℝ) {t : ℝ} (ht : kmR r x / kmS x = -(2 * t)) :
    kmR r (x - kmR r x / kmS x) = -(5 / 3 * Real.exp (-(x / 2)) * (Real.exp (-t) - 1 + t)) ∧
    Real.exp (-((x - kmR r x / kmS x) / 2)) = Real.exp (-(x / 2)) * Real.exp (-t) := by
  have hS : 0 < kmS x := by unfold kmS; positivity
  have hf : kmR r x = -(2 * t) * kmS x := (div_eq_iff hS.ne').1 ht
  have he : Real.exp (-((x - kmR r x / kmS x) / 2)) = Real.exp (-(x / 2)) * Real.exp (-t) := by
    rw [ht, ← Real.exp_add]
    congr 1
    ring
  refine ⟨?_, he⟩
  rw [kmR, he, ht]
  have e : x = kmR r x + (200 * Real.exp (-(x / 2)) - 10 * r) / 120 := by unfold kmR; ring
  rw [hf] at e
  unfold kmS at e
  linear_combination e

set_option maxHeartbeats 1600000 in
theorem newton_density {F : Problem 1} {r : ℝ} (h1 : 567 / 1000 ≤ r) (h2 : r ≤ 568 / 1000)
    (hF : ∀ x, Uniform F x (kmR r x) (kmS x)) :
    ∃ y, newtonAfter 1 1 F (1 / 10 ^ 10) 100 (fun _ => 0) = ⟨true, fun _ => y, fun _ => y, 5⟩ := by
  have hsq : Real.sqrt ((1 : ℕ) : ℝ) = 1 := by simp
  have hS : ∀ x, kmS x ≠ 0 := fun x => by
    have : 0 < kmS x := by unfold kmS; positivity
    exact this.ne'
  have key : ∀ x E a b e1 e2 : ℝ, Real.exp (-(x / 2)) = E → 0 < e1 → e1 ≤ E → E ≤ e2 → a ≤ -kmR r x → -kmR r x ≤ b →
      0 ≤ a → ∃ t, kmR r x / kmS x = -(2 * t) ∧ a / (1 + 5 / 6 * e2) / 2 ≤ t ∧ t ≤ b / (1 + 5 / 6 * e1) / 2 ∧ 0 ≤ t := by
    intro x E a b e1 e2 hE h00 hEl hEu ha hb ha0
    have h0 : 0 < E := h00.trans_le hEl
    have hk : kmS x = 1 + 5 / 6 * E := by unfold kmS; rw [hE]
    have hp : 0 < 1 + 5 / 6 * E := by positivity
    refine ⟨-kmR r x / (1 + 5 / 6 * E) / 2, ?_, ?_, ?_, ?_⟩
    · rw [hk]; ring
    · refine div_le_div_of_nonneg_right ?_ (by norm_num)
      exact (div_le_div_of_nonneg_left ha0 hp (by linarith)).trans (div_le_div_of_nonneg_right ha hp.le)
    · refine div_le_div_of_nonneg_right ?_ (by norm_num)
      exact (div_le_div_of_nonneg_right hb hp.le).trans (div_le_div_of_nonneg_left (by linarith) (by positivity) (by linarith))
    · exact div_nonneg (div_nonneg (by linarith) hp.le) (by norm_num)
  -- the first step
  have f0 : kmR r 0 = -((200 - 10 * r) / 120) := by unfold kmR; simp
  obtain ⟨t0, e0, a0, b0, p0⟩ := key 0 1 (1619 / 1000) (1620 / 1000) 1 1 (by simp) one_pos le_rfl le_rfl (by rw [f0]; linarith)
    (by rw [f0]; linarith) (by norm_num)
  norm_num at a0 b0
  have t0l : 441 / 1000 ≤ t0 := by linarith
  have t0u : t0 ≤ 442 / 1000 := by linarith
  obtain ⟨r1, E1⟩ := kmR_next r 0 e0
  obtain ⟨q1, q2⟩ := exp_second p0 (by linarith)
  set x1 := 0 - kmR r 0 / kmS 0 with hx1
  have z0 : Real.exp (-(0 / 2) : ℝ) = 1 := by simp
  rw [z0, one_mul] at E1
  rw [z0, mul_one] at r1
  have c0 : t0 ^ 2 ≤ (442 / 1000) ^ 2 ∧ (441 / 1000) ^ 2 ≤ t0 ^ 2 := ⟨pow_le_pow_left₀ p0 t0u 2, pow_le_pow_left₀ (by norm_num) t0l 2⟩
  have c1 : t0 ^ 3 ≤ (442 / 1000) ^ 3 := pow_le_pow_left₀ p0 t0u 3
  norm_num at c0 c1
  generalize hφ0 : Real.exp (-t0) = y0 at *
  have y0l : 63 / 100 ≤ y0 := by linarith
  have y0u : y0 ≤ 68 / 100 := by linarith
  -- the second step
  obtain ⟨t1, e1, a1, b1, p1⟩ := key x1 y0 (12 / 100) (20 / 100) (63 / 100) (68 / 100) E1 (by norm_num) y0l y0u (by rw [r1]; linarith)
    (by rw [r1]; linarith) (by norm_num)
  norm_num at a1 b1
  have t1l : 38 / 1000 ≤ t1 := by linarith
  have t1u : t1 ≤ 66 / 1000 := by linarith
  obtain ⟨r2, E2⟩ := kmR_next r x1 e1
  obtain ⟨q3, q4⟩ := exp_second p1 (by linarith)
  set x2 := x1 - kmR r x1 / kmS x1 with hx2
  rw [E1] at E2 r2
  have c2 : t1 ^ 2 ≤ (66 / 1000) ^ 2 ∧ (38 / 1000) ^ 2 ≤ t1 ^ 2 := ⟨pow_le_pow_left₀ p1 t1u 2, pow_le_pow_left₀ (by norm_num) t1l 2⟩
  have c3 : t1 ^ 3 ≤ (66 / 1000) ^ 3 := pow_le_pow_left₀ p1 t1u 3
  norm_num at c2 c3
  generalize hφ1 : Real.exp (-t1) = y1 at *
  have y1l : 9 / 10 ≤ y1 := by linarith
  have y1u : y1 ≤ 1 := by linarith
  set D1 := y1 - 1 + t1 with hD1
  have D1l : 6 / 10000 ≤ D1 := by linarith
  have D1u : D1 ≤ 23 / 10000 := by linarith
  set E' := y0 * y1 with hE'
  obtain ⟨E'l, E'u⟩ := prod_bounds (by norm_num) y0l y0u (by norm_num) y1l y1u
  obtain ⟨m1, m2⟩ := prod_bounds (by norm_num) y0l y0u (by norm_num) D1l D1u
  norm_num at E'l E'u m1 m2
  rw [← hE'] at E'l E'u
  -- the third step
  obtain ⟨t2, e2, a2, b2, p2⟩ := key x2 E' (6 / 10000) (28 / 10000) (1 / 2) 1 E2 (by norm_num) (by linarith) (by linarith)
    (by rw [r2]; linarith) (by rw [r2]; linarith) (by norm_num)
  norm_num at a2 b2
  have t2l : 1 / 10000 ≤ t2 := by linarith
  have t2u : t2 ≤ 14 / 10000 := by linarith
  obtain ⟨r3, E3⟩ := kmR_next r x2 e2
  obtain ⟨q5, q6⟩ := exp_second p2 (by linarith)
  set x3 := x2 - kmR r x2 / kmS x2 with hx3
  rw [E2] at E3 r3
  have c4 : t2 ^ 2 ≤ (14 / 10000) ^ 2 ∧ (1 / 10000) ^ 2 ≤ t2 ^ 2 := ⟨pow_le_pow_left₀ p2 t2u 2, pow_le_pow_left₀ (by norm_num) t2l 2⟩
  have c5 : t2 ^ 3 ≤ 14 / 10000 * t2 ^ 2 := by
    rw [pow_succ, mul_comm]
    exact mul_le_mul_of_nonneg_right t2u (sq_nonneg _)
  norm_num at c4
  generalize hφ2 : Real.exp (-t2) = y2 at *
  have y2l : 9 / 10 ≤ y2 := by linarith
  have y2u : y2 ≤ 1 := by linarith
  set D2 := y2 - 1 + t2 with hD2
  have D2l : 4 / 10 ^ 9 ≤ D2 := by norm_num; linarith
  have D2u : D2 ≤ 1 / 10 ^ 6 := by norm_num; linarith
  set E'' := E' * y2 with hE''
  obtain ⟨E''l, E''u⟩ := prod_bounds (by norm_num) E'l E'u (by norm_num) y2l y2u
  obtain ⟨m3, m4⟩ := prod_bounds (by norm_num) E'l E'u (by norm_num) D2l D2u
  norm_num at E''l E''u m3 m4
  rw [← hE''] at E''l E''u
  -- the fourth step
  obtain ⟨t3, e3, a3, b3, p3⟩ := key x3 E'' (3 / 10 ^ 9) (2 / 10 ^ 6) (1 / 2) 1 E3 (by norm_num) (by linarith) (by linarith)
    (by rw [r3]; norm_num; linarith) (by rw [r3]; norm_num; linarith) (by norm_num)
  norm_num at b3
  have t3u : t3 ≤ 1 / 10 ^ 6 := by norm_num; linarith
  obtain ⟨r4, E4⟩ := kmR_next r x3 e3
  obtain ⟨q7, q8⟩ := exp_second p3 (by norm_num at t3u ⊢; linarith)
  set x4 := x3 - kmR r x3 / kmS x3 with hx4
  rw [E3] at r4
  refine ⟨x4, ?_⟩
  have hx1' : -(kmR r 0 / kmS 0) = x1 := by rw [hx1]; ring
  rw [newtonAfter_first (hF 0) (hS 0) ?_, hx1', newtonRun_step (hF x1) (hS x1) ?_ ?_ 99 1, ← hx2,
    newtonRun_step (hF x2) (hS x2) ?_ ?_ 98 2, ← hx3, newtonRun_step (hF x3) (hS x3) ?_ ?_ 97 3, ← hx4]
  · refine newtonRun_stop (hF x4) ?_ 96 4
    rw [hsq, one_mul, r4, abs_neg, abs_le]
    have E0 : 0 ≤ E'' := by linarith
    generalize Real.exp (-t3) - 1 + t3 = D3 at q7 q8 ⊢
    have hD3 : D3 ≤ 1 / 10 ^ 12 := by
      have : t3 ^ 2 ≤ (1 / 10 ^ 6) ^ 2 := pow_le_pow_left₀ p3 t3u 2
      have h3 : t3 ^ 3 ≤ (1 / 10 ^ 6) ^ 3 := pow_le_pow_left₀ p3 t3u 3
      norm_num at this h3 ⊢
      linarith
    have hD3' : 0 ≤ D3 := by
      refine le_trans ?_ q7
      have : t3 ^ 3 ≤ 1 * t3 ^ 2 := by
        rw [pow_succ, mul_comm]
        exact mul_le_mul_of_nonneg_right (by norm_num at t3u ⊢; linarith) (sq_nonneg _)
      linarith [sq_nonneg t3]
    constructor
    · have : 0 ≤ 5 / 3 * E'' * D3 := by positivity
      norm_num at this ⊢; linarith
    · obtain ⟨-, m5⟩ := prod_bounds (by norm_num) E''l E''u le_rfl hD3' hD3
      norm_num at m5 ⊢; linarith
  · rw [hsq, one_mul, r3, abs_neg, abs_of_nonneg (by positivity)]
    norm_num; linarith
  · rw [hsq, one_mul, e3, abs_neg, abs_of_nonneg (by positivity)]
    norm_num at t3u ⊢; linarith
  · rw [hsq, one_mul, r2, abs_neg, abs_of_nonneg (by positivity)]
    norm_num; linarith
  · rw [hsq, one_mul, e2, abs_neg, abs_of_nonneg (by positivity)]
    linarith
  · rw [hsq, one_mul, r1, abs_neg, abs_of_nonneg (by linarith)]
    norm_num; linarith
  · rw [hsq, one_mul, e1, abs_neg, abs_of_nonneg (by positivity)]
    linarith
  · rw [hsq, one_mul, e0, abs_neg, abs_of_nonneg (by positivity)]
    linarith

end Ecm.Props
