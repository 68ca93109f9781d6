/- Error bounds for the pieces of the residual of the implicit step in floating-point arithmetic. -/
import Verif.Lemmas.ResidRound

namespace Ecm
open Spec Props

namespace Flt
variable {F : Flt}

theorem Rel.pos {a x k : ℝ} (h : F.Rel a x k) (hx : 0 < x) (hk : k ≤ 1000) : 0 < a := by
  unfold Rel at h
  rw [abs_of_pos hx] at h
  have := (abs_le.1 h).1
  have hu := F.u_nonneg; have hu1 := F.u_le
  have h1 : k * F.u ≤ 0.001 := by nlinarith
  have := mul_le_mul_of_nonneg_right h1 hx.le
  linarith

/-- reciprocal before rounding -/
theorem Rel.inv {a x k : ℝ} (h : F.Rel a x k) (hx : 0 < x) (hk0 : 0 ≤ k) (hk : k ≤ 1000) :
    F.Rel (1 / a) (1 / x) (1.002 * k) := by
  have ha := h.pos hx hk
  have hu := F.u_nonneg; have hu1 := F.u_le
  unfold Rel at *
  have h1 : 1 / a - 1 / x = (x - a) / x * (1 / a) := by field_simp
  have h2 : x ≤ 1.002 * a := by
    rw [abs_of_pos hx] at h
    have := (abs_le.1 h).1
    have h1 : k * F.u ≤ 0.001 := by nlinarith
    have := mul_le_mul_of_nonneg_right h1 hx.le
    linarith
  have h3 : 1 / a ≤ 1.002 * (1 / x) := by
    rw [mul_one_div, div_le_div_iff₀ ha hx]; linarith
  rw [h1, abs_mul, abs_div, abs_sub_comm, abs_of_pos hx, abs_of_pos (by positivity : 0 < 1 / a),
    abs_of_pos (by positivity : 0 < 1 / x)]
  rw [abs_of_pos hx] at h
  have h4 : |a - x| / x ≤ k * F.u := by rw [div_le_iff₀ hx]; exact h
  have := mul_le_mul h4 h3 (by positivity) (by positivity)
  refine this.trans (le_of_eq ?_)
  ring

theorem Rel.er {a x k m : ℝ} (h : F.Rel a x k) (hk0 : 0 ≤ k) (hm : |x| ≤ m) : F.Er a x (k * m) m := by
  refine ⟨hm, le_trans h ?_⟩
  have hu := F.u_nonneg
  have := mul_le_mul (mul_le_mul_of_nonneg_left F.u_le_w hk0) hm (abs_nonneg _)
    (mul_nonneg hk0 F.w_pos.le)
  refine this.trans (le_of_eq (by ring))

theorem Rel.round' {a x k : ℝ} (h : F.Rel a x k) (hk0 : 0 ≤ k) (hk : k ≤ 1000) (hx : Pw x 190) :
    F.Rel (F.fl a) x (k + 1.01) := by
  have e : |x| = x := abs_of_pos hx.pos
  exact h.round hk0 hk (by rw [e]; exact hx.1) (by
    rw [e]; exact hx.2.trans (pow_le_pow_right₀ (by norm_num) (by norm_num)))

namespace Run
variable {n : ℕ} (R : Run n)

theorem aV_size (h : 1 / 2 ≤ R.P.detV ∧ R.P.detV ≤ 2) : 0.79 ≤ R.P.aV ∧ R.P.aV ≤ 1.27 := by
  have hv : 0 < R.P.detV := by linarith [h.1]
  have h3 := R.P.aV_cube hv
  have h0 := R.P.aV_pos hv
  constructor
  · by_contra hc
    have := pow_lt_pow_left₀ (not_le.1 hc) h0.le (n := 3) (by norm_num)
    rw [h3] at this
    norm_num at this
    linarith [h.1]
  · by_contra hc
    have := pow_lt_pow_left₀ (not_le.1 hc) (by norm_num) (n := 3) (by norm_num)
    rw [h3] at this
    norm_num at this
    linarith [h.2]

theorem aVri_size (h : 1 / 2 ≤ R.P.detV ∧ R.P.detV ≤ 2) : 0.7 ≤ R.P.aVri ∧ R.P.aVri ≤ 1.3 := by
  obtain ⟨a1, a2⟩ := R.aV_size h
  have a0 : 0 < R.P.aV := by linarith
  unfold Updst.aVri
  constructor
  · rw [le_div_iff₀ a0]; linarith
  · rw [div_le_iff₀ a0]; linarith

theorem third_rel (F : Flt) : |F.fl (1 / 3) - 1 / 3| ≤ 0.34 * F.u := by
  have := Rel.round' (F := F) (Rel.refl (1 / 3)) le_rfl (by norm_num) ⟨by norm_num, by norm_num⟩
  unfold Rel at this
  rw [abs_of_pos (by norm_num : (0:ℝ) < 1 / 3)] at this
  have hu := F.u_nonneg
  linarith

theorem aV_rel (L : Libm F) (h : 1 / 2 ≤ R.P.detV ∧ R.P.detV ≤ 2) : F.Rel (R.aV L) R.P.aV 2.4 := by
  have hu := F.u_nonneg; have hu1 := F.u_le
  have hv : 0 < R.P.detV := by linarith [h.1]
  obtain ⟨a1, a2⟩ := R.aV_size h
  have a0 : 0 < R.P.aV := by linarith
  have ht := third_rel F
  set y := F.fl (1 / 3) with hy
  have hlog : |Real.log R.P.detV| ≤ 1 := by
    rw [abs_le]
    constructor
    · have := Real.one_sub_inv_le_log_of_pos hv
      have h2 : R.P.detV⁻¹ ≤ 2 := by
        rw [inv_eq_one_div, div_le_iff₀ hv]; linarith [h.1]
      linarith
    · have := Real.log_le_sub_one_of_pos hv
      linarith [h.2]
  have e1 : R.P.detV ^ y = R.P.aV * Real.exp (Real.log R.P.detV * (y - 1 / 3)) := by
    unfold Updst.aV
    rw [Real.rpow_def_of_pos hv, Real.rpow_def_of_pos hv, ← Real.exp_add]
    congr 1; ring
  have d1 : |Real.log R.P.detV * (y - 1 / 3)| ≤ 0.34 * F.u := by
    rw [abs_mul]
    have := mul_le_mul hlog ht (abs_nonneg _) (by norm_num)
    linarith
  have d2 : |Real.exp (Real.log R.P.detV * (y - 1 / 3)) - 1| ≤ 0.35 * F.u := by
    set z := Real.log R.P.detV * (y - 1 / 3) with hz
    have h2 := Real.abs_exp_sub_one_sub_id_le (x := z) (by linarith)
    have h3 : z ^ 2 ≤ 0.01 * F.u := by
      rw [← sq_abs]
      have := mul_le_mul d1 d1 (abs_nonneg _) (by positivity)
      nlinarith
    have := abs_add_le (Real.exp z - 1 - z) z
    rw [sub_add_cancel] at this
    linarith
  set w := Real.exp (Real.log R.P.detV * (y - 1 / 3)) with hw
  have w1 := abs_le.1 d2
  have hs : 0.7 ≤ R.P.detV ^ y ∧ R.P.detV ^ y ≤ 1.3 := by
    rw [e1]
    constructor
    · have : 0.79 * 0.99 ≤ R.P.aV * w := mul_le_mul a1 (by linarith) (by norm_num) a0.le
      linarith
    · have : R.P.aV * w ≤ 1.27 * 1.01 := mul_le_mul a2 (by linarith) (by linarith) (by norm_num)
      linarith
  have hp := L.pow_err R.P.detV y hv (le_trans (by norm_num) hs.1) (hs.2.trans (by norm_num))
  unfold Rel
  rw [abs_of_pos a0]
  have t := abs_add_le (L.powF R.P.detV y - R.P.detV ^ y) (R.P.detV ^ y - R.P.aV)
  rw [sub_add_sub_cancel] at t
  have t1 : |R.P.detV ^ y - R.P.aV| ≤ 0.35 * F.u * R.P.aV := by
    rw [e1, show R.P.aV * w - R.P.aV = (w - 1) * R.P.aV by ring, abs_mul, abs_of_pos a0]
    exact mul_le_mul_of_nonneg_right d2 a0.le
  have t2 : 2 * F.u * R.P.detV ^ y ≤ 2.04 * F.u * R.P.aV := by
    rw [e1]
    have : R.P.aV * w ≤ R.P.aV * 1.01 := mul_le_mul_of_nonneg_left (by linarith) a0.le
    have := mul_le_mul_of_nonneg_left this (by positivity : 0 ≤ 2 * F.u)
    have : 0 ≤ F.u * R.P.aV := by positivity
    linarith
  show |L.powF R.P.detV y - R.P.aV| ≤ _
  have : 0 ≤ F.u * R.P.aV := by positivity
  linarith

theorem aVri_rel (L : Libm F) (h : 1 / 2 ≤ R.P.detV ∧ R.P.detV ≤ 2) : F.Rel (R.aVri L) R.P.aVri 3.5 := by
  obtain ⟨a1, a2⟩ := R.aV_size h
  have a0 : 0 < R.P.aV := by linarith
  have hs := R.aVri_size h
  have h1 := (R.aV_rel L h).inv a0 (by norm_num) (by norm_num)
  refine Rel.mono (h1.round' (by norm_num) (by norm_num) ⟨le_trans (by norm_num) hs.1, hs.2.trans (by norm_num)⟩)
    (by norm_num)

theorem dtRi_rel (F : Flt) (h : Pw R.P.dt 30) : F.Rel (R.dtRi F) R.P.dtRi 1.01 := by
  have := Rel.round' (F := F) (Rel.refl (1 / R.P.dt)) le_rfl (by norm_num) (h.inv.mono (by norm_num))
  exact this.mono (by norm_num)

end Run

theorem sumSq_eq_dot (F : Flt) : ∀ {n : ℕ} (v : Vec n), F.sumSq v = F.dot v v
  | 0, _ => rfl
  | n + 1, v => by
    simp only [sumSq, Flt.dot]
    rw [sumSq_eq_dot F (fun i => v i.castSucc)]

/-- the computed length of a vector of five components -/
theorem norm5_rel (F : Flt) (v : Vec 5) (h : Pw (vecNorm v) 60) : F.Rel (F.norm v) (vecNorm v) 4.5 := by
  have hu := F.u_nonneg; have hu1 := F.u_le
  have v0 := h.pos
  have hS : ∑ i, |v i * v i| = vecNorm v ^ 2 := by
    rw [vecNorm_sq]
    exact Finset.sum_congr rfl fun i _ => by rw [abs_mul_self, sq]
  have hS2 : ∑ i, v i * v i = vecNorm v ^ 2 := by
    rw [vecNorm_sq]
    exact Finset.sum_congr rfl fun i _ => by rw [sq]
  have hp : Pw (vecNorm v ^ 2) 120 := by rw [sq]; exact h.mul h
  have hd := F.dot_err v v (by norm_num) (by rw [hS]; exact hp.2.trans (by norm_num))
  rw [hS, hS2] at hd
  have hη := F.η_mul (hp.mono (by norm_num : 120 ≤ 190)).1
  have s0 := hp.pos
  have hd2 : |F.dot v v - vecNorm v ^ 2| ≤ 6.61 * F.u * vecNorm v ^ 2 := by
    refine hd.trans ?_
    have : 0 ≤ F.u * vecNorm v ^ 2 := by positivity
    push_cast
    linarith
  set S := F.dot v v with hSd
  set m := vecNorm v with hm
  have hS1 := abs_le.1 hd2
  have um : F.u * m ^ 2 ≤ 1 / 10 ^ 6 * m ^ 2 := mul_le_mul_of_nonneg_right hu1 s0.le
  have Sp : 0 ≤ S := by nlinarith
  -- the square root
  have hr : F.Rel (Real.sqrt S) m 3.4 := by
    unfold Rel
    rw [abs_of_pos v0, abs_le]
    have um0 : 0 ≤ F.u * m := by positivity
    have um1 : F.u * m ≤ 1 / 10 ^ 6 * m := mul_le_mul_of_nonneg_right hu1 v0.le
    have q : (3.4 * F.u * m) ^ 2 ≤ 0.1 * (F.u * m ^ 2) := by
      have e : (3.4 * F.u * m) ^ 2 = 3.4 * 3.4 * (F.u * (F.u * m ^ 2)) := by ring
      have : F.u * (F.u * m ^ 2) ≤ 1 / 10 ^ 6 * (F.u * m ^ 2) := mul_le_mul_of_nonneg_right hu1 (by positivity)
      rw [e]
      have : 0 ≤ F.u * m ^ 2 := by positivity
      linarith
    constructor
    · have : (m - 3.4 * F.u * m) ≤ Real.sqrt S := by
        refine Real.le_sqrt_of_sq_le ?_
        have e : (m - 3.4 * F.u * m) ^ 2 = m ^ 2 - 6.8 * (F.u * m ^ 2) + (3.4 * F.u * m) ^ 2 := by ring
        rw [e]
        linarith
      linarith
    · have : Real.sqrt S ≤ m + 3.4 * F.u * m := by
        refine Real.sqrt_le_iff.2 ⟨by positivity, ?_⟩
        have e : (m + 3.4 * F.u * m) ^ 2 = m ^ 2 + 6.8 * (F.u * m ^ 2) + (3.4 * F.u * m) ^ 2 := by ring
        rw [e]
        have : 0 ≤ F.u * m ^ 2 := by positivity
        have : 0 ≤ (3.4 * F.u * m) ^ 2 := by positivity
        linarith
      linarith
  unfold Flt.norm
  rw [sumSq_eq_dot]
  exact Rel.mono (hr.round' (by norm_num) (by norm_num) (h.mono (by norm_num))) (by norm_num)

end Flt
end Ecm
