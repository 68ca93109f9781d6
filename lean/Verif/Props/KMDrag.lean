/-
  C30: the derivative that is reported for the drag limited rate at a small overstress
  (ECMech_kinetics_KMBalD.h:446-461), and C40: the asserts on exponents that the template takes to be one.
-/
import Verif.Props.KMBalD
import Verif.Props.Params

namespace Ecm.Props
open Ecm Spec Classical

/-- the drag limited rate as computed, as a function of the overstress (zero where evalGdot returns early) -/
noncomputable def dragOf {nV : ℕ} (k : KMBalD nV) (gamR s : ℝ) : ℝ :=
  ((k.drag gamR (s / k.wrD)).map Prod.fst).getD 0

/-- C30: where the exponential is replaced by its argument, the reported derivative of the drag limited
    rate is the derivative of the rate that is computed times one minus the argument: too small by a
    relative error below 1e-8, and never equal to it.  It is closer, to second order, to the derivative
    of the exponential law that was replaced. -/
theorem C30_drag_small {nV : ℕ} (k : KMBalD nV) (gamR s : ℝ) (hR : 0 < gamR) (hD : 0 < k.wrD)
    (h1 : gamRatioMin < s / k.wrD) (h2 : s / k.wrD < idpEpsSqrt) :
    ∃ r d, k.drag gamR (s / k.wrD) = some (r, d) ∧
      HasDerivAt (dragOf k gamR) (gamR / k.wrD) s ∧
      d = gamR / k.wrD * (1 - s / k.wrD) ∧ |d - gamR / k.wrD| ≤ 1 / 10 ^ 8 * (gamR / k.wrD) ∧
      ¬ HasDerivAt (dragOf k gamR) d s ∧
      HasDerivAt (fun t => gamR * (1 - Real.exp (-(t / k.wrD))))
        (gamR / k.wrD * Real.exp (-(s / k.wrD))) s ∧
      |d - gamR / k.wrD * Real.exp (-(s / k.wrD))| ≤ (s / k.wrD) ^ 2 * (gamR / k.wrD) := by
  set x := s / k.wrD with hx
  have hx0 : 0 < x := lt_trans (by unfold gamRatioMin; positivity) h1
  have hq : 0 < gamR / k.wrD := by positivity
  have hd : k.drag gamR x = some (gamR * x, gamR * (1 - x) / k.wrD) := by
    unfold KMBalD.drag
    rw [if_neg (not_lt.2 h1.le), if_pos h2]
  have hev : dragOf k gamR =ᶠ[nhds s] fun t => gamR * (t / k.wrD) := by
    have hc : ContinuousAt (fun t : ℝ => t / k.wrD) s := by fun_prop
    filter_upwards [hc.eventually (lt_mem_nhds h1), hc.eventually (gt_mem_nhds h2)] with t ht1 ht2
    unfold dragOf KMBalD.drag
    rw [if_neg (not_lt.2 ht1.le), if_pos ht2]; rfl
  have hderiv : HasDerivAt (dragOf k gamR) (gamR / k.wrD) s := by
    refine HasDerivAt.congr_of_eventuallyEq ?_ hev
    have := ((hasDerivAt_id s).div_const k.wrD).const_mul gamR
    simpa [div_eq_mul_inv] using this
  have hdd : gamR * (1 - x) / k.wrD = gamR / k.wrD * (1 - x) := by ring
  have hdiff : gamR * (1 - x) / k.wrD - gamR / k.wrD = -(x * (gamR / k.wrD)) := by ring
  refine ⟨_, _, hd, hderiv, hdd, ?_, fun hc => ?_, ?_, ?_⟩
  · rw [hdiff, abs_neg, abs_of_pos (by positivity)]
    unfold idpEpsSqrt at h2
    exact mul_le_mul_of_nonneg_right h2.le hq.le
  · have := hderiv.unique hc
    have : x * (gamR / k.wrD) = 0 := by linarith
    exact absurd this (by positivity)
  · have h := (((hasDerivAt_id s).div_const k.wrD).neg.exp.const_sub 1).const_mul gamR
    refine h.congr_deriv ?_
    show gamR * -(Real.exp (-(s / k.wrD)) * -(1 / k.wrD)) = gamR / k.wrD * Real.exp (-(s / k.wrD))
    ring
  · have e1 := Real.add_one_le_exp (-x)
    have hx1 : x < 1 := h2.trans (by unfold idpEpsSqrt; norm_num)
    have e2 : Real.exp (-x) ≤ 1 - x + x ^ 2 := by
      have := Real.abs_exp_sub_one_sub_id_le (x := -x) (by rw [abs_neg, abs_of_pos hx0]; exact hx1.le)
      have := (abs_le.1 this).2
      nlinarith
    rw [hdd, ← mul_sub, abs_mul, abs_of_pos hq, mul_comm]
    refine mul_le_mul_of_nonneg_right ?_ hq.le
    rw [abs_le]; constructor <;> nlinarith

example : gamRatioMin < (1 / 10 ^ 9 : ℝ) / kmExample.wrD ∧ (1 / 10 ^ 9 : ℝ) / kmExample.wrD < idpEpsSqrt ∧
    (0 : ℝ) < 1 ∧ 0 < kmExample.wrD := by
  have : kmExample.wrD = 1 := rfl
  rw [this]; unfold gamRatioMin idpEpsSqrt; norm_num

/-- C40 (dislocation density kinetics): a vector of the right length with an exponent different from one,
    where the template takes it to be one, is not rejected: it runs into an assert -/
theorem C40_km_assert (withGA pOne qOne perSS : Bool) (nV : ℕ) (l : List ℝ) (h : l.length = 13 + 3 * nV)
    (hpq : (pOne = true ∧ l.getD (3 + nV) 0 ≠ 1) ∨ (qOne = true ∧ l.getD (4 + nV) 0 ≠ 1)) :
    KMBalD.setParams withGA pOne qOne perSS nV l = .undef "assert(_p == one)" ∨
    KMBalD.setParams withGA pOne qOne perSS nV l = .undef "assert(_q == one)" := by
  obtain ⟨k, rfl, rfl, rfl, rfl, rfl⟩ := KMBalD.exists_getParams withGA pOne qOne perSS nV l
    (by rw [h, KMBalD.nParams]; omega)
  rw [KMBalD.setParams_getParams]
  have ep : k.getParams.getD (3 + nV) 0 = k.p := by
    simp only [KMBalD.getParams, List.append_assoc, List.getD_eq_getElem?_getD]
    rw [List.getElem?_append_right (by simp; omega), List.getElem?_append_right (by simp; omega)]
    simp only [List.length_cons, List.length_nil, List.length_ofFn]
    rw [show 3 + nV - (0 + 1 + 1) - nV = 1 by omega]; rfl
  have eq : k.getParams.getD (4 + nV) 0 = k.q := by
    simp only [KMBalD.getParams, List.append_assoc, List.getD_eq_getElem?_getD]
    rw [List.getElem?_append_right (by simp; omega), List.getElem?_append_right (by simp; omega)]
    simp only [List.length_cons, List.length_nil, List.length_ofFn]
    rw [show 4 + nV - (0 + 1 + 1) - nV = 2 by omega]; rfl
  rw [ep, eq] at hpq
  by_cases hp : k.pOne = true → k.p = 1
  · rw [if_pos hp]
    rw [if_neg (by tauto)]
    exact Or.inr rfl
  · rw [if_neg hp]; exact Or.inl rfl

example : ∃ l : List ℝ, l.length = 13 + 3 * 1 ∧ l.getD (3 + 1) 0 ≠ 1 := ⟨List.replicate 16 2, by simp, by simp⟩

end Ecm.Props
