/- Helper lemmas for C80: the sign of the slope reported by the dislocation kinetics. -/
import Verif.Lemmas.KMBalD
import Mathlib.Analysis.Convex.SpecificFunctions.Basic
import Mathlib.Analysis.Complex.ExponentialBounds

namespace Ecm
namespace KMBalD
variable {nV : ℕ} (k : KMBalD nV)

theorem drag_slope {gamR x r d : ℝ} (hR : 0 < gamR) (hD : 0 < k.wrD) (h : k.drag gamR x = some (r, d)) : 0 ≤ d := by
  unfold drag at h
  split_ifs at h with h1 h2
  · simp only [Option.some.injEq, Prod.mk.injEq] at h
    have h1' : idpEpsSqrt ≤ 1 := by unfold idpEpsSqrt; norm_num
    rw [← h.2]
    have : 0 ≤ 1 - x := by linarith
    positivity
  · simp only [Option.some.injEq, Prod.mk.injEq] at h
    rw [← h.2]
    positivity

/-- the reported slope is not negative if the slope of the activated rate is not, with the power-law part added
    where it is counted -/
theorem sel_slope_drag {gamW gamR g ct xn xnn tMin tMax tau : ℝ} (hR : 0 < gamR) (hD : 0 < k.wrD)
    (hth : ∀ gw dgw dgwg, k.thermal gamW (ct * k.muRef) (if k.withGA then 1 / k.tauA else 1 / g)
        (if k.withGA then g else k.tauA) tau = some (gw, dgw, dgwg) →
      gamRatioMin ≤ (|tau| - (if k.withGA then g else k.tauA)) / k.wrD →
      0 ≤ if tMin < max 0 (|tau| - if k.withGA then g else k.tauA) * (if k.withGA then 1 / k.tauA else 1 / g) then
        dgw + gamW * 10 * Real.exp (xn * Real.log (max 0 (|tau| - if k.withGA then g else k.tauA)
          * (if k.withGA then 1 / k.tauA else 1 / g))) * xnn * (if k.withGA then 1 / k.tauA else 1 / g) else dgw) :
    0 ≤ (k.evalGdotSel gamW gamR g ct xn xnn tMin tMax tau).dtau := by
  simp only [evalGdotSel]
  generalize hgi : (if k.withGA then 1 / k.tauA else 1 / g) = gI at hth ⊢
  generalize hga : (if k.withGA then g else k.tauA) = gAth at hth ⊢
  by_cases h0 : k.withGA = false ∧ tau = 0
  · rw [if_pos h0]
  · rw [if_neg h0]
    generalize hdr : k.drag gamR ((|tau| - gAth) / k.wrD) = dr
    cases dr with
    | none => exact le_rfl
    | some rd =>
      obtain ⟨r, d⟩ := rd
      have hd := k.drag_slope hR hD hdr
      obtain ⟨hx, -, -, -⟩ := k.drag_some hR hdr
      simp only
      by_cases h1 : tMax < max 0 (|tau| - gAth) * gI
      · simp only [if_pos h1]
        exact hd
      · simp only [if_neg h1]
        generalize hthv : k.thermal gamW (ct * k.muRef) gI gAth tau = th
        cases th with
        | none => exact le_rfl
        | some w =>
          obtain ⟨gw, dgw, dgwg⟩ := w
          have := hth gw dgw dgwg hthv hx
          simp only
          refine mul_nonneg (mul_self_nonneg _) (add_nonneg (mul_nonneg this ?_) (mul_nonneg hd ?_))
          · exact one_div_nonneg.2 (mul_self_nonneg _)
          · exact one_div_nonneg.2 (mul_self_nonneg _)

/-- the reported slope is not negative if the slope of the activated rate is not, with the power-law part added
    where it is counted -/
theorem sel_slope {gamW gamR g ct xn xnn tMin tMax tau : ℝ} (hR : 0 < gamR) (hD : 0 < k.wrD)
    (hth : ∀ gw dgw dgwg, k.thermal gamW (ct * k.muRef) (if k.withGA then 1 / k.tauA else 1 / g)
        (if k.withGA then g else k.tauA) tau = some (gw, dgw, dgwg) →
      0 < |tau| - (if k.withGA then g else k.tauA) →
      0 ≤ if tMin < max 0 (|tau| - if k.withGA then g else k.tauA) * (if k.withGA then 1 / k.tauA else 1 / g) then
        dgw + gamW * 10 * Real.exp (xn * Real.log (max 0 (|tau| - if k.withGA then g else k.tauA)
          * (if k.withGA then 1 / k.tauA else 1 / g))) * xnn * (if k.withGA then 1 / k.tauA else 1 / g) else dgw) :
    0 ≤ (k.evalGdotSel gamW gamR g ct xn xnn tMin tMax tau).dtau :=
  k.sel_slope_drag hR hD fun gw dgw dgwg h hx => hth gw dgw dgwg h (by
    have := gamRatioMin_pos.trans_le hx
    rwa [lt_div_iff₀ hD, zero_mul] at this)

theorem mtsDG_snd_nonneg {cE d t : ℝ} (hc : 0 ≤ cE) (hd : 0 ≤ d) (hp : 0 ≤ k.p) (hq : 0 ≤ k.q) :
    0 ≤ (k.mtsDG cE d t).2 := by
  have h1 : 0 ≤ (if k.pOne then cE * d else if |t| < idpTinySqrt then cE * d * 10 ^ 10
      else cE * d * k.p * k.pFunc t / t) := by
    split_ifs with h1 h2
    · positivity
    · positivity
    · rw [mul_div_assoc]
      refine mul_nonneg (by positivity) ?_
      unfold pFunc copysign
      rw [if_neg h1, if_neg h2]
      have := Real.rpow_nonneg (abs_nonneg t) k.p
      split_ifs with h3
      · exact div_nonneg_of_nonpos (by rw [abs_of_nonneg this]; linarith) h3.le
      · exact div_nonneg (abs_nonneg _) (not_lt.1 h3)
  simp only [mtsDG]
  split_ifs at h1 ⊢ with h2 h3
  all_goals first
    | exact le_rfl
    | exact h1
    | (simp only
       have := Real.rpow_nonneg (abs_nonneg (1 - k.pFunc t)) k.q
       positivity)

/-- without jumps against the stress the slope of the activated rate is not negative -/
theorem thermal_slope_cold {gamW cE gI gAth tau gw dgw dgwg : ℝ} (hW : 0 ≤ gamW) (hc : 0 ≤ cE) (hg : 0 ≤ gI)
    (hp : 0 ≤ k.p) (hq : 0 ≤ k.q)
    (hb : (k.mtsDG cE gI ((-|tau| - gAth) * gI)).1 ≤ lnGamRatioMin)
    (h : k.thermal gamW cE gI gAth tau = some (gw, dgw, dgwg)) : 0 ≤ dgw := by
  simp only [thermal, if_neg (not_lt.2 hb)] at h
  split_ifs at h with h1
  simp only [Option.some.injEq, Prod.mk.injEq] at h
  rw [← h.2.1]
  have := k.mtsDG_snd_nonneg (t := (|tau| - gAth) * gI) hc hg hp hq
  positivity

/-- with a strong barrier there are no jumps against the stress -/
theorem no_back {cE d t : ℝ} (hp : 0 < k.p) (hq : 0 < k.q) (hc : 13816 / 100 ≤ cE) (ht : t ≤ 0) :
    (k.mtsDG cE d t).1 ≤ lnGamRatioMin := by
  rw [mtsDG_fst]
  have h0 : k.pFunc t ≤ 0 := by
    have := k.pFunc_mono hp ht
    have e : k.pFunc 0 = 0 := by simp [pFunc, idpTinySqrt_pos]
    rwa [e] at this
  have h1 : 1 ≤ k.qPow (1 - k.pFunc t) := by
    have hu : 1 ≤ 1 - k.pFunc t := by linarith
    unfold qPow
    rw [if_neg (by unfold idpTinySqrt; push Not; refine le_trans ?_ hu; norm_num)]
    split_ifs
    · exact hu
    · exact Real.one_le_rpow hu hq.le
  unfold lnGamRatioMin
  nlinarith

/-- linear barrier: jumps against the stress do not turn the slope -/
theorem thermal_slope_linear {gamW cE gI gAth tau gw dgw dgwg : ℝ} (hp1 : k.pOne = true) (hq1 : k.qOne = true)
    (hW : 0 < gamW) (hc : 0 ≤ cE) (hg : 0 < gI) (hA : 0 ≤ gAth) (ht : 0 < |tau| - gAth)
    (h : k.thermal gamW cE gI gAth tau = some (gw, dgw, dgwg)) :
    0 ≤ dgw ∨ (1 - 1 / 10 ^ 90 < (|tau| - gAth) * gI ∧ -(gamW * gI) ≤ dgw) := by
  have hm : ∀ t, k.mtsDG cE gI t = if 1 - t < idpTinySqrt then (0, 0) else (-cE * (1 - t), cE * gI) := by
    intro t
    simp [mtsDG, hp1, hq1, pFunc]
  set t := (|tau| - gAth) * gI with htd
  set tm := (-|tau| - gAth) * gI with htm
  have htp : 0 < t := mul_pos ht hg
  have htmn : tm ≤ -t := by
    rw [htm, htd]; nlinarith
  have hmb : k.mtsDG cE gI tm = (-cE * (1 - tm), cE * gI) := by
    rw [hm, if_neg]
    have : idpTinySqrt ≤ 1 := by unfold idpTinySqrt; norm_num
    linarith
  by_cases hl : 1 - t < idpTinySqrt
  · right
    refine ⟨by unfold idpTinySqrt at hl; norm_num at hl ⊢; linarith, ?_⟩
    simp only [thermal, ← htd, ← htm, hmb, hm t, if_pos hl] at h
    have hle : cE * gI * (gamW * Real.exp (-cE * (1 - tm))) ≤ gamW * gI := by
      have h1 : cE * Real.exp (-cE * (1 - tm)) ≤ 1 := by
        have h2 : Real.exp (-cE * (1 - tm)) ≤ Real.exp (-cE) := Real.exp_le_exp.2 (by nlinarith)
        have h3 : cE * Real.exp (-cE) ≤ 1 := by
          have := Real.add_one_le_exp cE
          rw [Real.exp_neg, ← div_eq_mul_inv, div_le_one (Real.exp_pos _)]
          linarith
        exact (mul_le_mul_of_nonneg_left h2 hc).trans h3
      have := mul_le_mul_of_nonneg_left h1 (mul_pos hW hg).le
      linarith
    have hgg : 0 < gamW * gI := mul_pos hW hg
    split_ifs at h
    · simp only [Option.some.injEq, Prod.mk.injEq] at h
      rw [← h.2.1]
      linarith
    · simp only [Option.some.injEq, Prod.mk.injEq] at h
      rw [← h.2.1]
      linarith
  · left
    simp only [thermal, ← htd, ← htm, hmb, hm t, if_neg hl] at h
    split_ifs at h
    · simp only [Option.some.injEq, Prod.mk.injEq] at h
      rw [← h.2.1]
      have he : Real.exp (-cE * (1 - tm)) ≤ Real.exp (-cE * (1 - t)) := Real.exp_le_exp.2 (by nlinarith)
      have := mul_le_mul_of_nonneg_left he (mul_nonneg (mul_nonneg hc hg.le) hW.le)
      linarith
    · simp only [Option.some.injEq, Prod.mk.injEq] at h
      rw [← h.2.1]
      positivity

theorem lt_of_pow_lt {a b e : ℝ} (hx : 0 < e) (hb : 0 ≤ b) (h : a ^ e < b ^ e) : a < b := by
  by_contra hc
  exact absurd (Real.rpow_le_rpow hb (not_lt.1 hc) hx.le) (not_le.2 h)

/-! ### barriers that do not fall linearly -/

theorem exp_five {y : ℝ} (h0 : 0 ≤ y) (h1 : y ≤ 99 / 100) : Real.exp (-(5 * y)) ≤ 1 - y := by
  have hc := convexOn_exp.2 (Set.mem_univ (0 : ℝ)) (Set.mem_univ (-(495 / 100) : ℝ))
    (show (0 : ℝ) ≤ 1 - y / (99 / 100) by rw [sub_nonneg, div_le_one (by norm_num)]; exact h1)
    (show (0 : ℝ) ≤ y / (99 / 100) by positivity) (by ring)
  simp only [smul_eq_mul, mul_zero, zero_add, Real.exp_zero, mul_one] at hc
  have e : y / (99 / 100) * -(495 / 100) = -(5 * y) := by ring
  rw [e] at hc
  refine hc.trans ?_
  have h2 : Real.exp (-(495 / 100)) ≤ 1 / 100 := by
    have h3 : (100 : ℝ) ≤ Real.exp (495 / 100) := by
      have h4 := Real.exp_one_gt_d9
      have h5 : Real.exp (495 / 100) = Real.exp 1 ^ 4 * Real.exp (95 / 100) := by
        rw [← Real.exp_nat_mul, ← Real.exp_add]; norm_num
      have h6 : (1 + 95 / 100 + (95 / 100) ^ 2 / 2 : ℝ) ≤ Real.exp (95 / 100) :=
        Real.quadratic_le_exp_of_nonneg (by norm_num)
      rw [h5]
      have h7 : (271 / 100 : ℝ) ^ 4 ≤ Real.exp 1 ^ 4 := pow_le_pow_left₀ (by norm_num) (by linarith) 4
      have := mul_le_mul h7 h6 (by norm_num) (by positivity)
      refine le_trans ?_ this
      norm_num
    rw [Real.exp_neg, ← one_div]
    exact one_div_le_one_div_of_le (by norm_num) h3
  have h3 : y / (99 / 100) * Real.exp (-(495 / 100)) ≤ y / (99 / 100) * (1 / 100) :=
    mul_le_mul_of_nonneg_left h2 (by positivity)
  have : y / (99 / 100) = y * (100 / 99) := by ring
  rw [this] at h3 ⊢
  linarith

/-- the slope factor of the barrier at a stress against the jump is below the one at a smaller stress with it -/
theorem barrier_factor {y z q c : ℝ} (h0 : 0 ≤ y) (h1 : y ≤ 99 / 100) (hyz : y ≤ z) (hq1 : 1 ≤ q) (hq2 : q ≤ 2)
    (hc : 3 ≤ c) :
    (1 + z) ^ q / (1 + z) * Real.exp (-c * (1 + z) ^ q) ≤ (1 - y) ^ q / (1 - y) * Real.exp (-c * (1 - y) ^ q) := by
  have hz : 0 < 1 + z := by linarith
  have hy : 0 < 1 - y := by linarith
  have e1 : (1 + z) ^ q / (1 + z) = Real.exp ((q - 1) * Real.log (1 + z)) := by
    rw [← Real.rpow_sub_one hz.ne', Real.rpow_def_of_pos hz, mul_comm]
  have e2 : (1 - y) ^ q / (1 - y) = Real.exp ((q - 1) * Real.log (1 - y)) := by
    rw [← Real.rpow_sub_one hy.ne', Real.rpow_def_of_pos hy, mul_comm]
  rw [e1, e2, ← Real.exp_add, ← Real.exp_add, Real.exp_le_exp]
  have l1 : Real.log (1 + z) ≤ z := by
    have := Real.log_le_sub_one_of_pos hz
    linarith
  have l2 : -(5 * y) ≤ Real.log (1 - y) := (Real.le_log_iff_exp_le hy).2 (exp_five h0 h1)
  have b1 : 1 + q * z ≤ (1 + z) ^ q := one_add_mul_self_le_rpow_one_add (by linarith) hq1
  have b2 : (1 - y) ^ q ≤ 1 - y := by
    have := Real.rpow_le_rpow_of_exponent_ge hy (by linarith) hq1
    rwa [Real.rpow_one] at this
  have g1 : (q - 1) * Real.log (1 + z) ≤ (q - 1) * z := mul_le_mul_of_nonneg_left l1 (by linarith)
  have g2 : (q - 1) * -(5 * y) ≤ (q - 1) * Real.log (1 - y) := mul_le_mul_of_nonneg_left l2 (by linarith)
  have g3 : c * (1 + q * z - (1 - y)) ≤ c * ((1 + z) ^ q - (1 - y) ^ q) :=
    mul_le_mul_of_nonneg_left (by linarith) (by linarith)
  have g4 : 3 * (q * z + y) ≤ c * (1 + q * z - (1 - y)) := by
    have : 0 ≤ q * z + y := by nlinarith
    nlinarith
  have g5 : (q - 1) * z + (q - 1) * (5 * y) ≤ 3 * (q * z + y) := by nlinarith
  linarith

theorem mtsDG_fwd {cE d t : ℝ} (hp : k.pOne = true → k.p = 1) (hq : k.qOne = true → k.q = 1)
    (ht : idpTinySqrt ≤ t) :
    k.mtsDG cE d t = if 1 - t ^ k.p < idpTinySqrt then (0, 0) else
      (-cE * (1 - t ^ k.p) ^ k.q,
        cE * d * k.p * (t ^ k.p / t) * k.q * ((1 - t ^ k.p) ^ k.q / (1 - t ^ k.p))) := by
  have h0 : 0 < t := idpTinySqrt_pos.trans_le ht
  have hpF : k.pFunc t = t ^ k.p := by
    unfold pFunc
    split_ifs with h1 h2
    · rw [hp h1, Real.rpow_one]
    · rw [abs_of_pos h0] at h2; linarith
    · unfold copysign
      rw [if_neg (not_lt.2 h0.le), abs_of_pos h0, abs_of_pos (Real.rpow_pos_of_pos h0 _)]
  have hd : (if k.pOne then cE * d else if |t| < idpTinySqrt then cE * d * 10 ^ 10
      else cE * d * k.p * k.pFunc t / t) = cE * d * k.p * (t ^ k.p / t) := by
    rw [hpF]
    split_ifs with h1 h2
    · rw [hp h1, Real.rpow_one, div_self h0.ne']; ring
    · rw [abs_of_pos h0] at h2; linarith
    · ring
  rw [hpF] at hd
  simp only [mtsDG, hpF, hd]
  by_cases h1 : 1 - t ^ k.p < idpTinySqrt
  · rw [if_pos h1, if_pos h1]; simp
  · rw [if_neg h1, if_neg h1]
    have h2 : 0 < 1 - t ^ k.p := idpTinySqrt_pos.trans_le (not_lt.1 h1)
    split_ifs with h3
    · rw [hq h3, Real.rpow_one, div_self h2.ne']; simp
    · unfold copysign
      rw [if_neg (not_lt.2 h2.le), abs_of_pos h2, abs_of_pos (Real.rpow_pos_of_pos h2 _)]
      simp only [Prod.mk.injEq, true_and]
      ring

theorem mtsDG_bwd {cE d t : ℝ} (hp : k.pOne = true → k.p = 1) (hq : k.qOne = true → k.q = 1)
    (ht : idpTinySqrt ≤ t) :
    k.mtsDG cE d (-t) = (-cE * (1 + t ^ k.p) ^ k.q,
        cE * d * k.p * (t ^ k.p / t) * k.q * ((1 + t ^ k.p) ^ k.q / (1 + t ^ k.p))) := by
  have h0 : 0 < t := idpTinySqrt_pos.trans_le ht
  have hpF : k.pFunc (-t) = -t ^ k.p := by
    unfold pFunc
    split_ifs with h1 h2
    · rw [hp h1, Real.rpow_one]
    · rw [abs_neg, abs_of_pos h0] at h2; linarith
    · unfold copysign
      rw [if_pos (by linarith), abs_neg, abs_of_pos h0, abs_of_pos (Real.rpow_pos_of_pos h0 _)]
  have hd : (if k.pOne then cE * d else if |(-t)| < idpTinySqrt then cE * d * 10 ^ 10
      else cE * d * k.p * k.pFunc (-t) / (-t)) = cE * d * k.p * (t ^ k.p / t) := by
    rw [hpF]
    split_ifs with h1 h2
    · rw [hp h1, Real.rpow_one, div_self h0.ne']; ring
    · rw [abs_neg, abs_of_pos h0] at h2; linarith
    · rw [mul_neg, neg_div_neg_eq]; ring
  have h3 : 0 < t ^ k.p := Real.rpow_pos_of_pos h0 _
  have h2 : 0 < 1 + t ^ k.p := by linarith
  have e : 1 - -t ^ k.p = 1 + t ^ k.p := by ring
  have h1 : ¬ 1 + t ^ k.p < idpTinySqrt := by
    have : idpTinySqrt ≤ 1 := by unfold idpTinySqrt; norm_num
    linarith
  rw [hpF] at hd
  simp only [mtsDG, hpF, hd, e]
  rw [if_neg h1]
  split_ifs with h3
  · rw [hq h3, Real.rpow_one, div_self h2.ne']; simp
  · unfold copysign
    rw [if_neg (not_lt.2 h2.le), abs_of_pos h2, abs_of_pos (Real.rpow_pos_of_pos h2 _)]
    simp only [Prod.mk.injEq, true_and]
    ring

/-- curved barrier: jumps against the stress do not turn the slope as long as the stress is below the barrier, and
    by a bounded amount close to it and above -/
theorem thermal_slope_curved {gamW cE gI gAth tau gw dgw dgwg : ℝ} (hp : k.pOne = true → k.p = 1)
    (hq : k.qOne = true → k.q = 1) (hp0 : 0 < k.p) (hp1 : k.p ≤ 1) (hq1 : 1 ≤ k.q) (hq2 : k.q ≤ 2)
    (hW : 0 < gamW) (hc : 3 ≤ cE) (hg : 0 < gI) (hA : 0 ≤ gAth) (ht : idpTinySqrt ≤ (|tau| - gAth) * gI)
    (h : k.thermal gamW cE gI gAth tau = some (gw, dgw, dgwg)) :
    0 ≤ dgw ∨ (99 / 100 < ((|tau| - gAth) * gI) ^ k.p ∧ ∃ z, ((|tau| - gAth) * gI) ^ k.p ≤ z ∧
      -(gamW * gI * k.p * k.q * (((|tau| - gAth) * gI) ^ k.p / ((|tau| - gAth) * gI)) *
        (cE * ((1 + z) ^ k.q / (1 + z)) * Real.exp (-cE * (1 + z) ^ k.q))) ≤ dgw) := by
  set t := (|tau| - gAth) * gI with htd
  have htm : (-|tau| - gAth) * gI = -((|tau| + gAth) * gI) := by ring
  set tb := (|tau| + gAth) * gI with htb
  have htt : t ≤ tb := by rw [htd, htb]; nlinarith
  have h0 : 0 < t := idpTinySqrt_pos.trans_le ht
  have h0b : 0 < tb := h0.trans_le htt
  have hy0 : 0 < t ^ k.p := Real.rpow_pos_of_pos h0 _
  have hyz : t ^ k.p ≤ tb ^ k.p := Real.rpow_le_rpow h0.le htt hp0.le
  have hrat : tb ^ k.p / tb ≤ t ^ k.p / t := by
    rw [← Real.rpow_sub_one h0.ne', ← Real.rpow_sub_one h0b.ne']
    exact Real.rpow_le_rpow_of_nonpos h0 htt (by linarith)
  have hr0 : 0 ≤ t ^ k.p / t := by positivity
  simp only [thermal, ← htd, htm, k.mtsDG_bwd hp hq (ht.trans htt), k.mtsDG_fwd hp hq ht] at h
  have hz0 : 0 < tb ^ k.p := hy0.trans_le hyz
  have hf0 : 0 ≤ (1 + tb ^ k.p) ^ k.q / (1 + tb ^ k.p) * Real.exp (-cE * (1 + tb ^ k.p) ^ k.q) := by positivity
  have hcon : cE * gI * k.p * (tb ^ k.p / tb) * k.q * ((1 + tb ^ k.p) ^ k.q / (1 + tb ^ k.p))
      * (gamW * Real.exp (-cE * (1 + tb ^ k.p) ^ k.q)) ≤
      gamW * gI * k.p * k.q * (t ^ k.p / t) *
        (cE * ((1 + tb ^ k.p) ^ k.q / (1 + tb ^ k.p)) * Real.exp (-cE * (1 + tb ^ k.p) ^ k.q)) := by
    have h1 := mul_le_mul_of_nonneg_right hrat hf0
    have h2 : 0 ≤ cE * gI * k.p * k.q * gamW := by positivity
    have := mul_le_mul_of_nonneg_left h1 h2
    linarith
  by_cases hl : 1 - t ^ k.p < idpTinySqrt
  · right
    refine ⟨by unfold idpTinySqrt at hl; norm_num at hl ⊢; linarith, tb ^ k.p, hyz, ?_⟩
    rw [if_pos hl] at h
    have hn : 0 ≤ gamW * gI * k.p * k.q * (t ^ k.p / t) *
        (cE * ((1 + tb ^ k.p) ^ k.q / (1 + tb ^ k.p)) * Real.exp (-cE * (1 + tb ^ k.p) ^ k.q)) := by positivity
    split_ifs at h
    · simp only [Option.some.injEq, Prod.mk.injEq] at h
      rw [← h.2.1]
      linarith
    · simp only [Option.some.injEq, Prod.mk.injEq] at h
      rw [← h.2.1]
      linarith
  · rw [if_neg hl] at h
    have hu : 0 < 1 - t ^ k.p := idpTinySqrt_pos.trans_le (not_lt.1 hl)
    have hfw : 0 ≤ cE * gI * k.p * (t ^ k.p / t) * k.q * ((1 - t ^ k.p) ^ k.q / (1 - t ^ k.p))
        * (gamW * Real.exp (-cE * (1 - t ^ k.p) ^ k.q)) := by positivity
    by_cases hb : t ^ k.p ≤ 99 / 100
    · left
      have hbf := barrier_factor hy0.le hb hyz hq1 hq2 hc
      have h2 : 0 ≤ gamW * gI * k.p * k.q * (t ^ k.p / t) * cE := by positivity
      have h3 := mul_le_mul_of_nonneg_left hbf h2
      split_ifs at h
      · simp only [Option.some.injEq, Prod.mk.injEq] at h
        rw [← h.2.1]
        linarith
      · simp only [Option.some.injEq, Prod.mk.injEq] at h
        rw [← h.2.1]
        exact hfw
    · right
      refine ⟨not_le.1 hb, tb ^ k.p, hyz, ?_⟩
      have hn : 0 ≤ gamW * gI * k.p * k.q * (t ^ k.p / t) *
        (cE * ((1 + tb ^ k.p) ^ k.q / (1 + tb ^ k.p)) * Real.exp (-cE * (1 + tb ^ k.p) ^ k.q)) := by positivity
      split_ifs at h
      · simp only [Option.some.injEq, Prod.mk.injEq] at h
        rw [← h.2.1]
        linarith
      · simp only [Option.some.injEq, Prod.mk.injEq] at h
        rw [← h.2.1]
        linarith

/-- close to the barrier and above it the power-law term outweighs the jumps against the stress -/
theorem power_wins {c c0 q y z : ℝ} (hc : 3 ≤ c) (hl : c ≤ 10 * c0) (hu : c0 ≤ 20 * c) (hq1 : 1 ≤ q) (hq2 : q ≤ 2)
    (hy : 99 / 100 < y) (hyz : y ≤ z) :
    y * (c * ((1 + z) ^ q / (1 + z)) * Real.exp (-c * (1 + z) ^ q)) ≤ 20 * c0 * y ^ (2 * c0 * q) := by
  have hc0 : 0 < c0 := by linarith
  have hz : 0 < 1 + z := by linarith
  have hV : 1 + z ≤ (1 + z) ^ q := by
    have := Real.rpow_le_rpow_of_exponent_le (show 1 ≤ 1 + z by linarith) hq1
    rwa [Real.rpow_one] at this
  set V := (1 + z) ^ q with hVd
  have hVp : 0 < V := by linarith
  have h1 : y * (c * (V / (1 + z)) * Real.exp (-c * V)) ≤ c * (V * Real.exp (-c * V)) := by
    have h2 : y / (1 + z) ≤ 1 := by rw [div_le_one hz]; linarith
    have h3 := mul_le_mul_of_nonneg_right h2 (show 0 ≤ c * (V * Real.exp (-c * V)) by positivity)
    calc y * (c * (V / (1 + z)) * Real.exp (-c * V)) = y / (1 + z) * (c * (V * Real.exp (-c * V))) := by ring
      _ ≤ _ := by linarith
  refine h1.trans ?_
  have hpow : Real.exp (-(82 / 100 * c)) ≤ y ^ (2 * c0 * q) := by
    have hy0 : 0 < y := by linarith
    rw [Real.rpow_def_of_pos hy0, Real.exp_le_exp]
    have hlog : -(1 / 99) ≤ Real.log y := by
      have h4 := Real.one_sub_inv_le_log_of_pos hy0
      have h5 : y⁻¹ ≤ 100 / 99 := by
        rw [inv_le_comm₀ hy0 (by norm_num)]; norm_num; linarith
      linarith
    have h6 : 2 * c0 * q ≤ 80 * c := by nlinarith
    have h7 : 0 ≤ 2 * c0 * q := by positivity
    nlinarith
  have h8 : V * Real.exp (-c * V) ≤ 2 * Real.exp (-(82 / 100 * c)) := by
    have e : -c * V = -(82 / 100 * c) + -(c * (V - 82 / 100)) := by ring
    rw [e, Real.exp_add]
    have hw : 0 ≤ V - 82 / 100 := by linarith
    have h9 : V * Real.exp (-(c * (V - 82 / 100))) ≤ 2 := by
      rw [Real.exp_neg, ← div_eq_mul_inv, div_le_iff₀ (Real.exp_pos _)]
      have := Real.add_one_le_exp (c * (V - 82 / 100))
      nlinarith
    have := mul_le_mul_of_nonneg_left h9 (Real.exp_pos (-(82 / 100 * c))).le
    linarith
  have h10 := mul_le_mul_of_nonneg_left h8 (show 0 ≤ c by linarith)
  have h11 : c * (2 * Real.exp (-(82 / 100 * c))) ≤ 20 * c0 * Real.exp (-(82 / 100 * c)) := by
    have := Real.exp_pos (-(82 / 100 * c))
    nlinarith
  have h12 := mul_le_mul_of_nonneg_left hpow (show 0 ≤ 20 * c0 by linarith)
  linarith

end KMBalD
end Ecm
