/- Property theorems C24 (power law slip: sign, symmetry, thresholds), C25 (its derivatives) and
   C26 (monotonicity; refuted at the overflow limit). -/
import Verif.Lemmas.Voce
import Mathlib.Analysis.Calculus.Deriv.Abs

namespace Ecm.Props
open Ecm

/-! ### C24 -/

/-- C24 in the active range the slip rate is the reference rate times `(|τ|/g)^(1/m)`, with the sign
    of the stress. -/
theorem C24_value (k : Voce) (g tau : ℝ) (hg : 0 < g)
    (h1 : (1 / 10 ^ 60 : ℝ) ^ k.xm < |tau| / g) (h2 : |tau| / g ≤ (10 ^ 60 : ℝ) ^ k.xm) :
    (k.evalGdot g tau).gdot = (if 0 < tau then 1 else -1) * (k.gamW * (|tau| / g) ^ (1 / k.xm)) :=
  k.gdot_mid hg (by unfold Voce.tMin gamRatioMin; convert h1 using 2)
    (by unfold Voce.tMax gamRatioOvf; convert h2 using 2)

/-- C24 above the upper threshold the rate is the constant `1e45` times the reference rate. -/
theorem C24_overflow (k : Voce) (hm : 0 < k.xm) (hw : 0 ≤ k.gamW) (g tau : ℝ) (hg : 0 < g)
    (h2 : (10 ^ 60 : ℝ) ^ k.xm < |tau| / g) :
    (k.evalGdot g tau).gdot = (if 0 < tau then 1 else -1) * (10 ^ 45 * k.gamW) := by
  rw [k.evalGdot_high hm hg (by unfold Voce.tMax gamRatioOvf; convert h2 using 2)]
  have ht : tau ≠ 0 := by
    rintro rfl
    have : (0 : ℝ) < (10 ^ 60 : ℝ) ^ k.xm := Real.rpow_pos_of_pos (by norm_num) _
    simp at h2; linarith
  have h3 : gamRatioOvffx = 10 ^ 45 := by unfold gamRatioOvffx; norm_num
  simp only [copysign, h3]
  rw [abs_of_nonneg (by positivity)]
  rcases lt_or_gt_of_ne ht with h | h
  · rw [if_pos h, if_neg (not_lt.2 h.le)]; ring
  · rw [if_neg (not_lt.2 h.le), if_pos h]; ring

/-- C24 the slip rate is odd, the stress derivative is even and the strength derivative is odd. -/
theorem C24_odd (k : Voce) (hm : 0 < k.xm) (g tau : ℝ) (hg : 0 < g) :
    (k.evalGdot g (-tau)).gdot = -(k.evalGdot g tau).gdot ∧
    (k.evalGdot g (-tau)).dtau = (k.evalGdot g tau).dtau ∧
    (k.evalGdot g (-tau)).dg = -(k.evalGdot g tau).dg := by
  have ea : |-tau| / g = |tau| / g := by rw [abs_neg]
  rcases le_or_gt (|tau| / g) k.tMin with h | h
  · rw [k.evalGdot_low hg h, k.evalGdot_low hg (ea.trans_le h)]; simp
  · rcases le_or_gt (|tau| / g) k.tMax with h' | h'
    · rw [k.evalGdot_mid hg h h', k.evalGdot_mid hg (h.trans_eq ea.symm) (ea.trans_le h'), ea]
      refine ⟨?_, rfl, ?_⟩ <;> ring
    · rw [k.evalGdot_high hm hg h', k.evalGdot_high hm hg (h'.trans_eq ea.symm)]
      have ht : tau ≠ 0 := by
        rintro rfl; simp at h; linarith [k.tMin_pos]
      refine ⟨?_, rfl, by simp⟩
      simp only [copysign]
      rcases lt_or_gt_of_ne ht with h | h
      · rw [if_neg (by linarith), if_pos h]; ring
      · rw [if_pos (by linarith), if_neg (by linarith)]

/-- C24 the slip rate is zero exactly at or below the lower threshold; otherwise it has the sign of
    the stress. -/
theorem C24_sign (k : Voce) (hm : 0 < k.xm) (hw : 0 < k.gamW) (g tau : ℝ) (hg : 0 < g) :
    ((k.evalGdot g tau).gdot = 0 ↔ |tau| / g ≤ (1 / 10 ^ 60 : ℝ) ^ k.xm) ∧
    ((1 / 10 ^ 60 : ℝ) ^ k.xm < |tau| / g → 0 < tau * (k.evalGdot g tau).gdot) ∧
    0 ≤ tau * (k.evalGdot g tau).gdot := by
  have e1 : k.tMin = (1 / 10 ^ 60 : ℝ) ^ k.xm := by unfold Voce.tMin gamRatioMin; norm_num
  rw [← e1]
  have key : k.tMin < |tau| / g → 0 < tau * (k.evalGdot g tau).gdot := by
    intro h
    have hp : 0 < |tau| / g := k.tMin_pos.trans h
    have ht : tau ≠ 0 := by rintro rfl; simp at hp
    have hval : ∃ c : ℝ, 0 < c ∧ (k.evalGdot g tau).gdot = (if 0 < tau then 1 else -1) * c := by
      rcases le_or_gt (|tau| / g) k.tMax with h' | h'
      · exact ⟨_, mul_pos hw (Real.rpow_pos_of_pos hp _), k.gdot_mid hg h h'⟩
      · refine ⟨10 ^ 45 * k.gamW, by positivity, C24_overflow k hm hw.le g tau hg ?_⟩
        unfold Voce.tMax gamRatioOvf at h'; convert h' using 2
    obtain ⟨c, hc, e⟩ := hval
    rw [e]
    rcases lt_or_gt_of_ne ht with h | h
    · rw [if_neg (not_lt.2 h.le)]; nlinarith
    · rw [if_pos h]; nlinarith
  refine ⟨⟨fun h => ?_, fun h => by rw [k.evalGdot_low hg h]⟩, key, ?_⟩
  · by_contra hc
    have := key (not_le.1 hc)
    rw [h] at this; simp at this
  · rcases le_or_gt (|tau| / g) k.tMin with h | h
    · rw [k.evalGdot_low hg h]; simp
    · exact (key h).le

/-- a parameter set with `m = 1` used in the examples -/
noncomputable def voceExample : Voce :=
  { nonlinear := false, mu := 1, xm := 1, gamW := 1, h0 := 1, tausi := 1, taus0 := 2, xmprime := 1,
    xms := 0, gamss0 := 1, hdnInit := 1 }

example : (1 / 10 ^ 60 : ℝ) ^ voceExample.xm < |(-3 : ℝ)| / 2 ∧
    |(-3 : ℝ)| / 2 ≤ (10 ^ 60 : ℝ) ^ voceExample.xm ∧
    (voceExample.evalGdot 2 (-3)).gdot = -(3 / 2) := by
  have a : (1 / 10 ^ 60 : ℝ) ^ voceExample.xm < |(-3 : ℝ)| / 2 := by
    simp only [voceExample, Real.rpow_one]; norm_num
  have b : |(-3 : ℝ)| / 2 ≤ (10 ^ 60 : ℝ) ^ voceExample.xm := by
    simp only [voceExample, Real.rpow_one]; norm_num
  refine ⟨a, b, ?_⟩
  rw [C24_value _ 2 (-3) (by norm_num) a b]
  simp [voceExample]

/-! ### C25 -/

/-- C25 strictly between the thresholds the reported derivatives are the derivatives of the slip rate
    with respect to the stress and with respect to the strength, and the former is positive. -/
theorem C25_active (k : Voce) (hm : 0 < k.xm) (hw : 0 < k.gamW) (g tau : ℝ) (hg : 0 < g)
    (h1 : (1 / 10 ^ 60 : ℝ) ^ k.xm < |tau| / g) (h2 : |tau| / g < (10 ^ 60 : ℝ) ^ k.xm) :
    HasDerivAt (fun t => (k.evalGdot g t).gdot) (k.evalGdot g tau).dtau tau ∧
    HasDerivAt (fun s => (k.evalGdot s tau).gdot) (k.evalGdot g tau).dg g ∧
    0 < (k.evalGdot g tau).dtau := by
  have e1 : k.tMin = (1 / 10 ^ 60 : ℝ) ^ k.xm := by unfold Voce.tMin gamRatioMin; norm_num
  have e2 : k.tMax = (10 ^ 60 : ℝ) ^ k.xm := by unfold Voce.tMax gamRatioOvf; norm_num
  rw [← e1] at h1
  rw [← e2] at h2
  have hp : 0 < |tau| / g := k.tMin_pos.trans h1
  have ht : tau ≠ 0 := by rintro rfl; simp at hp
  have hat : 0 < |tau| := abs_pos.2 ht
  rw [k.evalGdot_mid hg h1 h2.le]
  have hx := k.xn_add_one
  refine ⟨?_, ?_, ?_⟩
  · have ev : (fun t => (k.evalGdot g t).gdot) =ᶠ[nhds tau]
        fun t => k.gamW * (|t| / g) ^ k.xn * (t / g) := by
      have c : ContinuousAt (fun t : ℝ => |t| / g) tau := by fun_prop
      filter_upwards [c.eventually (lt_mem_nhds h1), c.eventually (gt_mem_nhds h2)] with t a b
      rw [k.evalGdot_mid hg a b.le]
    refine HasDerivAt.congr_of_eventuallyEq ?_ ev
    have ha : HasDerivAt (fun t : ℝ => |t| / g) ((|tau| / tau) / g) tau := by
      have : HasDerivAt (fun t : ℝ => |t|) (|tau| / tau) tau := by
        rcases lt_or_gt_of_ne ht with h | h
        · refine (hasDerivAt_abs_neg h).congr_deriv ?_
          rw [abs_of_neg h]; field_simp
        · refine (hasDerivAt_abs_pos h).congr_deriv ?_
          rw [abs_of_pos h]; field_simp
      exact this.div_const g
    have hb := ha.rpow_const (p := k.xn) (Or.inl hp.ne')
    have hc := (hb.const_mul k.gamW).fun_mul ((hasDerivAt_id tau).div_const g)
    refine hc.congr_deriv ?_
    have e : (|tau| / g) ^ (k.xn - 1) * (|tau| / g) = (|tau| / g) ^ k.xn := by
      rw [← Real.rpow_add_one hp.ne']; congr 1; ring
    simp only [id]
    rw [← e, ← hx]
    generalize (|tau| / g) ^ (k.xn - 1) = P
    field_simp
  · have ev : (fun s => (k.evalGdot s tau).gdot) =ᶠ[nhds g]
        fun s => k.gamW * (|tau| / s) ^ k.xn * (tau / s) := by
      have c : ContinuousAt (fun s : ℝ => |tau| / s) g :=
        continuousAt_const.div continuousAt_id hg.ne'
      filter_upwards [c.eventually (lt_mem_nhds h1), c.eventually (gt_mem_nhds h2),
        lt_mem_nhds hg] with s a b hs
      rw [k.evalGdot_mid hs a b.le]
    refine HasDerivAt.congr_of_eventuallyEq ?_ ev
    have ha : HasDerivAt (fun s : ℝ => |tau| / s) (-(|tau|) / g ^ 2) g := by
      have := (hasDerivAt_const g |tau|).div (hasDerivAt_id g) hg.ne'
      refine this.congr_deriv ?_
      simp
    have ha' : HasDerivAt (fun s : ℝ => tau / s) (-tau / g ^ 2) g := by
      have := (hasDerivAt_const g tau).div (hasDerivAt_id g) hg.ne'
      refine this.congr_deriv ?_
      simp
    have hb := ha.rpow_const (p := k.xn) (Or.inl hp.ne')
    have hc := (hb.const_mul k.gamW).fun_mul ha'
    refine hc.congr_deriv ?_
    have e : (|tau| / g) ^ (k.xn - 1) * (|tau| / g) = (|tau| / g) ^ k.xn := by
      rw [← Real.rpow_add_one hp.ne']; congr 1; ring
    rw [← e, ← hx]
    generalize (|tau| / g) ^ (k.xn - 1) = P
    field_simp
    ring
  · have : 0 < k.xnn := by unfold Voce.xnn; positivity
    have := Real.rpow_pos_of_pos hp k.xn
    positivity

/-- C25 strictly below the lower threshold, and strictly above the upper one, the reported
    derivatives are zero and so are the true ones. -/
theorem C25_inactive (k : Voce) (hm : 0 < k.xm) (g tau : ℝ) (hg : 0 < g)
    (h : |tau| / g < (1 / 10 ^ 60 : ℝ) ^ k.xm ∨ (10 ^ 60 : ℝ) ^ k.xm < |tau| / g) :
    HasDerivAt (fun t => (k.evalGdot g t).gdot) (k.evalGdot g tau).dtau tau ∧
    HasDerivAt (fun s => (k.evalGdot s tau).gdot) (k.evalGdot g tau).dg g ∧
    (k.evalGdot g tau).dtau = 0 ∧ (k.evalGdot g tau).dg = 0 := by
  have e1 : k.tMin = (1 / 10 ^ 60 : ℝ) ^ k.xm := by unfold Voce.tMin gamRatioMin; norm_num
  have e2 : k.tMax = (10 ^ 60 : ℝ) ^ k.xm := by unfold Voce.tMax gamRatioOvf; norm_num
  rw [← e1, ← e2] at h
  have c1 : ContinuousAt (fun t : ℝ => |t| / g) tau := by fun_prop
  have c2 : ContinuousAt (fun s : ℝ => |tau| / s) g :=
    continuousAt_const.div continuousAt_id hg.ne'
  rcases h with h | h
  · rw [k.evalGdot_low hg h.le]
    refine ⟨?_, ?_, rfl, rfl⟩
    · refine HasDerivAt.congr_of_eventuallyEq (hasDerivAt_const tau 0) ?_
      filter_upwards [c1.eventually (gt_mem_nhds h)] with t a
      rw [k.evalGdot_low hg a.le]
    · refine HasDerivAt.congr_of_eventuallyEq (hasDerivAt_const g 0) ?_
      filter_upwards [c2.eventually (gt_mem_nhds h), lt_mem_nhds hg] with s a hs
      rw [k.evalGdot_low hs a.le]
  · rw [k.evalGdot_high hm hg h]
    refine ⟨?_, ?_, rfl, rfl⟩
    · have ht : tau ≠ 0 := by
        rintro rfl; simp at h; linarith [k.tMax_pos]
      rcases lt_or_gt_of_ne ht with h' | h'
      · refine HasDerivAt.congr_of_eventuallyEq
          (hasDerivAt_const tau (-|gamRatioOvffx * k.gamW|)) ?_
        filter_upwards [c1.eventually (lt_mem_nhds h), gt_mem_nhds h'] with t a ht
        rw [k.evalGdot_high hm hg a]; simp [copysign, ht]
      · refine HasDerivAt.congr_of_eventuallyEq
          (hasDerivAt_const tau (|gamRatioOvffx * k.gamW|)) ?_
        filter_upwards [c1.eventually (lt_mem_nhds h), lt_mem_nhds h'] with t a ht
        rw [k.evalGdot_high hm hg a]; simp [copysign, not_lt.2 ht.le]
    · refine HasDerivAt.congr_of_eventuallyEq
        (hasDerivAt_const g (copysign (gamRatioOvffx * k.gamW) tau)) ?_
      filter_upwards [c2.eventually (lt_mem_nhds h), lt_mem_nhds hg] with s a hs
      rw [k.evalGdot_high hm hs a]

example : (1 / 10 ^ 60 : ℝ) ^ voceExample.xm < |(-3 : ℝ)| / 2 ∧
    |(-3 : ℝ)| / 2 < (10 ^ 60 : ℝ) ^ voceExample.xm := by
  constructor <;> simp only [voceExample, Real.rpow_one] <;> norm_num

example : |(1 / 10 ^ 61 : ℝ)| / 1 < (1 / 10 ^ 60 : ℝ) ^ voceExample.xm := by
  simp only [voceExample, Real.rpow_one]
  rw [abs_of_pos (by positivity)]; norm_num

/-! ### C26 -/

/-- C26 is false: at `|τ|/g = (1e60)^m` the rate is `1e60` times the reference rate, just above it is
    `1e45` times the reference rate, so a larger stress gives a smaller rate. -/
theorem C26_refuted : ∃ (k : Voce) (g tau1 tau2 : ℝ), 0 < k.xm ∧ 0 < k.gamW ∧ 0 < g ∧
    tau1 < tau2 ∧ (k.evalGdot g tau2).gdot < (k.evalGdot g tau1).gdot := by
  refine ⟨voceExample, 1, 10 ^ 60, 2 * 10 ^ 60, by norm_num [voceExample], by norm_num [voceExample],
    one_pos, by norm_num, ?_⟩
  have h10 : |(10 ^ 60 : ℝ)| = 10 ^ 60 := abs_of_pos (by norm_num)
  have h20 : |(2 * 10 ^ 60 : ℝ)| = 2 * 10 ^ 60 := abs_of_pos (by norm_num)
  rw [C24_value voceExample 1 (10 ^ 60) one_pos
      (by rw [h10]; simp only [voceExample, Real.rpow_one]; norm_num)
      (by rw [h10]; simp only [voceExample, Real.rpow_one]; norm_num),
    C24_overflow voceExample (by norm_num [voceExample]) (by norm_num [voceExample]) 1 (2 * 10 ^ 60)
      one_pos (by rw [h20]; simp only [voceExample, Real.rpow_one]; norm_num), h10]
  simp only [voceExample]
  norm_num

/-- C26 what does hold: for stresses up to the upper threshold the rate is monotone in the stress. -/
theorem C26_monotone_below_overflow (k : Voce) (hm : 0 < k.xm) (hw : 0 < k.gamW) (g : ℝ)
    (hg : 0 < g) (tau1 tau2 : ℝ) (h12 : tau1 ≤ tau2)
    (h1 : |tau1| ≤ (10 ^ 60 : ℝ) ^ k.xm * g) (h2 : |tau2| ≤ (10 ^ 60 : ℝ) ^ k.xm * g) :
    (k.evalGdot g tau1).gdot ≤ (k.evalGdot g tau2).gdot := by
  have e2 : k.tMax = (10 ^ 60 : ℝ) ^ k.xm := by unfold Voce.tMax gamRatioOvf; norm_num
  have b1 : |tau1| / g ≤ k.tMax := by rw [e2, div_le_iff₀ hg]; exact h1
  have b2 : |tau2| / g ≤ k.tMax := by rw [e2, div_le_iff₀ hg]; exact h2
  have sgn := fun t => C24_sign k hm hw g t hg
  -- sign of the rate
  have hpos : ∀ t, 0 ≤ t → 0 ≤ (k.evalGdot g t).gdot := by
    intro t ht
    rcases ht.eq_or_lt with rfl | h
    · rw [k.evalGdot_low hg (by simp [k.tMin_pos.le])]
    · exact nonneg_of_mul_nonneg_right (sgn t).2.2 h
  have hneg : ∀ t, t ≤ 0 → (k.evalGdot g t).gdot ≤ 0 := by
    intro t ht
    have := hpos (-t) (by linarith)
    rw [(C24_odd k hm g t hg).1] at this
    linarith
  -- on positive stresses
  have mono : ∀ a b, 0 ≤ a → a ≤ b → |b| / g ≤ k.tMax →
      (k.evalGdot g a).gdot ≤ (k.evalGdot g b).gdot := by
    intro a b ha hab hb
    have hb0 : 0 ≤ b := ha.trans hab
    have hab' : |a| / g ≤ |b| / g := by
      rw [abs_of_nonneg ha, abs_of_nonneg hb0]; exact div_le_div_of_nonneg_right hab hg.le
    rcases le_or_gt (|a| / g) k.tMin with h | h
    · rw [k.evalGdot_low hg h]; exact hpos b hb0
    · have hp : 0 < |a| / g := k.tMin_pos.trans h
      have ha' : 0 < a := by
        rcases ha.eq_or_lt with rfl | h'
        · simp at hp
        · exact h'
      rw [k.gdot_mid hg h (hab'.trans hb), k.gdot_mid hg (h.trans_le hab') hb, if_pos ha',
        if_pos (ha'.trans_le hab), one_mul, one_mul]
      exact mul_le_mul_of_nonneg_left (Real.rpow_le_rpow hp.le hab'
        (by unfold Voce.xnn; positivity)) hw.le
  rcases le_or_gt 0 tau1 with h | h
  · exact mono _ _ h h12 b2
  · rcases le_or_gt 0 tau2 with h' | h'
    · exact (hneg _ h.le).trans (hpos _ h')
    · have := mono (-tau2) (-tau1) (by linarith) (by linarith) (by rwa [abs_neg])
      rw [(C24_odd k hm g tau1 hg).1, (C24_odd k hm g tau2 hg).1] at this
      linarith

example : |(-3 : ℝ)| ≤ (10 ^ 60 : ℝ) ^ voceExample.xm * 2 ∧ |(5 : ℝ)| ≤ (10 ^ 60 : ℝ) ^ voceExample.xm * 2
    := by
  constructor <;> simp only [voceExample, Real.rpow_one] <;> norm_num

end Ecm.Props
