/- Helper lemmas about the magnitude of the slip rate in the balanced dislocation density kinetics. -/
import Verif.Lemmas.KMBalD
import Mathlib.Analysis.SpecialFunctions.Exp

namespace Ecm
namespace KMBalD
variable {nV : ℕ} (k : KMBalD nV)

/-- harmonic combination of two rates -/
noncomputable def harm (w r : ℝ) : ℝ := 1 / (1 / w + 1 / r)

theorem harm_eq {w r : ℝ} (hw : 0 < w) (hr : 0 < r) : harm w r = w * r / (w + r) := by
  unfold harm; field_simp; rw [add_comm]

theorem harm_pos {w r : ℝ} (hw : 0 < w) (hr : 0 < r) : 0 < harm w r := by
  rw [harm_eq hw hr]; positivity

theorem harm_mono {w w' r r' : ℝ} (hw : 0 < w) (hr : 0 < r) (h1 : w ≤ w') (h2 : r ≤ r') :
    harm w r ≤ harm w' r' := by
  unfold harm
  apply one_div_le_one_div_of_le (by have := hw.trans_le h1; have := hr.trans_le h2; positivity)
  exact add_le_add (one_div_le_one_div_of_le hw h1) (one_div_le_one_div_of_le hr h2)

theorem harm_le_right {w r : ℝ} (hw : 0 < w) (hr : 0 < r) : harm w r ≤ r := by
  rw [harm_eq hw hr, div_le_iff₀ (by positivity)]
  nlinarith [mul_pos hr hr]

theorem harm_le_left {w r : ℝ} (hw : 0 < w) (hr : 0 < r) : harm w r ≤ w := by
  rw [harm_eq hw hr, div_le_iff₀ (by positivity)]
  nlinarith [mul_pos hw hw]

theorem harm_scale {w r c : ℝ} (hw : 0 < w) (hr : 0 < r) (hc : 1 ≤ c) :
    harm w (r * c) ≤ harm w r * c := by
  have hc0 : 0 < c := one_pos.trans_le hc
  rw [harm_eq hw hr, harm_eq hw (by positivity), div_mul_eq_mul_div,
    div_le_div_iff₀ (by positivity) (by positivity)]
  have : 0 ≤ w * r * c * (r * (c - 1)) := by
    have : 0 ≤ c - 1 := by linarith
    positivity
  nlinarith

theorem harm_lip {w w' r : ℝ} (hw : 0 < w) (hr : 0 < r) (h : w ≤ w') :
    harm w' r ≤ harm w r + (w' - w) := by
  have hw' := hw.trans_le h
  rw [harm_eq hw hr, harm_eq hw' hr]
  have e : w' * r / (w' + r) = w * r / (w + r) + (w' - w) * (r * r / ((w' + r) * (w + r))) := by
    field_simp; ring
  rw [e]
  have h1 : r * r / ((w' + r) * (w + r)) ≤ 1 := by
    rw [div_le_one (by positivity)]
    nlinarith [mul_pos hw hw', mul_pos hw hr, mul_pos hw' hr]
  nlinarith [mul_le_mul_of_nonneg_left h1 (sub_nonneg.2 h)]

/-- the activated rate as computed, from the result of `thermal` -/
noncomputable def addPower (gamW gI gAth xn tMin a w : ℝ) : ℝ :=
  open Classical in
  if tMin < max 0 (a - gAth) * gI then
    w + gamW * 10 * Real.exp (xn * Real.log (max 0 (a - gAth) * gI)) * (max 0 (a - gAth) * gI)
  else w

/-- magnitude of the slip rate at stress magnitude `a` -/
noncomputable def mag (gamW gamR cE gI gAth xn tMin tMax a : ℝ) : ℝ :=
  open Classical in
  if (a - gAth) / k.wrD < gamRatioMin then 0
  else if tMax < max 0 (a - gAth) * gI then dragRate gamR ((a - gAth) / k.wrD)
  else (k.thermal gamW cE gI gAth a).elim 0 fun w =>
    harm (addPower gamW gI gAth xn tMin a w.1) (dragRate gamR ((a - gAth) / k.wrD))

theorem dragRate_pos {gamR x : ℝ} (hR : 0 < gamR) (hx : 0 < x) : 0 < dragRate gamR x := by
  unfold dragRate
  split_ifs
  · positivity
  · have : Real.exp (-x) < 1 := by rw [Real.exp_lt_one_iff]; linarith
    exact mul_pos hR (by linarith)

theorem one_sub_exp_bounds {x : ℝ} (hx : 0 ≤ x) (hx1 : x ≤ 1 / 10 ^ 8) :
    1 - Real.exp (-x) ≤ x ∧ x ≤ (1 - Real.exp (-x)) * (1 + 1 / 10 ^ 8) := by
  have h1 : 1 - Real.exp (-x) ≤ x := by have := Real.add_one_le_exp (-x); linarith
  refine ⟨h1, ?_⟩
  have h2 : Real.exp (-x) ≤ 1 / (1 + x) := by
    rw [Real.exp_neg, ← one_div]
    apply one_div_le_one_div_of_le (by linarith)
    have := Real.add_one_le_exp x; linarith
  have h3 : x / (1 + x) ≤ 1 - Real.exp (-x) := by
    have : x / (1 + x) = 1 - 1 / (1 + x) := by field_simp; ring
    rw [this]; linarith
  have h4 : x ≤ x / (1 + x) * (1 + 1 / 10 ^ 8) := by
    rw [div_mul_eq_mul_div, le_div_iff₀ (by linarith)]
    nlinarith
  refine h4.trans ?_
  exact mul_le_mul_of_nonneg_right h3 (by norm_num)

theorem idpEpsSqrt_eq : idpEpsSqrt = 1 / 10 ^ 8 := by unfold idpEpsSqrt; norm_num

/-- the computed drag limited rate against the exact one -/
theorem dragRate_bounds {gamR x : ℝ} (hR : 0 < gamR) (hx : 0 ≤ x) :
    gamR * (1 - Real.exp (-x)) ≤ dragRate gamR x ∧
    dragRate gamR x ≤ gamR * (1 - Real.exp (-x)) * (1 + 1 / 10 ^ 8) := by
  have he : 0 ≤ 1 - Real.exp (-x) := by
    have : Real.exp (-x) ≤ 1 := Real.exp_le_one_iff.2 (by linarith)
    linarith
  unfold dragRate
  split_ifs with h
  · rw [idpEpsSqrt_eq] at h
    obtain ⟨h1, h2⟩ := one_sub_exp_bounds hx h.le
    exact ⟨mul_le_mul_of_nonneg_left h1 hR.le, by
      rw [mul_assoc]; exact mul_le_mul_of_nonneg_left h2 hR.le⟩
  · refine ⟨le_refl _, ?_⟩
    have := mul_nonneg hR.le he
    nlinarith

theorem dragRate_near_mono {gamR x y : ℝ} (hR : 0 < gamR) (hx : 0 ≤ x) (hxy : x ≤ y) :
    dragRate gamR x ≤ dragRate gamR y * (1 + 1 / 10 ^ 8) := by
  obtain ⟨-, h1⟩ := dragRate_bounds hR hx
  obtain ⟨h2, -⟩ := dragRate_bounds hR (hx.trans hxy)
  refine h1.trans (mul_le_mul_of_nonneg_right (le_trans ?_ h2) (by norm_num))
  apply mul_le_mul_of_nonneg_left _ hR.le
  have : Real.exp (-y) ≤ Real.exp (-x) := Real.exp_le_exp.2 (by linarith)
  linarith

/-- activation: once active, always active at higher stress, with a rate that does not drop -/
theorem thermal_mono {gamW cE gI gAth a b : ℝ} (hW : 0 < gamW) (hc : 0 ≤ cE) (hg : 0 < gI)
    (hp : 0 < k.p) (hq : 0 < k.q) (ha : 0 ≤ a) (hab : a ≤ b) {w : ℝ × ℝ × ℝ}
    (h : k.thermal gamW cE gI gAth a = some w) :
    ∃ w', k.thermal gamW cE gI gAth b = some w' ∧ w.1 ≤ w'.1 := by
  have ea : |a| = a := abs_of_nonneg ha
  have eb : |b| = b := abs_of_nonneg (ha.trans hab)
  have mf : (k.mtsDG cE gI ((a - gAth) * gI)).1 ≤ (k.mtsDG cE gI ((b - gAth) * gI)).1 :=
    k.mts_mono hp hq hc gI (mul_le_mul_of_nonneg_right (by linarith) hg.le)
  have mb : (k.mtsDG cE gI ((-b - gAth) * gI)).1 ≤ (k.mtsDG cE gI ((-a - gAth) * gI)).1 :=
    k.mts_mono hp hq hc gI (mul_le_mul_of_nonneg_right (by linarith) hg.le)
  have ef := mul_le_mul_of_nonneg_left (Real.exp_le_exp.2 mf) hW.le
  have eb' := mul_le_mul_of_nonneg_left (Real.exp_le_exp.2 mb) hW.le
  simp only [thermal, ea] at h
  simp only [thermal, eb]
  split_ifs at h with h1 h2 h3
  · simp only [Option.some.injEq] at h
    have h1' : ¬ (k.mtsDG cE gI ((b - gAth) * gI)).1 < lnGamRatioMin :=
      not_lt.2 ((not_lt.1 h1).trans mf)
    rw [if_neg h1']
    by_cases h2' : lnGamRatioMin < (k.mtsDG cE gI ((-b - gAth) * gI)).1
    · rw [if_pos h2', if_neg]
      · exact ⟨_, rfl, by rw [← h]; simp only; linarith⟩
      · rw [not_lt] at h3 ⊢
        refine h3.trans ?_
        have hpos : 0 ≤ gamW * Real.exp (k.mtsDG cE gI ((a - gAth) * gI)).1 -
            gamW * Real.exp (k.mtsDG cE gI ((-a - gAth) * gI)).1 := by
          have := k.mts_mono hp hq hc gI (mul_le_mul_of_nonneg_right
            (show -a - gAth ≤ a - gAth by linarith) hg.le)
          have := mul_le_mul_of_nonneg_left (Real.exp_le_exp.2 this) hW.le
          linarith
        rw [abs_div, abs_div]
        apply div_le_div_of_nonneg_right _ (abs_nonneg _)
        rw [abs_of_nonneg hpos, abs_of_nonneg (by linarith)]
        linarith
    · rw [if_neg h2']
      refine ⟨_, rfl, ?_⟩
      rw [← h]
      have := mul_pos hW (Real.exp_pos (k.mtsDG cE gI ((-a - gAth) * gI)).1)
      simp only; linarith
  · simp only [Option.some.injEq] at h
    have h1' : ¬ (k.mtsDG cE gI ((b - gAth) * gI)).1 < lnGamRatioMin :=
      not_lt.2 ((not_lt.1 h1).trans mf)
    have h2' : ¬ lnGamRatioMin < (k.mtsDG cE gI ((-b - gAth) * gI)).1 :=
      not_lt.2 (mb.trans (not_lt.1 h2))
    rw [if_neg h1', if_neg h2']
    exact ⟨_, rfl, by rw [← h]; simpa using ef⟩

theorem addPower_eq {gamW gI gAth xn tMin a w : ℝ} (hpos : 0 < (a - gAth) * gI) (hA : 0 < a - gAth) :
    addPower gamW gI gAth xn tMin a w =
      open Classical in
      if tMin < (a - gAth) * gI then w + gamW * 10 * ((a - gAth) * gI) ^ (xn + 1) else w := by
  unfold addPower
  rw [max_eq_right hA.le, Real.rpow_add_one hpos.ne', Real.rpow_def_of_pos hpos]
  split_ifs
  · rw [mul_comm xn]; ring
  · rfl

theorem addPower_mono {gamW gI gAth xn tMin a b w w' : ℝ} (hW : 0 < gamW) (hg : 0 < gI)
    (hA : 0 < a - gAth) (hab : a ≤ b) (hw : w ≤ w') (hn : 0 ≤ xn + 1) :
    addPower gamW gI gAth xn tMin a w ≤ addPower gamW gI gAth xn tMin b w' := by
  have hB : 0 < b - gAth := by linarith
  have h1 := mul_pos hA hg
  have h2 := mul_pos hB hg
  have h3 : (a - gAth) * gI ≤ (b - gAth) * gI := mul_le_mul_of_nonneg_right (by linarith) hg.le
  rw [addPower_eq h1 hA, addPower_eq h2 hB]
  have hr : ((a - gAth) * gI) ^ (xn + 1) ≤ ((b - gAth) * gI) ^ (xn + 1) :=
    Real.rpow_le_rpow h1.le h3 hn
  have hr0 : 0 ≤ ((b - gAth) * gI) ^ (xn + 1) := Real.rpow_nonneg h2.le _
  by_cases ha : tMin < (a - gAth) * gI
  · rw [if_pos ha, if_pos (ha.trans_le h3)]
    nlinarith [mul_le_mul_of_nonneg_left hr hW.le]
  · rw [if_neg ha]
    split_ifs
    · have : 0 ≤ gamW * 10 * ((b - gAth) * gI) ^ (xn + 1) := by positivity
      linarith
    · exact hw

theorem addPower_pos {gamW gI gAth xn tMin a w : ℝ} (hW : 0 < gamW) (hg : 0 < gI) (hw : 0 < w) :
    0 < addPower gamW gI gAth xn tMin a w := by
  unfold addPower
  have : 0 ≤ max 0 (a - gAth) * gI := mul_nonneg (le_max_left _ _) hg.le
  split_ifs
  · positivity
  · exact hw

/-- the slip rate is the magnitude with the sign of the stress -/
theorem sel_mag {gamW gamR g ct xn xnn tMin tMax tau : ℝ} (hR : 0 < gamR) (hD : 0 < k.wrD) :
    (k.evalGdotSel gamW gamR g ct xn xnn tMin tMax tau).gdot =
      open Classical in
      if k.withGA = false ∧ tau = 0 then 0
      else copysign (k.mag gamW gamR (ct * k.muRef) (if k.withGA then 1 / k.tauA else 1 / g)
        (if k.withGA then g else k.tauA) xn tMin tMax |tau|) tau := by
  have hz : ∀ t : ℝ, copysign 0 t = 0 := fun t => by unfold copysign; simp
  simp only [evalGdotSel]
  generalize (if k.withGA then 1 / k.tauA else 1 / g) = gI
  generalize (if k.withGA then g else k.tauA) = gAth
  by_cases h0 : k.withGA = false ∧ tau = 0
  · rw [if_pos h0, if_pos h0]
  · rw [if_neg h0, if_neg h0]
    unfold mag
    by_cases h1 : (|tau| - gAth) / k.wrD < gamRatioMin
    · rw [if_pos h1]
      have : k.drag gamR ((|tau| - gAth) / k.wrD) = none := by unfold drag; rw [if_pos h1]
      simp only [this, hz]
    · rw [if_neg h1]
      obtain ⟨d, hd⟩ : ∃ d, k.drag gamR ((|tau| - gAth) / k.wrD)
          = some (dragRate gamR ((|tau| - gAth) / k.wrD), d) := by
        unfold drag dragRate
        rw [if_neg h1]
        split_ifs
        · exact ⟨_, rfl⟩
        · exact ⟨_, rfl⟩
      simp only [hd]
      by_cases h2 : tMax < max 0 (|tau| - gAth) * gI
      · rw [if_pos h2, if_pos h2]
      · rw [if_neg h2, if_neg h2]
        have ht : k.thermal gamW (ct * k.muRef) gI gAth |tau| = k.thermal gamW (ct * k.muRef) gI gAth tau := by
          simp only [thermal, abs_abs]
        rw [ht]
        cases k.thermal gamW (ct * k.muRef) gI gAth tau with
        | none => simp only [Option.elim, hz]
        | some w =>
          simp only [Option.elim]
          rfl

theorem mag_nonneg {gamW gamR cE gI gAth xn tMin tMax a : ℝ} (hW : 0 < gamW) (hR : 0 < gamR)
    (hc : 0 ≤ cE) (hg : 0 < gI) (hp : 0 < k.p) (hq : 0 < k.q) :
    0 ≤ k.mag gamW gamR cE gI gAth xn tMin tMax a := by
  unfold mag
  split_ifs with h1 h2
  · exact le_refl _
  · exact (dragRate_pos hR (gamRatioMin_pos.trans_le (not_lt.1 h1))).le
  · cases ht : k.thermal gamW cE gI gAth a with
    | none => exact le_refl _
    | some w =>
      obtain ⟨w, d, e⟩ := w
      exact (harm_pos (addPower_pos hW hg (k.thermal_pos hW hc hg hp hq ht))
        (dragRate_pos hR (gamRatioMin_pos.trans_le (not_lt.1 h1)))).le

theorem mag_near_mono {gamW gamR cE gI gAth xn tMin tMax a b : ℝ} (hW : 0 < gamW) (hR : 0 < gamR)
    (hD : 0 < k.wrD) (hc : 0 ≤ cE) (hg : 0 < gI) (hp : 0 < k.p) (hq : 0 < k.q) (hn : 0 ≤ xn + 1)
    (ha : 0 ≤ a) (hab : a ≤ b) :
    k.mag gamW gamR cE gI gAth xn tMin tMax a ≤
      k.mag gamW gamR cE gI gAth xn tMin tMax b * (1 + 1 / 10 ^ 8) := by
  have hb0 := k.mag_nonneg (gAth := gAth) (xn := xn) (tMin := tMin) (tMax := tMax) (a := b)
    hW hR hc hg hp hq
  have hb1 : 0 ≤ k.mag gamW gamR cE gI gAth xn tMin tMax b * (1 + 1 / 10 ^ 8) :=
    mul_nonneg hb0 (by norm_num)
  by_cases h1 : (a - gAth) / k.wrD < gamRatioMin
  · have : k.mag gamW gamR cE gI gAth xn tMin tMax a = 0 := by unfold mag; rw [if_pos h1]
    rw [this]; exact hb1
  have hxy : (a - gAth) / k.wrD ≤ (b - gAth) / k.wrD :=
    div_le_div_of_nonneg_right (by linarith) hD.le
  have h1' : ¬ (b - gAth) / k.wrD < gamRatioMin := not_lt.2 ((not_lt.1 h1).trans hxy)
  have hx0 : 0 < (a - gAth) / k.wrD := gamRatioMin_pos.trans_le (not_lt.1 h1)
  have hA : 0 < a - gAth := by rwa [lt_div_iff₀ hD, zero_mul] at hx0
  have hB : 0 < b - gAth := by linarith
  have hdr := dragRate_near_mono hR hx0.le hxy
  have hRa := dragRate_pos hR hx0
  have hRb := dragRate_pos hR (hx0.trans_le hxy)
  have hmm : max 0 (a - gAth) * gI ≤ max 0 (b - gAth) * gI :=
    mul_le_mul_of_nonneg_right (max_le_max_left _ (by linarith)) hg.le
  by_cases h2 : tMax < max 0 (a - gAth) * gI
  · unfold mag
    rw [if_neg h1, if_neg h1', if_pos h2, if_pos (h2.trans_le hmm)]
    exact hdr
  cases ht : k.thermal gamW cE gI gAth a with
  | none =>
    have : k.mag gamW gamR cE gI gAth xn tMin tMax a = 0 := by
      unfold mag; rw [if_neg h1, if_neg h2, ht]; rfl
    rw [this]; exact hb1
  | some w =>
    obtain ⟨w', ht', hww⟩ := k.thermal_mono hW hc hg hp hq ha hab ht
    have hw : 0 < w.1 := by
      obtain ⟨w1, d, e⟩ := w
      exact k.thermal_pos hW hc hg hp hq ht
    have hp1 := addPower_pos (xn := xn) (tMin := tMin) (gAth := gAth) (a := a) hW hg hw
    have hp2 := addPower_mono (xn := xn) (tMin := tMin) hW hg hA hab hww hn
    by_cases h2' : tMax < max 0 (b - gAth) * gI
    · unfold mag
      rw [if_neg h1, if_neg h1', if_neg h2, if_pos h2', ht]
      exact (harm_le_right hp1 hRa).trans hdr
    · unfold mag
      rw [if_neg h1, if_neg h1', if_neg h2, if_neg h2', ht, ht']
      simp only [Option.elim]
      have h3 := harm_mono hp1 hRa hp2 hdr
      exact h3.trans (harm_scale (hp1.trans_le hp2) hRb (by norm_num))

end KMBalD
end Ecm
