/- Property theorems C118, second part: the balanced MTS law passes a NaN on (src/ecmech/ECMech_kinetics_KMBalD.h:307-356, 391-604). -/
import Verif.Model.NanKM
import Verif.Props.NanSlip

namespace Ecm.Props
open Ecm Spec

variable {nV : ℕ}

@[simp] theorem op1_num (f : ℝ → ℝ) (a : ℝ) : (Fl.num a).op1 f = .num (f a) := rfl
@[simp] theorem op1_nan (f : ℝ → ℝ) : Fl.nan.op1 f = .nan := rfl
@[simp] theorem op2_num (f : ℝ → ℝ → ℝ) (a b : ℝ) : Fl.op2 f (.num a) (.num b) = .num (f a b) := rfl
@[simp] theorem op2_nan (f : ℝ → ℝ → ℝ) (x : Fl) : Fl.op2 f .nan x = .nan := by cases x <;> rfl

theorem kmPFuncF_num (k : KMBalD nV) (t : ℝ) : kmPFuncF k (.num t) = .num (k.pFunc t) := by
  unfold kmPFuncF KMBalD.pFunc
  simp only [fl_abs, fl_lt, op1_num, op2_num]
  by_cases h1 : k.pOne = true
  · rw [if_pos h1, if_pos h1]
  · rw [if_neg h1, if_neg h1]
    by_cases h2 : |t| < idpTinySqrt
    · rw [if_pos h2, if_pos h2]
    · rw [if_neg h2, if_neg h2]

theorem kmExpArgF_num (k : KMBalD nV) (cE d t : ℝ) : kmExpArgF k cE (.num t) = .num (k.mtsDG cE d t).1 := by
  unfold kmExpArgF KMBalD.mtsDG
  simp only [kmPFuncF_num, fl_abs, fl_lt, fl_sub, fl_mul, op1_num, op2_num]
  by_cases h1 : 1 - k.pFunc t < idpTinySqrt
  · rw [if_pos h1, if_pos h1]
  · rw [if_neg h1, if_neg h1]
    by_cases h2 : k.qOne = true
    · rw [if_pos h2, if_pos h2]
    · rw [if_neg h2, if_neg h2]

theorem kmDragF_num (k : KMBalD nV) (gamR x : ℝ) : kmDragF gamR (.num x) = (k.drag gamR x).map fun p => .num p.1 := by
  unfold kmDragF KMBalD.drag
  simp only [fl_lt, fl_mul, fl_neg, fl_sub, op1_num]
  by_cases h1 : x < gamRatioMin
  · rw [if_pos h1, if_pos h1]; rfl
  · rw [if_neg h1, if_neg h1]
    by_cases h2 : x < idpEpsSqrt
    · rw [if_pos h2, if_pos h2]; rfl
    · rw [if_neg h2, if_neg h2]; rfl

theorem kmThermalF_num (k : KMBalD nV) (gamW cE gI gAth tau : ℝ) :
    kmThermalF k gamW cE (.num gI) (.num gAth) (.num tau) = (k.thermal gamW cE gI gAth tau).map fun p => .num p.1 := by
  unfold kmThermalF KMBalD.thermal
  simp only [fl_abs, fl_neg, fl_sub, fl_mul, kmExpArgF_num k cE gI, fl_lt, op1_num]
  by_cases h1 : (k.mtsDG cE gI ((|tau| - gAth) * gI)).1 < lnGamRatioMin
  · rw [if_pos h1, if_pos h1]; rfl
  · rw [if_neg h1, if_neg h1]
    by_cases h2 : lnGamRatioMin < (k.mtsDG cE gI ((-|tau| - gAth) * gI)).1
    · rw [if_pos h2, if_pos h2]
      by_cases h3 : |(gamW * Real.exp (k.mtsDG cE gI ((|tau| - gAth) * gI)).1
          - gamW * Real.exp (k.mtsDG cE gI ((-|tau| - gAth) * gI)).1) / gamW| < gamRatioMin
      · rw [if_pos h3, if_pos h3]; rfl
      · rw [if_neg h3, if_neg h3]; rfl
    · rw [if_neg h2, if_neg h2]; rfl

/-- C118 with numbers the rate of the balanced MTS law is that of the model without NaN. -/
theorem C118_km_numbers (k : KMBalD nV) (gamW gamR g ct xn xnn tMin tMax tau : ℝ) :
    kmRateF k gamW gamR ct xn tMin tMax (.num g) (.num tau)
      = .num (k.evalGdotSel gamW gamR g ct xn xnn tMin tMax tau).gdot := by
  unfold kmRateF KMBalD.evalGdotSel
  have e1 : (if k.withGA = true then Fl.num g else .num k.tauA) = .num (if k.withGA = true then g else k.tauA) := by
    split_ifs <;> rfl
  have e2 : (if k.withGA = true then Fl.num (1 / k.tauA) else (Fl.num g).inv)
      = .num (if k.withGA = true then 1 / k.tauA else 1 / g) := by split_ifs <;> rfl
  simp only [e1, e2]
  generalize (if k.withGA = true then g else k.tauA) = gA
  generalize (if k.withGA = true then 1 / k.tauA else 1 / g) = gI
  have e3 : fmaxF (.num 0) ((Fl.num tau).abs - .num gA) * .num gI = .num (max 0 (|tau| - gA) * gI) := rfl
  have e4 : ((Fl.num tau).abs - .num gA).op1 (· / k.wrD) = .num ((|tau| - gA) / k.wrD) := rfl
  rw [e3, e4, kmDragF_num k]
  by_cases h0 : k.withGA = false ∧ tau = 0
  · rw [if_pos (by simpa using h0), if_pos h0]
  rw [if_neg (by simpa using h0), if_neg h0]
  cases k.drag gamR ((|tau| - gA) / k.wrD) with
  | none => rfl
  | some p =>
    simp only [Option.map_some]
    unfold kmCoreF
    rw [kmThermalF_num]
    by_cases h1 : tMax < max 0 (|tau| - gA) * gI
    · rw [if_pos (by exact h1), if_pos h1]; rfl
    rw [if_neg (by exact h1), if_neg h1]
    cases k.thermal gamW (ct * k.muRef) gI gA tau with
    | none => rfl
    | some q =>
      simp only [Option.map_some]
      by_cases h2 : tMin < max 0 (|tau| - gA) * gI
      · rw [if_pos (by exact h2), if_pos h2]; rfl
      · rw [if_neg (by exact h2), if_neg h2]; rfl

theorem kmExpArgF_nan (k : KMBalD nV) (cE : ℝ) : kmExpArgF k cE .nan = .nan := by
  have : kmPFuncF k .nan = .nan := by
    unfold kmPFuncF
    split_ifs with h1 h2
    · rfl
    · simp at h2
    · simp
  unfold kmExpArgF
  simp [this]

theorem kmThermalF_nan (k : KMBalD nV) (gamW cE : ℝ) {gI gAth tau : Fl} (h : (tau.abs - gAth) * gI = .nan)
    (h' : (-tau.abs - gAth) * gI = .nan) : kmThermalF k gamW cE gI gAth tau = some .nan := by
  unfold kmThermalF
  simp [h, h', kmExpArgF_nan]

theorem kmCoreF_nan (k : KMBalD nV) (gamW ct xn tMin tMax : ℝ) {gAth gI tau : Fl} (at0 : Fl)
    (h : (tau.abs - gAth) * gI = .nan) (h' : (-tau.abs - gAth) * gI = .nan) :
    kmCoreF k gamW ct xn tMin tMax gAth gI at0 .nan tau = .nan := by
  unfold kmCoreF
  rw [kmThermalF_nan k _ _ h h']
  by_cases h1 : (Fl.num tMax).lt at0
  · rw [if_pos h1, op2_nan]
  · rw [if_neg h1]
    simp only [nan_inv, add_nan, op2_nan]

/-- C118 in the balanced MTS law a NaN as stress gives a NaN as rate, in contrast to the power law. -/
theorem C118_km_stress (k : KMBalD nV) (gamW gamR ct xn tMin tMax : ℝ) (g : Fl) :
    kmRateF k gamW gamR ct xn tMin tMax g .nan = .nan := by
  have hd : kmDragF gamR .nan = some .nan := by
    unfold kmDragF
    simp
  unfold kmRateF
  simp only [nan_abs, nan_sub, op1_nan, hd]
  rw [if_neg (by simp)]
  exact kmCoreF_nan k _ _ _ _ _ _ (by simp) (by simp)

/-- C118 in the balanced MTS law with the strength as athermal stress a NaN as strength gives a NaN as rate; with the strength
    as divisor it does so for every stress beyond the return of line 450, and below it the rate is zero. -/
theorem C118_km_strength (k : KMBalD nV) (gamW gamR ct xn tMin tMax : ℝ) (tau : ℝ) :
    (k.withGA = true → kmRateF k gamW gamR ct xn tMin tMax .nan (.num tau) = .nan) ∧
    (k.withGA = false → tau ≠ 0 → gamRatioMin ≤ (|tau| - k.tauA) / k.wrD →
      kmRateF k gamW gamR ct xn tMin tMax .nan (.num tau) = .nan) ∧
    (k.withGA = false → (|tau| - k.tauA) / k.wrD < gamRatioMin →
      kmRateF k gamW gamR ct xn tMin tMax .nan (.num tau) = .num 0) := by
  refine ⟨fun hw => ?_, fun hw ht hx => ?_, fun hw hx => ?_⟩
  · have hd : kmDragF gamR .nan = some .nan := by
      unfold kmDragF
      simp
    unfold kmRateF
    simp only [hw, if_true, sub_nan, op1_nan, hd]
    rw [if_neg (fun h => by rw [hw] at h; cases h.1)]
    exact kmCoreF_nan k _ _ _ _ _ _ (by simp) (by simp)
  · have hd : ∃ r, kmDragF gamR (.num ((|tau| - k.tauA) / k.wrD)) = some r := by
      unfold kmDragF
      rw [if_neg (by simpa using hx)]
      split_ifs <;> exact ⟨_, rfl⟩
    obtain ⟨r, hr⟩ := hd
    unfold kmRateF kmCoreF
    simp only [hw, Bool.false_eq_true, if_false, fl_abs, fl_sub, op1_num, hr, nan_inv, mul_nan, lt_nan]
    rw [if_neg (fun h => ht (by simpa using h.2)), kmThermalF_nan k _ _ (by simp) (by simp)]
    simp
  · have hd : kmDragF gamR (.num ((|tau| - k.tauA) / k.wrD)) = none := by
      unfold kmDragF
      rw [if_pos (by simpa using hx)]
    unfold kmRateF
    simp only [hw, Bool.false_eq_true, if_false, fl_abs, fl_sub, op1_num, hd]
    split_ifs <;> rfl

/-- the hypotheses can be met: stresses on both sides of the return of line 450 -/
example (k : KMBalD nV) (hw : k.wrD = 1) (ha : k.tauA = 0) :
    gamRatioMin ≤ (|(1 : ℝ)| - k.tauA) / k.wrD ∧ (|(0 : ℝ)| - k.tauA) / k.wrD < gamRatioMin := by
  rw [hw, ha]
  unfold gamRatioMin
  norm_num

end Ecm.Props
