/- Property theorems C115: the checks of the slip geometry, and what the option NO_CHECKS leaves out. -/
import Verif.Model.NoChecks
import Verif.Props.SlipGeom

namespace Ecm.Props
open Ecm Spec Matrix Classical

theorem epsSqrt_eq : idpEpsSqrt = 1 / 10 ^ 8 := by unfold idpEpsSqrt; norm_num

/-- C115 where the checks do not object, the option changes nothing: tables of slip systems. -/
theorem C115_same_fill {n : ℕ} (m s : Fin n → Vec 3) (G : SlipGeom n) :
    fillFromMS m s = .ok G ↔ fillFree m s = .ok G ∧ ∀ i, |dot (m i) (s i)| ≤ 1 / 10 ^ 8 := by
  have hd : ∀ i, vecsyadotb (m i) (s i) = dot (m i) (s i) := fun i => rfl
  unfold fillFromMS fillFree
  simp only [hd, epsSqrt_eq]
  constructor
  · intro h
    split_ifs at h with hc
    push Not at hc
    exact ⟨h, hc⟩
  · rintro ⟨h, hc⟩
    rw [if_neg (by push Not; exact hc)]
    exact h

/-- C115 where the checks do not object, the option changes nothing: four-index vectors. -/
theorem C115_same_miller (a b : Vec 4) (r : ℝ) (x : Vec 3 × Vec 3) :
    millerToOrthogSngl a b r = .ok x ↔ millerFree a b r = .ok x ∧ |a 0 + a 1 + a 2| ≤ 1 / 10 ^ 8 ∧
      |b 0 + b 1 + b 2| ≤ 1 / 10 ^ 8 ∧ |dot x.1 x.2| ≤ 1 / 10 ^ 8 := by
  have hd : ∀ m s : Vec 3, vecsyadotb m s = dot m s := fun m s => rfl
  unfold millerToOrthogSngl millerFree
  simp only [hd, epsSqrt_eq]
  by_cases h1 : 1 / 10 ^ 8 < |a 0 + a 1 + a 2|
  · rw [if_pos h1]
    exact ⟨fun h => (by cases h), fun h => absurd h.2.1 (not_le.2 h1)⟩
  rw [if_neg h1]
  by_cases h2 : 1 / 10 ^ 8 < |b 0 + b 1 + b 2|
  · rw [if_pos h2]
    exact ⟨fun h => (by cases h), fun h => absurd h.2.2.1 (not_le.2 h2)⟩
  rw [if_neg h2]
  by_cases h3 : vecNorm (mToODir b r) = 0
  · rw [if_pos h3, if_pos h3]
    exact ⟨fun h => (by cases h), fun h => by cases h.1⟩
  rw [if_neg h3, if_neg h3]
  cases millerPlane a r with
  | undef w => exact ⟨fun h => (by cases h), fun h => by cases h.1⟩
  | fail w => exact ⟨fun h => (by cases h), fun h => by cases h.1⟩
  | ok m0 =>
    simp only [Out.bind]
    by_cases h4 : vecNorm m0 = 0
    · rw [if_pos h4, if_pos h4]
      exact ⟨fun h => (by cases h), fun h => by cases h.1⟩
    rw [if_neg h4, if_neg h4]
    by_cases h5 : 1 / 10 ^ 8 < |dot (millerAlign a (vecsVNormalize m0)) (vecsVNormalize (mToODir b r))|
    · rw [if_pos h5]
      refine ⟨fun h => (by cases h), fun h => ?_⟩
      obtain ⟨h, -, -, h'⟩ := h
      rw [← Out.ok.inj h] at h'
      exact absurd h' (not_le.2 h5)
    · rw [if_neg h5]
      refine ⟨fun h => ⟨h, not_lt.1 h1, not_lt.1 h2, ?_⟩, fun h => h.1⟩
      rw [← Out.ok.inj h]
      exact not_lt.1 h5

/-- C115 no material of the library depends on the option: the tables of the four cubic classes and of the hexagonal class,
    for every positive ratio of the axes. -/
theorem C115_library : fillFree fccM fccS = slipGeomFCC ∧ fillFree bccM12 bccS12 = slipGeomBCC12 ∧
    fillFree bccM24 bccS24 = slipGeomBCC24 ∧ fillFree bccM48 bccS48 = slipGeomBCC48 ∧
    ∀ r, 0 < r → slipGeomHCPFree r = slipGeomHCP r := by
  refine ⟨C16_fcc.2.symm, C16_bcc.1.2.symm, C16_bcc.2.1.2.symm, C16_bcc.2.2.2.symm, fun r hr => ?_⟩
  obtain ⟨m, s, hms, -, hG⟩ := C16_hcp r hr
  have hb : ∀ {α β : Type} {x : Out α} {f : α → Out β} {y : β}, Out.bind x f = .ok y → ∃ a, x = .ok a ∧ f a = .ok y := by
    intro α β x f y h
    cases x with
    | ok a => exact ⟨a, rfl, h⟩
    | fail w => cases h
    | undef w => cases h
  have hf : hcpMSFree r = .ok (m, s) := by
    unfold hcpMS at hms
    obtain ⟨ya, h1, hms⟩ := hb hms
    obtain ⟨y1, h2, hms⟩ := hb hms
    unfold hcpMSFree
    rw [((C115_same_miller _ _ r ya).1 h1).1]
    simp only [Out.bind]
    rw [((C115_same_miller _ _ r y1).1 h2).1]
    exact hms
  rw [hG]
  unfold slipGeomHCPFree
  rw [hf]
  rfl

/-- C115 what the check of the tables is worth: for a symmetric stress the resolved shear stress of the code misses the shear
    component of the traction by the mean stress times the product of normal and direction. -/
theorem C115_miss {n : ℕ} (m s : Fin n → Vec 3) (T : T3) (hT : T.IsSymm) (i : Fin n) :
    dot (s i) (T.mulVec (m i)) - vecsVaTM (symmToVecd T) (slipPQ m s).P i = T.trace / 3 * dot (m i) (s i) := by
  have h10 : T 1 0 = T 0 1 := hT.apply 0 1
  have h20 : T 2 0 = T 0 2 := hT.apply 0 2
  have h21 : T 2 1 = T 1 2 := hT.apply 1 2
  rw [Matrix.trace_fin_three]
  simp only [vecsVaTM, slipPQ, matToP, symmToVecd, vecsMsymm, vecsMaTb, Fin.sum_univ_five,
    Matrix.cons_val, dot, Matrix.mulVec, dotProduct, Fin.sum_univ_three, h10, h20, h21]
  sqr_ring

/-- C115 the resolved shear stress is right for all stresses exactly if the direction lies in the plane; with a table that the
    check accepts it is wrong by at most 1e-8 times the mean stress. -/
theorem C115_worth {n : ℕ} (m s : Fin n → Vec 3) :
    (∀ i, (∀ T : T3, T.IsSymm → vecsVaTM (symmToVecd T) (slipPQ m s).P i = dot (s i) (T.mulVec (m i))) ↔ dot (m i) (s i) = 0) ∧
    ∀ G, fillFromMS m s = .ok G → ∀ i (T : T3), T.IsSymm →
      |dot (s i) (T.mulVec (m i)) - vecsVaTM (symmToVecd T) G.P i| ≤ |T.trace / 3| / 10 ^ 8 := by
  constructor
  · intro i
    constructor
    · intro h
      have h1 := C115_miss m s 1 Matrix.isSymm_one i
      rw [h 1 Matrix.isSymm_one, sub_self, Matrix.trace_one] at h1
      simp at h1
      exact h1.symm
    · intro h T hT
      have := C115_miss m s T hT i
      rw [h, mul_zero] at this
      linarith
  · intro G hG i T hT
    obtain ⟨h1, h2⟩ := (C115_same_fill m s G).1 hG
    rw [← Out.ok.inj h1, C115_miss m s T hT i, abs_mul, div_eq_mul_one_div _ ((10 : ℝ) ^ 8)]
    exact mul_le_mul_of_nonneg_left (h2 i) (abs_nonneg _)

/-- C115 with the option a direction along the normal is accepted; under hydrostatic stress the resolved shear stress of the code
    is zero where the traction along the direction is the full stress. -/
theorem C115_refuted_free : ∃ (m s : Fin 1 → Vec 3) (G : SlipGeom 1), fillFree m s = .ok G ∧
    fillFromMS m s = .fail "internal error" ∧ vecsVaTM (symmToVecd 1) G.P 0 = 0 ∧ dot (s 0) ((1 : T3).mulVec (m 0)) = 1 := by
  refine ⟨fun _ => ![0, 0, 1], fun _ => ![0, 0, 1], _, rfl, ?_, ?_, ?_⟩
  · exact C16_check_rejects _ _ 0 (by simp [dot, Fin.sum_univ_three]; norm_num)
  · have := C115_miss (fun _ : Fin 1 => ![0, 0, 1]) (fun _ => ![0, 0, 1]) 1 Matrix.isSymm_one 0
    rw [Matrix.trace_one] at this
    simp [dot, Fin.sum_univ_three] at this
    exact this
  · simp [dot, Fin.sum_univ_three]

/-- C115 the message of the last check of the four-index vectors is misleading: "internal error" is what a plane and a direction
    that does not lie in it give, with indices that are in order. -/
theorem C115_refuted_internal : millerToOrthogSngl ![0, 0, 0, 1] ![0, 0, 0, 1] 1 = .fail "internal error" ∧
    millerFree ![0, 0, 0, 1] ![0, 0, 0, 1] 1 = .ok (![0, 0, 1], ![0, 0, 1]) := by
  have ho : mToODir ![0, 0, 0, 1] 1 = ![0, 0, 1] := by
    ext i
    fin_cases i <;> simp [mToODir]
  have hn : vecNorm (![0, 0, 1] : Vec 3) = 1 := by simp [vecNorm, Fin.sum_univ_three]
  have hv : vecsVNormalize (![0, 0, 1] : Vec 3) = ![0, 0, 1] := by
    ext i
    fin_cases i <;> simp [vecsVNormalize, vecsVsa, hn]
  have hp : millerPlane ![0, 0, 0, 1] 1 = .ok ![0, 0, 1] := by
    unfold millerPlane
    rw [if_pos (by simp [epsSqrt_eq])]
  have ha : millerAlign ![0, 0, 0, 1] ![0, 0, 1] = ![0, 0, 1] := by
    unfold millerAlign
    rw [if_neg (by simp)]
  have hd : vecsyadotb (![0, 0, 1] : Vec 3) ![0, 0, 1] = 1 := by simp [vecsyadotb, Fin.sum_univ_three]
  constructor
  · unfold millerToOrthogSngl
    rw [if_neg (by simp [epsSqrt_eq]), if_neg (by simp [epsSqrt_eq])]
    simp only [ho, hn, hp, hv, ha, hd, Out.bind, one_ne_zero, if_false]
    rw [if_pos (by rw [epsSqrt_eq]; norm_num)]
  · unfold millerFree
    simp only [ho, hn, hp, hv, ha, Out.bind, one_ne_zero, if_false]

theorem bind_undef {α β : Type} {x : Out α} {f : α → Out β} {w : String} (h : Out.bind x f = .undef w) :
    x = .undef w ∨ ∃ a, x = .ok a ∧ f a = .undef w := by
  cases x with
  | ok a => exact Or.inr ⟨a, rfl, h⟩
  | fail w => cases h
  | undef w' =>
    left
    have : w' = w := by
      simp only [Out.bind] at h
      exact Out.undef.inj h
    rw [this]

/-- C115 what the check of the plane indices protects from: with it a division by a zero index can only happen if all three basal
    indices are at most 2e-8. -/
theorem C115_protects (a b : Vec 4) (r : ℝ) (h : millerToOrthogSngl a b r = .undef "division by zero plane index") :
    |a 0| ≤ 2 / 10 ^ 8 ∧ |a 1| ≤ 2 / 10 ^ 8 ∧ |a 2| ≤ 2 / 10 ^ 8 := by
  unfold millerToOrthogSngl at h
  rw [epsSqrt_eq] at h
  split_ifs at h with h1 h2
  simp only at h
  by_cases h3 : vecNorm (mToODir b r) = 0
  · rw [if_pos h3] at h
    simp at h
  rw [if_neg h3] at h
  push Not at h1
  have hb : millerPlane a r = .undef "division by zero plane index" := by
    rcases bind_undef h with h | ⟨m0, -, h⟩
    · exact h
    · split_ifs at h
      simp at h
  have hc : millerBasal a r = .undef "division by zero plane index" := by
    unfold millerPlane at hb
    by_cases h5 : |a 0| + |a 1| + |a 2| < idpEpsSqrt
    · rw [if_pos h5] at hb
      cases hb
    rw [if_neg h5] at hb
    rcases bind_undef hb with h | ⟨m0, -, h⟩
    · exact h
    · split_ifs at h
  unfold millerBasal at hc
  rw [epsSqrt_eq] at hc
  rw [abs_le] at h1
  split_ifs at hc with h4 h5 h6 h7
  · rw [abs_lt] at h4
    rcases h5 with h5 | h5 <;> rw [h5] at h1 ⊢ <;> refine ⟨?_, ?_, ?_⟩ <;> rw [abs_le] <;> constructor <;>
      norm_num at h1 h4 ⊢ <;> linarith [h1.1, h1.2, h4.1, h4.2]
  · rw [abs_lt] at h6
    rw [h7] at h1 ⊢
    refine ⟨?_, ?_, ?_⟩ <;> rw [abs_le] <;> constructor <;> norm_num at h1 h6 ⊢ <;> linarith [h1.1, h1.2, h6.1, h6.2]

/-- C115 without the check the plane (1 0 0 0) leads to a division by zero; with it, an index of exactly 1e-8 still does. -/
theorem C115_refuted_division : millerFree ![1, 0, 0, 0] ![1, -1, 0, 0] 1 = .undef "division by zero plane index" ∧
    millerToOrthogSngl ![1, 0, 0, 0] ![1, -1, 0, 0] 1 = .fail "bad ann" ∧
    millerToOrthogSngl ![1 / 10 ^ 8, 0, 0, 0] ![1, -1, 0, 0] 1 = .undef "division by zero plane index" := by
  have hn : vecNorm (mToODir ![1, -1, 0, 0] 1) ≠ 0 := by
    intro h
    have := vecNorm3_sq (mToODir ![1, -1, 0, 0] 1)
    rw [h] at this
    simp [mToODir] at this
    nlinarith [s3_pos]
  have hp : ∀ t : ℝ, 1 / 10 ^ 8 ≤ t → millerPlane ![t, 0, 0, 0] 1 = .undef "division by zero plane index" := by
    intro t ht
    have h0 : |t| = t := abs_of_nonneg (le_trans (by norm_num) ht)
    have hb : millerBasal ![t, 0, 0, 0] 1 = .undef "division by zero plane index" := by
      unfold millerBasal
      rw [epsSqrt_eq]
      rw [if_neg (by simp only [Matrix.cons_val_zero, h0]; exact not_lt.2 ht), if_pos (by simp), if_pos (by simp)]
    unfold millerPlane
    rw [hb, epsSqrt_eq]
    simp [h0, Out.bind]
    norm_num at ht ⊢
    exact ht
  refine ⟨?_, (C19_rejects _ _ 1).1 (by simp; norm_num), ?_⟩
  · unfold millerFree
    simp only [if_neg hn]
    rw [hp 1 (by norm_num)]
    rfl
  · unfold millerToOrthogSngl
    rw [epsSqrt_eq, if_neg (by simp), if_neg (by simp)]
    simp only [if_neg hn]
    rw [hp _ le_rfl]
    rfl

/-- the hypotheses of C115_worth and of C115_same_fill can be met -/
example : ∃ G, fillFromMS fccM fccS = .ok G := ⟨_, C16_fcc.2⟩

example : ∃ a b : Vec 4, millerToOrthogSngl a b 1 = .undef "division by zero plane index" := ⟨_, _, C115_refuted_division.2.2⟩

example : ∃ x, millerToOrthogSngl ![1, 0, -1, 1] ![1, -2, 1, 0] 1.587 = .ok x := by
  obtain ⟨m, s, h, -⟩ := C19_miller ![1, 0, -1, 1] ![1, -2, 1, 0] 1.587 (by norm_num) (by simp) (by
    intro j; fin_cases j <;> norm_num) (fun h => by simpa using congrFun h 0) (by simp; norm_num) (fun h => by simpa using congrFun h 0)
    (by simp [Fin.sum_univ_four])
  exact ⟨_, h⟩

end Ecm.Props
