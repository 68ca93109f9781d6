/- Property theorem C63 (nonlinear Voce hardening: documented law and relaxation towards saturation below
   the saturation strength; refuted above it). -/
import Verif.Props.Hardening

namespace Ecm.Props
open Ecm Spec

/-- nonlinear Voce hardening: rate of the strength `h` at slip rate `γ`, for initial strength `s0`,
    saturation strength `sat`, hardening rate `θ` and exponent `m`; documented for strengths up to the
    saturation strength, no hardening when that does not exceed the initial strength -/
noncomputable def voceRateNL (θ s0 sat m γ h : ℝ) : ℝ :=
  open Classical in if sat ≤ s0 then 0 else θ * ((sat - h) / (sat - s0)) ^ m * γ

/-- the effective slip rate of an update -/
def slipRate {n : ℕ} (gdot : Vec n) : ℝ := ∑ i, |gdot i|

/-- the saturation strength of an update -/
noncomputable def satOf {n : ℕ} (k : Voce) (gdot : Vec n) : ℝ :=
  voceSat k.taus0 k.gamss0 k.xms (slipRate gdot)

theorem getEvolVals_eq {n : ℕ} (k : Voce) (gdot : Vec n) :
    k.getEvolVals gdot = (slipRate gdot, satOf k gdot) := rfl

theorem slipRate_nonneg {n : ℕ} (gdot : Vec n) : 0 ≤ slipRate gdot :=
  Finset.sum_nonneg fun _ _ => abs_nonneg _

theorem nl_exp (k : Voce) (hk : k.nonlinear = true) : k.xmprime1 = k.xmprime - 1 := by
  unfold Voce.xmprime1; rw [if_pos hk]

/-- the law where the saturation strength exceeds the initial strength -/
theorem nl_law (k : Voce) (hk : k.nonlinear = true) {γ sat h : ℝ} (hs : k.tausi < sat)
    (hb : 0 < (sat - h) * (1 / (sat - k.tausi)) ∨
      ((sat - h) * (1 / (sat - k.tausi)) = 0 ∧ 0 ≤ k.xmprime - 1) ∨
      ((sat - h) * (1 / (sat - k.tausi)) < 0 ∧ ∃ z : ℤ, k.xmprime - 1 = z)) :
    (k.getSdot1 (γ, sat) h).map Prod.fst =
      some (k.h0 * ((sat - h) * (1 / (sat - k.tausi))) ^ (k.xmprime - 1) * (sat - h) *
        (1 / (sat - k.tausi)) * γ) := by
  have hb' := hb
  rw [← nl_exp k hk] at hb'
  simp only [Voce.getSdot1, hk, if_true]
  rw [if_neg (not_le.2 hs), if_pos hb', nl_exp k hk]
  rfl

/-- where the law is undefined -/
theorem nl_none (k : Voce) (hk : k.nonlinear = true) {γ sat h : ℝ} (hs : k.tausi < sat)
    (hh : sat < h) (hm : ∀ z : ℤ, k.xmprime ≠ z) : k.getSdot1 (γ, sat) h = none := by
  simp only [Voce.getSdot1, hk, if_true]
  have hneg : (sat - h) * (1 / (sat - k.tausi)) < 0 :=
    mul_neg_of_neg_of_pos (by linarith) (one_div_pos.2 (by linarith))
  rw [if_neg (not_le.2 hs), if_neg]
  rintro (h1 | h1 | ⟨-, z, hz⟩)
  · linarith
  · linarith [h1.1]
  · rw [nl_exp k hk] at hz
    apply hm (z + 1)
    push_cast; linarith

/-- **C63, documented law.** Up to the saturation strength the rate is
    `θ ((sat - h)/(sat - s0))^m γ` with the effective slip rate `γ = ∑ |gdot|`; at the saturation
    strength itself, and when that does not exceed the initial strength, this needs an exponent of at
    least one. -/
theorem C63_law {n : ℕ} (k : Voce) (hk : k.nonlinear = true) (gdot : Vec n) (h : ℝ)
    (hh : (k.tausi < satOf k gdot ∧ h < satOf k gdot) ∨
      (1 ≤ k.xmprime ∧ (h = satOf k gdot ∨ satOf k gdot ≤ k.tausi))) :
    (k.getSdot1 (k.getEvolVals gdot) h).map Prod.fst =
      some (voceRateNL k.h0 k.tausi (satOf k gdot) k.xmprime (slipRate gdot) h) := by
  rw [getEvolVals_eq]
  generalize satOf k gdot = sat at *
  generalize slipRate gdot = γ
  by_cases hs : k.tausi < sat
  · unfold voceRateNL
    rw [if_neg (not_le.2 hs)]
    have hd : 0 < sat - k.tausi := by linarith
    by_cases hlt : h < sat
    · have hb : 0 < (sat - h) * (1 / (sat - k.tausi)) :=
        mul_pos (by linarith) (one_div_pos.2 hd)
      rw [nl_law k hk hs (Or.inl hb)]
      have e : (sat - h) / (sat - k.tausi) = (sat - h) * (1 / (sat - k.tausi)) := by ring
      rw [e]
      conv_rhs => rw [show k.xmprime = (k.xmprime - 1) + 1 by ring, Real.rpow_add hb, Real.rpow_one]
      congr 1; ring
    · have hm : 1 ≤ k.xmprime ∧ h = sat := by
        rcases hh with hh | ⟨h1, h2 | h2⟩
        · exact absurd hh.2 hlt
        · exact ⟨h1, h2⟩
        · linarith
      rw [nl_law k hk hs (Or.inr (Or.inl ⟨by rw [hm.2]; ring, by linarith [hm.1]⟩)), hm.2, sub_self]
      rw [zero_div, Real.zero_rpow (by linarith [hm.1])]
      simp
  · have hs' := not_lt.1 hs
    have hm : 1 ≤ k.xmprime := by
      rcases hh with hh | hh
      · exact absurd hh.1 hs
      · exact hh.1
    unfold voceRateNL
    simp only [Voce.getSdot1, hk, if_true]
    rw [if_pos hs', if_pos hs', if_pos (Or.inr (Or.inl ⟨by ring, by rw [nl_exp k hk]; linarith⟩))]
    simp

/-- the documented law continued by zero beyond the saturation strength -/
noncomputable def voceClip (θ s0 sat m γ h : ℝ) : ℝ := θ * (max 0 (sat - h) / (sat - s0)) ^ m * γ

theorem voceClip_antitone {θ s0 sat m γ : ℝ} (hθ : 0 ≤ θ) (hγ : 0 ≤ γ) (hm : 0 < m)
    (hs : s0 < sat) : Antitone (voceClip θ s0 sat m γ) := by
  intro a b hab
  unfold voceClip
  have hd : 0 < sat - s0 := by linarith
  apply mul_le_mul_of_nonneg_right _ hγ
  apply mul_le_mul_of_nonneg_left _ hθ
  apply Real.rpow_le_rpow (div_nonneg (le_max_left _ _) hd.le) _ hm.le
  apply div_le_div_of_nonneg_right _ hd.le
  exact max_le_max_left _ (by linarith)

theorem voceClip_continuous {θ s0 sat m γ : ℝ} (hm : 0 < m) :
    Continuous (voceClip θ s0 sat m γ) := by
  unfold voceClip
  refine Continuous.mul (Continuous.mul continuous_const ?_) continuous_const
  refine Continuous.rpow_const ?_ (fun _ => Or.inr hm.le)
  fun_prop

theorem voceClip_eq {θ s0 sat m γ h : ℝ} (hs : s0 < sat) (hh : h ≤ sat) :
    voceRateNL θ s0 sat m γ h = voceClip θ s0 sat m γ h := by
  unfold voceRateNL voceClip
  rw [if_neg (not_le.2 hs), max_eq_right (by linarith)]

theorem voceClip_sat {θ s0 sat m γ : ℝ} (hm : 0 < m) : voceClip θ s0 sat m γ sat = 0 := by
  unfold voceClip
  simp [Real.zero_rpow hm.ne']

/-- **C63, exact solution.** From a strength not above saturation the backward Euler equation has
    exactly one solution up to saturation; it lies between the old strength and saturation, stays below
    saturation if the old one does, and is the old strength when there is no slip or no time. -/
theorem C63_solution (θ s0 sat m γ hO dt : ℝ) (hθ : 0 ≤ θ) (hγ : 0 ≤ γ) (hdt : 0 ≤ dt) (hm : 0 < m)
    (hs : s0 < sat) (hO_le : hO ≤ sat) :
    (∃! z, z ≤ sat ∧ z - hO = dt * voceRateNL θ s0 sat m γ z) ∧
    ∀ z, z ≤ sat → z - hO = dt * voceRateNL θ s0 sat m γ z →
      hO ≤ z ∧ (hO < sat → z < sat) ∧ (γ = 0 ∨ dt = 0 → z = hO) := by
  have ha := voceClip_antitone (s0 := s0) (sat := sat) hθ hγ hm hs
  have h0 := voceClip_sat (θ := θ) (s0 := s0) (sat := sat) (γ := γ) hm
  obtain ⟨z, hz⟩ := backwardEuler_exists ha (voceClip_continuous hm) (hO := hO) hdt
  obtain ⟨b1, b2⟩ := backwardEuler_between ha hdt hz h0
  rw [min_eq_left hO_le] at b1
  rw [max_eq_right hO_le] at b2
  have hz' : z - hO = dt * voceRateNL θ s0 sat m γ z := by rw [voceClip_eq hs b2]; exact hz
  have huniq : ∀ y, y ≤ sat → y - hO = dt * voceRateNL θ s0 sat m γ y → y = z := by
    intro y hy1 hy2
    rw [voceClip_eq hs hy1] at hy2
    exact backwardEuler_unique ha hdt hy2 hz
  refine ⟨⟨z, ⟨b2, hz'⟩, fun y hy => huniq y hy.1 hy.2⟩, ?_⟩
  intro y hy1 hy2
  rw [huniq y hy1 hy2]
  refine ⟨b1, ?_, ?_⟩
  · intro hlt
    refine lt_of_le_of_ne b2 fun he => ?_
    rw [he, h0] at hz
    linarith
  · rintro (h | h)
    · rw [h] at hz; simp only [voceClip, mul_zero] at hz; linarith
    · rw [h] at hz; linarith

/-- what a successful nonlinear update by a sound solver gives: a defined rate and a small residual -/
theorem nl_update_ok {n : ℕ} {k : Voce} {S : Solver 1} (hS : S.Sound) {hsO : Vec 1} {dt : ℝ}
    {gdot : Vec n} {h' : Vec 1} {c : ℕ} (hok : k.updateH S hsO dt gdot = .ok (h', c)) :
    ∃ s d, k.getSdot1 (slipRate gdot, satOf k gdot) (h' 0) = some (s, d) ∧
      |h' 0 - hsO 0 - s * dt| ≤ 1 / 10 ^ 10 * max (hsO 0) 1 := by
  unfold Voce.updateH at hok
  split_ifs at hok
  generalize hu : updateH1 S (k.getSdot1 (k.getEvolVals gdot)) (hsO 0) dt = u at hok
  cases u with
  | fail _ => exact absurd hok (by simp [Out.bind])
  | undef _ => exact absurd hok (by simp [Out.bind])
  | ok r =>
    obtain ⟨h1, h2⟩ := r
    simp only [Out.bind, Out.ok.injEq, Prod.mk.injEq] at hok
    have e : h' 0 = h1 := by rw [← hok.1]
    obtain ⟨x, r, J, hx, hP, hr⟩ := updateH1_ok hS hu
    have hxs : 0 < max (hsO 0) 1 := lt_of_lt_of_le one_pos (le_max_right _ _)
    unfold H1Problem.computeRJ at hP
    simp only [H1Problem.xScale, H1Problem.resScale] at hP
    rw [← hx, ← e, getEvolVals_eq] at hP
    cases hl : k.getSdot1 (slipRate gdot, satOf k gdot) (h' 0) with
    | none => rw [hl] at hP; exact absurd hP (by simp)
    | some sd =>
      obtain ⟨s, d⟩ := sd
      rw [hl] at hP
      simp only [Option.some.injEq, Prod.mk.injEq] at hP
      refine ⟨s, d, rfl, ?_⟩
      have e2 : h' 0 - hsO 0 - s * dt = r * max (hsO 0) 1 := by
        rw [← hP.1, e, hx]; field_simp; ring
      rw [e2, abs_mul, abs_of_pos hxs]
      exact mul_le_mul_of_nonneg_right hr hxs.le

/-- **C63, update.** From a strength not above saturation, a successful update whose result is not
    above saturation either is within the solver tolerance of the exact solution.  For exponents that
    are not integers the result is never above saturation. -/
theorem C63_update {n : ℕ} (k : Voce) (hk : k.nonlinear = true) (hθ : 0 ≤ k.h0) (hm : 0 < k.xmprime)
    (S : Solver 1) (hS : S.Sound) (hsO : Vec 1) (dt : ℝ) (hdt : 0 ≤ dt) (gdot : Vec n) (h' : Vec 1)
    (c : ℕ) (hs : k.tausi < satOf k gdot) (hO : hsO 0 ≤ satOf k gdot)
    (hok : k.updateH S hsO dt gdot = .ok (h', c)) :
    (h' 0 ≤ satOf k gdot → ∃ z, z ≤ satOf k gdot ∧
      z - hsO 0 = dt * voceRateNL k.h0 k.tausi (satOf k gdot) k.xmprime (slipRate gdot) z ∧
      |h' 0 - z| ≤ 1 / 10 ^ 10 * max (hsO 0) 1) ∧
    ((∀ z : ℤ, k.xmprime ≠ z) → h' 0 ≤ satOf k gdot) := by
  have hγ := slipRate_nonneg gdot
  obtain ⟨s, d, hl, hr⟩ := nl_update_ok hS hok
  constructor
  · intro hle
    obtain ⟨⟨z, ⟨hz1, hz2⟩, -⟩, -⟩ := C63_solution k.h0 k.tausi (satOf k gdot) k.xmprime
      (slipRate gdot) (hsO 0) dt hθ hγ hdt hm hs hO
    refine ⟨z, hz1, hz2, ?_⟩
    have hcase : h' 0 < satOf k gdot ∨ (1 ≤ k.xmprime ∧ h' 0 = satOf k gdot) := by
      rcases lt_or_eq_of_le hle with h | h
      · exact Or.inl h
      · refine Or.inr ⟨?_, h⟩
        by_contra hm1
        simp only [Voce.getSdot1, hk, if_true] at hl
        rw [if_neg (not_le.2 hs), if_neg] at hl
        · cases hl
        · rw [h]
          rintro (h1 | h1 | h1)
          · simp at h1
          · rw [nl_exp k hk] at h1; linarith [h1.2]
          · simp at h1
    have hv := C63_law k hk gdot (h' 0)
      (hcase.elim (fun h => Or.inl ⟨hs, h⟩) (fun h => Or.inr ⟨h.1, Or.inl h.2⟩))
    rw [getEvolVals_eq, hl] at hv
    simp only [Option.map_some, Option.some.injEq] at hv
    have ha := voceClip_antitone (s0 := k.tausi) (sat := satOf k gdot) hθ hγ hm hs
    rw [voceClip_eq hs hle] at hv
    rw [voceClip_eq hs hz1] at hz2
    rw [hv] at hr
    rcases le_total (h' 0) z with h | h
    · have h1 := mul_le_mul_of_nonneg_left (ha h) hdt
      rw [abs_of_nonpos (by linarith)]
      have := (abs_le.1 hr).1
      linarith
    · have h1 := mul_le_mul_of_nonneg_left (ha h) hdt
      rw [abs_of_nonneg (by linarith)]
      have := (abs_le.1 hr).2
      linarith
  · intro hz
    by_contra hc
    rw [nl_none k hk hs (not_le.1 hc) hz] at hl
    cases hl

/-- **C63, odd exponents.** For an odd integer exponent the law is defined everywhere and pulls the
    strength towards saturation from both sides. -/
theorem C63_odd_exponent (k : Voce) (hk : k.nonlinear = true) (p : ℕ) (hp : k.xmprime = 2 * p + 1)
    (hθ : 0 ≤ k.h0) (γ sat : ℝ) (hγ : 0 ≤ γ) (hs : k.tausi < sat) (h : ℝ) :
    ∃ s, (k.getSdot1 (γ, sat) h).map Prod.fst = some s ∧
      s = k.h0 * ((sat - h) / (sat - k.tausi)) ^ (2 * p + 1) * γ ∧ 0 ≤ s * (sat - h) := by
  have hd : 0 < sat - k.tausi := by linarith
  have he : k.xmprime - 1 = ((2 * p : ℕ) : ℝ) := by rw [hp]; push_cast; ring
  have hv := nl_law k hk (γ := γ) (h := h) hs (by
    rcases lt_trichotomy ((sat - h) * (1 / (sat - k.tausi))) 0 with hb | hb | hb
    · exact Or.inr (Or.inr ⟨hb, ((2 * p : ℕ) : ℤ), by rw [he]; push_cast; ring⟩)
    · exact Or.inr (Or.inl ⟨hb, by rw [he]; positivity⟩)
    · exact Or.inl hb)
  refine ⟨_, hv, ?_, ?_⟩
  · rw [he, Real.rpow_natCast, pow_succ]; ring
  · rw [he, Real.rpow_natCast, pow_mul]
    have : 0 ≤ k.h0 * (((sat - h) * (1 / (sat - k.tausi))) ^ 2) ^ p * (1 / (sat - k.tausi)) * γ := by
      positivity
    nlinarith [mul_nonneg this (sq_nonneg (sat - h))]

/-- **C63 refuted above saturation, exponents that are not integers.** When the old strength exceeds
    the saturation strength (for instance after the slip rate has dropped), by more than the solver
    tolerance, no sound solver converges: the residual is undefined above saturation (`pow` of a negative
    number) and bounded away from zero below it.  The update stops with "Solver failed to converge!". -/
theorem C63_refuted_above {n : ℕ} (k : Voce) (hk : k.nonlinear = true) (hθ : 0 ≤ k.h0)
    (hm : ∀ z : ℤ, k.xmprime ≠ z) (S : Solver 1) (hS : S.Sound) (hsO : Vec 1) (dt : ℝ) (hdt : 0 ≤ dt)
    (gdot : Vec n) (hg : 0 < k.gamss0) (hs : k.tausi < satOf k gdot)
    (hO : satOf k gdot + 1 / 10 ^ 10 * max (hsO 0) 1 < hsO 0) :
    k.updateH S hsO dt gdot = .fail "Solver failed to converge!" := by
  cases hok : k.updateH S hsO dt gdot with
  | ok r =>
    obtain ⟨h', c⟩ := r
    exfalso
    obtain ⟨s, d, hl, hr⟩ := nl_update_ok hS hok
    have hle : h' 0 ≤ satOf k gdot := by
      by_contra hc
      rw [nl_none k hk hs (not_le.1 hc) hm] at hl
      cases hl
    have hd : 0 < satOf k gdot - k.tausi := by linarith
    have hs0 : 0 ≤ s := by
      simp only [Voce.getSdot1, hk, if_true] at hl
      rw [if_neg (not_le.2 hs)] at hl
      split_ifs at hl with hb
      obtain ⟨rfl, -⟩ := Prod.mk.inj (Option.some.inj hl)
      have h1 : 0 ≤ satOf k gdot - h' 0 := by linarith
      have h2 : 0 ≤ 1 / (satOf k gdot - k.tausi) := (one_div_pos.2 hd).le
      have := Real.rpow_nonneg (mul_nonneg h1 h2) k.xmprime1
      have := slipRate_nonneg gdot
      positivity
    have := (abs_le.1 hr).1
    nlinarith [mul_nonneg hs0 hdt]
  | fail w =>
    unfold Voce.updateH at hok
    rw [if_neg (not_le.2 hg)] at hok
    unfold updateH1 at hok
    simp only at hok
    split_ifs at hok
    · cases hok
    · cases hok; rfl
  | undef w =>
    exfalso
    unfold Voce.updateH at hok
    rw [if_neg (not_le.2 hg)] at hok
    unfold updateH1 at hok
    simp only at hok
    split_ifs at hok <;> cases hok

/-- **C63 refuted above saturation, even exponents.** For an even exponent the rate above saturation has
    the wrong sign: the strength runs away from saturation instead of relaxing to it. -/
theorem C63_refuted_even (k : Voce) (hk : k.nonlinear = true) (p : ℕ) (hp : k.xmprime = 2 * (p + 1))
    (hθ : 0 < k.h0) (γ sat : ℝ) (hγ : 0 < γ) (hs : k.tausi < sat) (h : ℝ) (hh : sat < h) :
    ∃ s, (k.getSdot1 (γ, sat) h).map Prod.fst = some s ∧ 0 < s := by
  have hd : 0 < sat - k.tausi := by linarith
  have he : k.xmprime - 1 = ((2 * p + 1 : ℕ) : ℝ) := by rw [hp]; push_cast; ring
  have hneg : (sat - h) * (1 / (sat - k.tausi)) < 0 :=
    mul_neg_of_neg_of_pos (by linarith) (one_div_pos.2 hd)
  refine ⟨_, nl_law k hk (γ := γ) (h := h) hs
    (Or.inr (Or.inr ⟨hneg, ((2 * p + 1 : ℕ) : ℤ), by rw [he]; push_cast; ring⟩)), ?_⟩
  rw [he, Real.rpow_natCast]
  have e : k.h0 * ((sat - h) * (1 / (sat - k.tausi))) ^ (2 * p + 1) * (sat - h) *
      (1 / (sat - k.tausi)) * γ = k.h0 * ((((sat - h) * (1 / (sat - k.tausi))) ^ 2) ^ (p + 1)) * γ := by
    rw [← pow_mul]; ring
  rw [e]
  have : 0 < ((sat - h) * (1 / (sat - k.tausi))) ^ 2 := sq_pos_iff.2 hneg.ne
  positivity

/-- **C63 refuted, saturation not above the initial strength.** With an exponent below one the update
    always fails then (`pow(0, negative)` times zero), although the comment in the code says that the
    rate stays zero. -/
theorem C63_refuted_small_exponent {n : ℕ} (k : Voce) (hk : k.nonlinear = true) (hm : k.xmprime < 1)
    (S : Solver 1) (hS : S.Sound) (hsO : Vec 1) (dt : ℝ) (gdot : Vec n)
    (hs : satOf k gdot ≤ k.tausi) (h' : Vec 1) (c : ℕ) :
    k.updateH S hsO dt gdot ≠ .ok (h', c) := by
  intro hok
  obtain ⟨s, d, hl, -⟩ := nl_update_ok hS hok
  simp only [Voce.getSdot1, hk, if_true] at hl
  rw [if_pos hs, if_neg] at hl
  · cases hl
  · rw [mul_zero, nl_exp k hk]
    rintro (h1 | h1 | h1)
    · exact lt_irrefl _ h1
    · linarith [h1.2]
    · exact lt_irrefl _ h1.1

/-- nonlinear hardening with exponent `m`, saturation strength twice the slip rate -/
noncomputable def voceNL (m : ℝ) : Voce where
  nonlinear := true
  mu := 1
  xm := 1
  gamW := 1
  h0 := 1
  tausi := 1
  taus0 := 2
  xmprime := m
  xms := 1
  gamss0 := 1
  hdnInit := 1

theorem voceNL_sat (m γ : ℝ) (hγ : 1 ≤ γ) : satOf (voceNL m) (fun _ : Fin 1 => γ) = 2 * γ := by
  unfold satOf voceSat slipRate voceNL
  have : |γ| = γ := abs_of_nonneg (by linarith)
  simp only [Finset.univ_unique, Finset.sum_const, Finset.card_singleton, one_smul, this]
  rw [if_pos (lt_of_lt_of_le (by norm_num) hγ)]
  simp

/-- **C63, concrete history.** Exponent 3/2: at slip rate 2 (saturation strength 4) the strength 3 is
    reached from 1 in one exact step; at slip rate 1 (saturation strength 2) the next update then
    fails for every sound solver and time step. -/
theorem C63_refuted_rate_drop :
    (∃ dt, 0 < dt ∧ (3 : ℝ) - 1 = dt * voceRateNL 1 1 (satOf (voceNL (3 / 2)) (fun _ : Fin 1 => 2)) (3 / 2)
      (slipRate (fun _ : Fin 1 => 2)) 3) ∧
    ∀ S : Solver 1, S.Sound → ∀ dt, 0 ≤ dt →
      (voceNL (3 / 2)).updateH S (fun _ => 3) dt (fun _ : Fin 1 => 1)
        = .fail "Solver failed to converge!" := by
  constructor
  · have hp : (0 : ℝ) < (1 / 3) ^ (3 / 2 : ℝ) := Real.rpow_pos_of_pos (by norm_num) _
    refine ⟨1 / (1 / 3) ^ (3 / 2 : ℝ), by positivity, ?_⟩
    rw [voceNL_sat _ _ (by norm_num)]
    unfold voceRateNL slipRate
    rw [if_neg (by norm_num)]
    have e : (2 * 2 - 3 : ℝ) / (2 * 2 - 1) = 1 / 3 := by norm_num
    rw [e]
    simp only [Finset.univ_unique, Finset.sum_const, Finset.card_singleton, one_smul]
    rw [abs_of_pos (by norm_num : (0 : ℝ) < 2)]
    field_simp
    norm_num
  · intro S hS dt hdt
    have hs := voceNL_sat (3 / 2) 1 le_rfl
    refine C63_refuted_above (voceNL (3 / 2)) rfl (by norm_num [voceNL]) ?_ S hS _ dt hdt _
      (by norm_num [voceNL]) ?_ ?_
    · intro z hz
      have h1 : ((2 * z : ℤ) : ℝ) = ((3 : ℤ) : ℝ) := by
        have : (voceNL (3 / 2)).xmprime = 3 / 2 := rfl
        rw [this] at hz; push_cast; linarith
      have := Int.cast_injective h1
      omega
    · rw [hs]; norm_num [voceNL]
    · rw [hs, max_eq_left (by norm_num)]; norm_num

/-- **C63, concrete root above saturation.** Exponent 2, from the initial strength: besides the solution
    3/2 the equation also has the solution 3 above the saturation strength 2, so that a sound solver
    may return it. -/
theorem C63_refuted_spurious_root : ∃ s1 s2 : ℝ,
    ((voceNL 2).getSdot1 (1, 2) (3 / 2)).map Prod.fst = some s1 ∧ 3 / 2 - 1 = 2 * s1 ∧
    ((voceNL 2).getSdot1 (1, 2) 3).map Prod.fst = some s2 ∧ 3 - 1 = 2 * s2 := by
  have h2 : (voceNL 2).xmprime - 1 = 1 := by norm_num [voceNL]
  refine ⟨1 / 4, 1, ?_, by norm_num, ?_, by norm_num⟩
  · rw [nl_law (voceNL 2) rfl (by norm_num [voceNL]) (Or.inl (by norm_num [voceNL])), h2, Real.rpow_one]
    norm_num [voceNL]
  · rw [nl_law (voceNL 2) rfl (by norm_num [voceNL])
      (Or.inr (Or.inr ⟨by norm_num [voceNL], 1, by rw [h2]; norm_num⟩)), h2, Real.rpow_one]
    norm_num [voceNL]

/-- the hypotheses of the positive results can be met: from 1 at saturation strength 4, exponent 3/2 -/
example : (voceNL (3 / 2)).tausi < satOf (voceNL (3 / 2)) (fun _ : Fin 1 => 2) ∧
    (1 : ℝ) ≤ satOf (voceNL (3 / 2)) (fun _ : Fin 1 => 2) := by
  rw [voceNL_sat _ _ (by norm_num)]
  norm_num [voceNL]

/-- a case of the refutation for small exponents: saturation strength 2 below the initial strength 3 -/
example : satOf { voceNL (1 / 2) with tausi := 3 } (fun _ : Fin 1 => 1) ≤ 3 := by
  have : satOf { voceNL (1 / 2) with tausi := 3 } (fun _ : Fin 1 => 1)
      = satOf (voceNL (1 / 2)) (fun _ : Fin 1 => 1) := rfl
  rw [this, voceNL_sat _ _ le_rfl]
  norm_num

end Ecm.Props
