/- Helper lemmas about the balanced dislocation density kinetics. -/
import Verif.Model.KMBalD
import Verif.Lemmas.Voce
import Mathlib.Analysis.Calculus.Deriv.Abs

namespace Ecm
open Classical

theorem copysign_neg {a t : ℝ} (h : t ≠ 0) : copysign a (-t) = -copysign a t := by
  unfold copysign
  rcases lt_or_gt_of_ne h with h | h
  · rw [if_neg (by linarith), if_pos h]; ring
  · rw [if_pos (by linarith), if_neg (by linarith)]

theorem mul_copysign {a t : ℝ} : t * copysign a t = |t| * |a| := by
  unfold copysign
  split_ifs with h
  · rw [abs_of_neg h]; ring
  · rw [abs_of_nonneg (not_lt.1 h)]

theorem abs_copysign {a t : ℝ} : |copysign a t| = |a| := by
  unfold copysign
  split_ifs <;> simp

theorem idpTinySqrt_pos : 0 < idpTinySqrt := by unfold idpTinySqrt; norm_num
theorem idpEpsSqrt_pos : 0 < idpEpsSqrt := by unfold idpEpsSqrt; norm_num

namespace KMBalD
variable {nV : ℕ} (k : KMBalD nV)

/-- power of the barrier argument -/
noncomputable def qPow (a : ℝ) : ℝ := if a < idpTinySqrt then 0 else if k.qOne then a else a ^ k.q

theorem mtsDG_fst (cE d t : ℝ) : (k.mtsDG cE d t).1 = -cE * k.qPow (1 - k.pFunc t) := by
  simp only [mtsDG, qPow]
  by_cases h1 : 1 - k.pFunc t < idpTinySqrt
  · simp only [if_pos h1]
  by_cases h2 : k.qOne = true
  · simp only [if_neg h1, if_pos h2]
  · simp only [if_neg h1, if_neg h2]
    have h : 0 < 1 - k.pFunc t := idpTinySqrt_pos.trans_le (not_lt.1 h1)
    have h3 : 0 < (1 - k.pFunc t) ^ k.q := Real.rpow_pos_of_pos h _
    rw [abs_of_pos h]
    simp only [copysign, if_neg (not_lt.2 h.le), abs_of_pos h3]

theorem qPow_nonneg (a : ℝ) : 0 ≤ k.qPow a := by
  unfold qPow
  split_ifs with h1
  · exact le_refl _
  · exact idpTinySqrt_pos.le.trans (not_lt.1 h1)
  · exact Real.rpow_nonneg (idpTinySqrt_pos.le.trans (not_lt.1 h1)) _

theorem qPow_mono (hq : 0 < k.q) : Monotone k.qPow := by
  intro a b hab
  by_cases h1 : a < idpTinySqrt
  · have : k.qPow a = 0 := by unfold qPow; rw [if_pos h1]
    rw [this]; exact k.qPow_nonneg b
  · have h2 : ¬ b < idpTinySqrt := fun h => h1 (hab.trans_lt h)
    unfold qPow
    rw [if_neg h1, if_neg h2]
    split_ifs
    · exact hab
    · exact Real.rpow_le_rpow (idpTinySqrt_pos.le.trans (not_lt.1 h1)) hab hq.le

theorem pFunc_mono (hp : 0 < k.p) : Monotone k.pFunc := by
  intro a b hab
  unfold pFunc
  by_cases h : k.pOne = true
  · simpa [h] using hab
  · have nn : ∀ t : ℝ, 0 ≤ |t| ^ k.p := fun t => Real.rpow_nonneg (abs_nonneg t) _
    have v1 : ∀ t : ℝ, 0 ≤ t → (0:ℝ) ≤ if |t| < idpTinySqrt then 0 else copysign (|t| ^ k.p) t := by
      intro t ht
      split_ifs
      · exact le_refl _
      · unfold copysign; rw [if_neg (not_lt.2 ht)]; exact abs_nonneg _
    have v2 : ∀ t : ℝ, t ≤ 0 → (if |t| < idpTinySqrt then 0 else copysign (|t| ^ k.p) t) ≤ (0:ℝ) := by
      intro t ht
      split_ifs with h
      · exact le_refl _
      · have : t ≠ 0 := by rintro rfl; simp at h; linarith [idpTinySqrt_pos]
        unfold copysign; rw [if_pos (lt_of_le_of_ne ht this)]
        linarith [abs_nonneg (|t| ^ k.p)]
    simp only [h, Bool.false_eq_true, if_false]
    rcases le_or_gt 0 a with ha | ha
    · have hb : 0 ≤ b := ha.trans hab
      by_cases h1 : |a| < idpTinySqrt
      · rw [if_pos h1]; exact v1 b hb
      · rw [abs_of_nonneg ha] at *
        rw [abs_of_nonneg hb]
        have h2 : ¬ b < idpTinySqrt := fun h => h1 (hab.trans_lt h)
        rw [if_neg h1, if_neg h2]
        unfold copysign
        rw [if_neg (not_lt.2 ha), if_neg (not_lt.2 hb), abs_of_nonneg (Real.rpow_nonneg ha _),
          abs_of_nonneg (Real.rpow_nonneg hb _)]
        exact Real.rpow_le_rpow ha hab hp.le
    · rcases le_or_gt 0 b with hb | hb
      · exact (v2 a ha.le).trans (v1 b hb)
      · by_cases h1 : |b| < idpTinySqrt
        · rw [if_pos h1]; exact v2 a ha.le
        · rw [abs_of_neg ha, abs_of_neg hb] at *
          have h2 : ¬ -a < idpTinySqrt := fun h => h1 (by linarith)
          rw [if_neg h1, if_neg h2]
          unfold copysign
          rw [if_pos ha, if_pos hb, abs_of_nonneg (Real.rpow_nonneg (by linarith) _),
            abs_of_nonneg (Real.rpow_nonneg (by linarith) _)]
          exact neg_le_neg (Real.rpow_le_rpow (by linarith) (by linarith) hp.le)

theorem mts_mono (hp : 0 < k.p) (hq : 0 < k.q) {cE : ℝ} (hc : 0 ≤ cE) (d : ℝ) :
    Monotone fun t => (k.mtsDG cE d t).1 := by
  intro a b hab
  simp only [mtsDG_fst]
  have := k.qPow_mono hq (sub_le_sub_left (k.pFunc_mono hp hab) 1)
  nlinarith

theorem mts_nonpos {cE : ℝ} (hc : 0 ≤ cE) (d t : ℝ) : (k.mtsDG cE d t).1 ≤ 0 := by
  rw [mtsDG_fst]
  have := k.qPow_nonneg (1 - k.pFunc t)
  nlinarith

/-- the drag limited rate as computed -/
noncomputable def dragRate (gamR x : ℝ) : ℝ :=
  if x < idpEpsSqrt then gamR * x else gamR * (1 - Real.exp (-x))

theorem drag_some {gamR x r d : ℝ} (hR : 0 < gamR) (h : k.drag gamR x = some (r, d)) :
    gamRatioMin ≤ x ∧ 0 < r ∧ r = dragRate gamR x ∧ r ≤ gamR := by
  unfold drag at h
  split_ifs at h with h1 h2
  · simp only [Option.some.injEq, Prod.mk.injEq] at h
    have hx : 0 < x := gamRatioMin_pos.trans_le (not_lt.1 h1)
    have h1' : idpEpsSqrt ≤ 1 := by unfold idpEpsSqrt; norm_num
    refine ⟨not_lt.1 h1, by rw [← h.1]; positivity, by rw [← h.1, dragRate, if_pos h2], ?_⟩
    rw [← h.1]; nlinarith
  · simp only [Option.some.injEq, Prod.mk.injEq] at h
    have hx : 0 < x := gamRatioMin_pos.trans_le (not_lt.1 h1)
    have he : Real.exp (-x) < 1 := by rw [Real.exp_lt_one_iff]; linarith
    refine ⟨not_lt.1 h1, by rw [← h.1]; exact mul_pos hR (by linarith),
      by rw [← h.1, dragRate, if_neg h2], ?_⟩
    rw [← h.1]; nlinarith [Real.exp_pos (-x)]

theorem thermal_pos {gamW cE gI gAth tau gw dgw dgwg : ℝ} (hW : 0 < gamW) (hc : 0 ≤ cE)
    (hg : 0 < gI) (hp : 0 < k.p) (hq : 0 < k.q)
    (h : k.thermal gamW cE gI gAth tau = some (gw, dgw, dgwg)) : 0 < gw := by
  simp only [thermal] at h
  split_ifs at h with h1 h2 h3
  · simp only [Option.some.injEq, Prod.mk.injEq] at h
    rw [← h.1]
    have hm := k.mts_mono hp hq hc gI
      (mul_le_mul_of_nonneg_right (show -|tau| - gAth ≤ |tau| - gAth by linarith [abs_nonneg tau])
        hg.le)
    have he := Real.exp_le_exp.2 hm
    have hge : 0 ≤ gamW * Real.exp (k.mtsDG cE gI ((|tau| - gAth) * gI)).1 -
        gamW * Real.exp (k.mtsDG cE gI ((-|tau| - gAth) * gI)).1 := by nlinarith
    rcases hge.eq_or_lt with h0 | h0
    · exfalso
      rw [← h0] at h3
      simp at h3
      linarith [gamRatioMin_pos]
    · exact h0
  · simp only [Option.some.injEq, Prod.mk.injEq] at h
    rw [← h.1]
    positivity

theorem thermal_neg (gamW cE gI gAth tau : ℝ) :
    k.thermal gamW cE gI gAth (-tau) = k.thermal gamW cE gI gAth tau := by
  simp only [thermal, abs_neg]

/-- what evalGdot returns: either zero, or a positive rate not above the drag limited rate, with the
    sign of the stress, at a stress above the athermal threshold -/
theorem sel_cases {gamW gamR g ct xn xnn tMin tMax tau : ℝ} (hW : 0 < gamW) (hR : 0 < gamR)
    (hD : 0 < k.wrD) (hc : 0 ≤ ct * k.muRef) (hp : 0 < k.p) (hq : 0 < k.q)
    (hg : 0 < if k.withGA then k.tauA else g) :
    (k.evalGdotSel gamW gamR g ct xn xnn tMin tMax tau = { gdot := 0, dtau := 0, dg := 0 }) ∨
    ∃ G, 0 < G ∧ (k.evalGdotSel gamW gamR g ct xn xnn tMin tMax tau).gdot = copysign G tau ∧
      G ≤ dragRate gamR ((|tau| - if k.withGA then g else k.tauA) / k.wrD) ∧ G ≤ gamR ∧
      gamRatioMin ≤ (|tau| - if k.withGA then g else k.tauA) / k.wrD := by
  have hgI : 0 < (if k.withGA then 1 / k.tauA else 1 / g) := by
    split_ifs at hg ⊢ <;> exact one_div_pos.2 hg
  simp only [evalGdotSel]
  generalize hgi : (if k.withGA then 1 / k.tauA else 1 / g) = gI at hgI ⊢
  generalize hga : (if k.withGA then g else k.tauA) = gAth
  by_cases h0 : k.withGA = false ∧ tau = 0
  · left; rw [if_pos h0]
  · rw [if_neg h0]
    generalize hdr : k.drag gamR ((|tau| - gAth) / k.wrD) = dr
    cases dr with
    | none => left; rfl
    | some rd =>
      obtain ⟨r, d⟩ := rd
      obtain ⟨hx, hr, hrd, hrg⟩ := k.drag_some hR hdr
      have hpos : 0 < |tau| - gAth := by
        have := gamRatioMin_pos.trans_le hx
        rwa [lt_div_iff₀ hD, zero_mul] at this
      simp only
      by_cases h1 : tMax < max 0 (|tau| - gAth) * gI
      · right
        simp only [if_pos h1]
        exact ⟨r, hr, rfl, hrd.le, hrg, hx⟩
      · simp only [if_neg h1]
        generalize hth : k.thermal gamW (ct * k.muRef) gI gAth tau = th
        cases th with
        | none => left; rfl
        | some w =>
          obtain ⟨gw, dgw, dgwg⟩ := w
          have hgw := k.thermal_pos hW hc hgI hp hq hth
          right
          simp only
          set gw' := (if tMin < max 0 (|tau| - gAth) * gI then
              gw + gamW * 10 * Real.exp (xn * Real.log (max 0 (|tau| - gAth) * gI)) *
              (max 0 (|tau| - gAth) * gI) else gw) with hgw'
          have hgw'' : 0 < gw' := by
            have : 0 < max 0 (|tau| - gAth) * gI := mul_pos (lt_max_of_lt_right hpos) hgI
            rw [hgw']
            split_ifs
            · positivity
            · exact hgw
          have hle : 1 / (1 / gw' + 1 / r) ≤ r := by
            rw [div_le_iff₀ (by positivity)]
            have : r * (1 / gw' + 1 / r) = r / gw' + 1 := by field_simp
            rw [this]
            have : 0 < r / gw' := by positivity
            linarith
          exact ⟨_, by positivity, rfl, hle.trans hrd.le, hle.trans hrg, hx⟩

/-- oddness away from zero stress -/
theorem sel_neg {gamW gamR g ct xn xnn tMin tMax tau : ℝ} (ht : tau ≠ 0) :
    (k.evalGdotSel gamW gamR g ct xn xnn tMin tMax (-tau)).gdot =
      -(k.evalGdotSel gamW gamR g ct xn xnn tMin tMax tau).gdot ∧
    (k.evalGdotSel gamW gamR g ct xn xnn tMin tMax (-tau)).dtau =
      (k.evalGdotSel gamW gamR g ct xn xnn tMin tMax tau).dtau ∧
    (k.evalGdotSel gamW gamR g ct xn xnn tMin tMax (-tau)).dg =
      -(k.evalGdotSel gamW gamR g ct xn xnn tMin tMax tau).dg := by
  simp only [evalGdotSel, abs_neg, thermal_neg, neg_eq_zero, ht, and_false, if_false]
  generalize k.drag gamR _ = dr
  cases dr with
  | none => simp
  | some rd =>
    simp only
    by_cases h1 : tMax < max 0 (|tau| - if k.withGA then g else k.tauA) *
        (if k.withGA then 1 / k.tauA else 1 / g)
    · simp only [if_pos h1, copysign_neg ht]
      refine ⟨trivial, trivial, ?_⟩
      split_ifs <;> simp
    · simp only [if_neg h1]
      generalize k.thermal gamW _ _ _ tau = th
      cases th with
      | none => simp
      | some w =>
        simp only [copysign_neg ht]
        refine ⟨trivial, trivial, ?_⟩
        split_ifs <;> ring

/-! ### derivatives -/

/-- slope of the barrier argument with respect to the normalised stress -/
noncomputable def mtsSlope (cE t : ℝ) : ℝ := (k.mtsDG cE 1 t).2

theorem mtsDG_snd (cE d t : ℝ) : (k.mtsDG cE d t).2 = d * k.mtsSlope cE t := by
  simp only [mtsSlope, mtsDG]
  split_ifs <;> simp <;> ring

/-- points where the barrier argument is differentiable: inside its branches -/
def MtsSmooth (t : ℝ) : Prop :=
  (k.pOne = true ∨ idpTinySqrt < |t|) ∧ 1 - k.pFunc t ≠ idpTinySqrt

theorem pFunc_deriv {t : ℝ} (h : k.pOne = true ∨ idpTinySqrt < |t|) :
    HasDerivAt k.pFunc (if k.pOne then 1 else k.p * k.pFunc t / t) t := by
  by_cases hk : k.pOne = true
  · have e : k.pFunc = fun t => t := by funext t; simp [pFunc, hk]
    rw [e]; simp only [hk, if_true]; exact hasDerivAt_id' t
  · have ht : idpTinySqrt < |t| := h.resolve_left hk
    have ht0 : t ≠ 0 := by rintro rfl; simp at ht; linarith [idpTinySqrt_pos]
    simp only [hk, Bool.false_eq_true, if_false]
    have hat : 0 < |t| := abs_pos.2 ht0
    have ev : k.pFunc =ᶠ[nhds t] fun y => copysign (|y| ^ k.p) t := by
      have c : ContinuousAt (fun y : ℝ => |y|) t := by fun_prop
      have hs : ∀ᶠ y in nhds t, (y < 0 ↔ t < 0) := by
        rcases lt_or_gt_of_ne ht0 with h | h
        · filter_upwards [gt_mem_nhds h] with y hy; simp [hy, h]
        · filter_upwards [lt_mem_nhds h] with y hy; simp [not_lt.2 hy.le, not_lt.2 h.le]
      filter_upwards [c.eventually (lt_mem_nhds ht), hs] with y hy hy'
      simp only [pFunc, hk, Bool.false_eq_true, if_false, if_neg (not_lt.2 hy.le), copysign, hy']
    have e0 : k.pFunc t = copysign (|t| ^ k.p) t := ev.eq_of_nhds
    refine HasDerivAt.congr_of_eventuallyEq ?_ ev
    rw [e0]
    have e1 : |t| ^ (k.p - 1) * |t| = |t| ^ k.p := by
      rw [← Real.rpow_add_one hat.ne']; congr 1; ring
    rcases lt_or_gt_of_ne ht0 with h | h
    · have : HasDerivAt (fun y : ℝ => -(|y| ^ k.p)) (-(-1 * k.p * |t| ^ (k.p - 1))) t :=
        ((hasDerivAt_abs_neg h).rpow_const (Or.inl hat.ne')).fun_neg
      have e : (fun y : ℝ => copysign (|y| ^ k.p) t) = fun y : ℝ => -(|y| ^ k.p) := by
        funext y; simp only [copysign, if_pos h, abs_of_nonneg (Real.rpow_nonneg (abs_nonneg y) k.p)]
      rw [e]
      refine this.congr_deriv ?_
      simp only [copysign, if_pos h, abs_of_nonneg (Real.rpow_nonneg (abs_nonneg t) k.p)]
      rw [← e1, abs_of_neg h]
      field_simp
    · have : HasDerivAt (fun y : ℝ => |y| ^ k.p) (1 * k.p * |t| ^ (k.p - 1)) t :=
        (hasDerivAt_abs_pos h).rpow_const (Or.inl hat.ne')
      have e : (fun y : ℝ => copysign (|y| ^ k.p) t) = fun y : ℝ => |y| ^ k.p := by
        funext y
        simp only [copysign, if_neg (not_lt.2 h.le),
          abs_of_nonneg (Real.rpow_nonneg (abs_nonneg y) k.p)]
      rw [e]
      refine this.congr_deriv ?_
      simp only [copysign, if_neg (not_lt.2 h.le), abs_of_nonneg (Real.rpow_nonneg (abs_nonneg t) k.p)]
      rw [← e1, abs_of_pos h]
      field_simp

theorem mts_deriv (cE d : ℝ) {t : ℝ} (h : k.MtsSmooth t) :
    HasDerivAt (fun t => (k.mtsDG cE d t).1) (k.mtsSlope cE t) t := by
  have e : (fun t => (k.mtsDG cE d t).1) = fun t => -cE * k.qPow (1 - k.pFunc t) := by
    funext t; exact k.mtsDG_fst cE d t
  rw [e]
  have hp := k.pFunc_deriv h.1
  have hq0 : HasDerivAt (fun t => 1 - k.pFunc t)
      (-(if k.pOne then 1 else k.p * k.pFunc t / t)) t := hp.const_sub 1
  have dfac : (if k.pOne then cE * 1 else if |t| < idpTinySqrt then cE * 1 * 10 ^ 10
      else cE * 1 * k.p * k.pFunc t / t) = cE * (if k.pOne then 1 else k.p * k.pFunc t / t) := by
    by_cases hk : k.pOne = true
    · simp [hk]
    · have := h.1.resolve_left hk
      simp only [hk, Bool.false_eq_true, if_false, if_neg (not_lt.2 this.le)]
      ring
  have hsl : k.mtsSlope cE t = if 1 - k.pFunc t < idpTinySqrt then 0 else
      if k.qOne then cE * (if k.pOne then 1 else k.p * k.pFunc t / t) else
      cE * (if k.pOne then 1 else k.p * k.pFunc t / t) * k.q * (|1 - k.pFunc t| ^ k.q) /
        |1 - k.pFunc t| := by
    simp only [mtsSlope, mtsDG, dfac]
    split_ifs <;> rfl
  rw [hsl]
  have c : ContinuousAt (fun t => 1 - k.pFunc t) t := hq0.continuousAt
  rcases lt_or_gt_of_ne h.2 with h1 | h1
  · rw [if_pos h1]
    refine HasDerivAt.congr_of_eventuallyEq (hasDerivAt_const t 0) ?_
    filter_upwards [c.eventually (gt_mem_nhds h1)] with y hy
    simp [qPow, hy]
  · have hpos : 0 < 1 - k.pFunc t := idpTinySqrt_pos.trans h1
    rw [if_neg (not_lt.2 h1.le), abs_of_pos hpos]
    by_cases hk : k.qOne = true
    · rw [if_pos hk]
      have ev : (fun t => -cE * k.qPow (1 - k.pFunc t)) =ᶠ[nhds t]
          fun t => -cE * (1 - k.pFunc t) := by
        filter_upwards [c.eventually (lt_mem_nhds h1)] with y hy
        simp only [qPow, if_neg (not_lt.2 hy.le), if_pos hk]
      refine HasDerivAt.congr_of_eventuallyEq ?_ ev
      refine (hq0.const_mul (-cE)).congr_deriv ?_
      ring
    · rw [if_neg hk]
      have ev : (fun t => -cE * k.qPow (1 - k.pFunc t)) =ᶠ[nhds t]
          fun t => -cE * (1 - k.pFunc t) ^ k.q := by
        filter_upwards [c.eventually (lt_mem_nhds h1)] with y hy
        simp only [qPow, if_neg (not_lt.2 hy.le), if_neg hk]
      refine HasDerivAt.congr_of_eventuallyEq ?_ ev
      refine ((hq0.rpow_const (p := k.q) (Or.inl hpos.ne')).const_mul (-cE)).congr_deriv ?_
      have e1 : (1 - k.pFunc t) ^ (k.q - 1) * (1 - k.pFunc t) = (1 - k.pFunc t) ^ k.q := by
        rw [← Real.rpow_add_one hpos.ne']; congr 1; ring
      rw [← e1]
      have hne := hpos.ne'
      generalize (1 - k.pFunc t) ^ (k.q - 1) = Q
      generalize (if k.pOne then 1 else k.p * k.pFunc t / t) = P
      generalize 1 - k.pFunc t = A at hne
      field_simp

/-- rate of thermally activated jumps at normalised stress `t` -/
noncomputable def jump (gamW cE t : ℝ) : ℝ := gamW * Real.exp (k.mtsDG cE 1 t).1

theorem mtsDG_fst_one (cE d t : ℝ) : (k.mtsDG cE d t).1 = (k.mtsDG cE 1 t).1 := by
  rw [mtsDG_fst, mtsDG_fst]

theorem jump_deriv (gamW cE : ℝ) {t : ℝ} (h : k.MtsSmooth t) :
    HasDerivAt (k.jump gamW cE) (k.mtsSlope cE t * k.jump gamW cE t) t := by
  refine ((k.mts_deriv cE 1 h).exp.const_mul gamW).congr_deriv ?_
  unfold jump; ring

/-- activated rate in the main branch: jumps along the stress, minus jumps against it when `back`,
    plus the power law when `pw` -/
noncomputable def wRate (back pw : Bool) (gamW cE xnn t tm : ℝ) : ℝ :=
  k.jump gamW cE t - (if back then k.jump gamW cE tm else 0) + if pw then gamW * 10 * t ^ xnn else 0

/-- conditions for the main branch, all strict -/
structure MainBranch (back pw : Bool) (gamW cE tMin tMax gI gAth a : ℝ) : Prop where
  drag : idpEpsSqrt < (a - gAth) / k.wrD
  notMax : (a - gAth) * gI < tMax
  pos : 0 < a - gAth
  pwr : if pw then tMin < (a - gAth) * gI else (a - gAth) * gI < tMin
  fwd : lnGamRatioMin < (k.mtsDG cE 1 ((a - gAth) * gI)).1
  bwd : if back then lnGamRatioMin < (k.mtsDG cE 1 ((-a - gAth) * gI)).1 ∧
      gamRatioMin < |(k.jump gamW cE ((a - gAth) * gI) - k.jump gamW cE ((-a - gAth) * gI)) / gamW|
    else (k.mtsDG cE 1 ((-a - gAth) * gI)).1 < lnGamRatioMin

/-- value and reported derivatives in the main branch -/
theorem sel_main {gamW gamR g ct xn xnn tMin tMax tau : ℝ} {back pw : Bool} (ht : tau ≠ 0)
    (hx : xn + 1 = xnn) (hg : 0 < if k.withGA then k.tauA else g)
    (h : k.MainBranch back pw gamW (ct * k.muRef) tMin tMax (if k.withGA then 1 / k.tauA else 1 / g)
      (if k.withGA then g else k.tauA) |tau|) :
    let gI := if k.withGA then 1 / k.tauA else 1 / g
    let gAth := if k.withGA then g else k.tauA
    let cE := ct * k.muRef
    let t := (|tau| - gAth) * gI
    let tm := (-|tau| - gAth) * gI
    let x := (|tau| - gAth) / k.wrD
    let W := k.wRate back pw gamW cE xnn t tm
    let R := gamR * (1 - Real.exp (-x))
    let dR := gamR * Real.exp (-x) / k.wrD
    let G := 1 / (1 / W + 1 / R)
    let dW := gI * (k.mtsSlope cE t * k.jump gamW cE t)
      - (if back then gI * (k.mtsSlope cE tm * k.jump gamW cE tm) else 0)
      + (if pw then gamW * 10 * t ^ xn * xnn * gI else 0)
    let dWg := gI * (k.mtsSlope cE t * k.jump gamW cE t) * t
      - (if back then gI * (k.mtsSlope cE tm * k.jump gamW cE tm) * tm else 0)
      + (if pw then gamW * 10 * t ^ xn * xnn * gI * t else 0)
    k.evalGdotSel gamW gamR g ct xn xnn tMin tMax tau =
      { gdot := copysign G tau
        dtau := G * G * (dW * (1 / (W * W)) + dR * (1 / (R * R)))
        dg := if k.withGA then
            -(G * copysign G tau * (1 / (R * R))) * dR + -(G * copysign G tau * (1 / (W * W))) * dW
          else -(G * copysign G tau * (1 / (W * W))) * dWg } := by
  intro gI gAth cE t tm x W R dR G dW dWg
  have hgI : 0 < gI := by
    simp only [gI]; split_ifs at hg ⊢ <;> exact one_div_pos.2 hg
  have hpos : 0 < |tau| - gAth := h.pos
  have htpos : 0 < t := mul_pos hpos hgI
  have hdrag : k.drag gamR x = some (R, dR) := by
    have h1 : idpEpsSqrt < x := h.drag
    have h2 : gamRatioMin < idpEpsSqrt := by unfold gamRatioMin idpEpsSqrt; norm_num
    simp only [KMBalD.drag, if_neg (not_lt.2 (h2.trans h1).le), if_neg (not_lt.2 h1.le)]
    rfl
  have hat : max 0 (|tau| - gAth) * gI = t := by rw [max_eq_right hpos.le]
  have hmax : ¬ tMax < t := not_lt.2 h.notMax.le
  have hlow : ¬ (k.withGA = false ∧ tau = 0) := fun hc => ht hc.2
  set F := k.jump gamW cE t with hF
  set Fm := k.jump gamW cE tm with hFm
  have eF : gamW * Real.exp (k.mtsDG cE gI t).1 = F := by rw [mtsDG_fst_one]; rfl
  have eFm : gamW * Real.exp (k.mtsDG cE gI tm).1 = Fm := by rw [mtsDG_fst_one]; rfl
  have hth : k.thermal gamW cE gI gAth tau = some
      (F - (if back then Fm else 0),
       gI * (k.mtsSlope cE t * F) - (if back then gI * (k.mtsSlope cE tm * Fm) else 0),
       gI * (k.mtsSlope cE t * F) * t - (if back then gI * (k.mtsSlope cE tm * Fm) * tm else 0)) := by
    simp only [KMBalD.thermal]
    have h1 : ¬ (k.mtsDG cE gI ((|tau| - gAth) * gI)).1 < lnGamRatioMin := by
      rw [mtsDG_fst_one]; exact not_lt.2 h.fwd.le
    rw [if_neg h1]
    rcases hb : back with _ | _
    · have h2 := h.bwd
      rw [hb] at h2
      simp only [Bool.false_eq_true, if_false] at h2
      have h3 : ¬ lnGamRatioMin < (k.mtsDG cE gI ((-|tau| - gAth) * gI)).1 := by
        rw [mtsDG_fst_one]; exact not_lt.2 h2.le
      rw [if_neg h3]
      simp only [Bool.false_eq_true, if_false, sub_zero]
      rw [show (k.mtsDG cE gI ((|tau| - gAth) * gI)) = (k.mtsDG cE gI t) from rfl, eF, mtsDG_snd]
      congr 3 <;> ring
    · have h2 := h.bwd
      rw [hb] at h2
      simp only [if_true] at h2
      have h3 : lnGamRatioMin < (k.mtsDG cE gI ((-|tau| - gAth) * gI)).1 := by
        rw [mtsDG_fst_one]; exact h2.1
      rw [if_pos h3]
      rw [show (k.mtsDG cE gI ((|tau| - gAth) * gI)) = (k.mtsDG cE gI t) from rfl,
        show (k.mtsDG cE gI ((-|tau| - gAth) * gI)) = (k.mtsDG cE gI tm) from rfl, eF, eFm,
        mtsDG_snd, mtsDG_snd]
      rw [if_neg (not_lt.2 h2.2.le)]
      simp only [if_true]
      congr 3 <;> ring
  have hpw : ∀ y : ℝ, Real.exp (xn * Real.log t) = t ^ xn := fun _ => by
    rw [Real.rpow_def_of_pos htpos, mul_comm]
  have hxnn : t ^ xnn = t ^ xn * t := by rw [← hx, Real.rpow_add_one htpos.ne']
  have hW : (if tMin < t then F - (if back then Fm else 0) + gamW * 10 * t ^ xn * t
      else F - (if back then Fm else 0)) = W := by
    simp only [W, wRate]
    have h2 := h.pwr
    rcases pw with _ | _
    · simp only [Bool.false_eq_true, if_false] at h2 ⊢
      rw [if_neg (not_lt.2 h2.le)]; ring
    · simp only [if_true] at h2 ⊢
      rw [if_pos h2, hxnn]; ring
  have hdW : (if tMin < t then gI * (k.mtsSlope cE t * F)
        - (if back then gI * (k.mtsSlope cE tm * Fm) else 0) + gamW * 10 * t ^ xn * xnn * gI
      else gI * (k.mtsSlope cE t * F) - (if back then gI * (k.mtsSlope cE tm * Fm) else 0)) = dW := by
    simp only [dW]
    have h2 := h.pwr
    rcases pw with _ | _
    · simp only [Bool.false_eq_true, if_false] at h2 ⊢
      rw [if_neg (not_lt.2 h2.le)]; ring
    · simp only [if_true] at h2 ⊢
      rw [if_pos h2]
  have hdWg : (if tMin < t then gI * (k.mtsSlope cE t * F) * t
        - (if back then gI * (k.mtsSlope cE tm * Fm) * tm else 0) + gamW * 10 * t ^ xn * xnn * gI * t
      else gI * (k.mtsSlope cE t * F) * t - (if back then gI * (k.mtsSlope cE tm * Fm) * tm else 0))
      = dWg := by
    simp only [dWg]
    have h2 := h.pwr
    rcases pw with _ | _
    · simp only [Bool.false_eq_true, if_false] at h2 ⊢
      rw [if_neg (not_lt.2 h2.le)]; ring
    · simp only [if_true] at h2 ⊢
      rw [if_pos h2]
  unfold evalGdotSel
  rw [if_neg hlow]
  change (match k.drag gamR x with
    | none => _
    | some (gdotR, dgdotR) => _) = _
  rw [hdrag]
  change (if tMax < max 0 (|tau| - gAth) * gI then _ else match k.thermal gamW cE gI gAth tau with
    | none => _
    | some (gw0, dgw0, dgwg0) => _) = _
  have hga : (if k.withGA then g else k.tauA) = gAth := rfl
  have hgi : (if k.withGA then 1 / k.tauA else 1 / g) = gI := rfl
  simp only [hgi, hga, hat, if_neg hmax, hth, hpw 0, hW, hdW, hdWg]
  rfl

/-- derivative of the magnitude along any path of the three inputs -/
theorem core_deriv {gamW gamR cE xn xnn : ℝ} {back pw : Bool} {t tm x : ℝ → ℝ} {t' tm' x' s : ℝ}
    (hx : xn + 1 = xnn)
    (ht : HasDerivAt t t' s) (htm : HasDerivAt tm tm' s) (hx' : HasDerivAt x x' s)
    (h1 : k.MtsSmooth (t s)) (h2 : back = true → k.MtsSmooth (tm s)) (htp : 0 < t s)
    (hW : k.wRate back pw gamW cE xnn (t s) (tm s) ≠ 0) (hR : gamR * (1 - Real.exp (-x s)) ≠ 0)
    (hWR : 1 / k.wRate back pw gamW cE xnn (t s) (tm s) + 1 / (gamR * (1 - Real.exp (-x s))) ≠ 0) :
    let W := k.wRate back pw gamW cE xnn (t s) (tm s)
    let R := gamR * (1 - Real.exp (-x s))
    let G := 1 / (1 / W + 1 / R)
    let dW := k.mtsSlope cE (t s) * k.jump gamW cE (t s) * t'
      - (if back then k.mtsSlope cE (tm s) * k.jump gamW cE (tm s) * tm' else 0)
      + (if pw then gamW * 10 * (t s) ^ xn * xnn * t' else 0)
    HasDerivAt (fun s => 1 / (1 / k.wRate back pw gamW cE xnn (t s) (tm s)
        + 1 / (gamR * (1 - Real.exp (-x s)))))
      (G * G * (dW * (1 / (W * W)) + gamR * Real.exp (-x s) * x' * (1 / (R * R)))) s := by
  intro W R G dW
  have a1 : HasDerivAt (fun s => k.jump gamW cE (t s))
      (k.mtsSlope cE (t s) * k.jump gamW cE (t s) * t') s := (k.jump_deriv gamW cE h1).comp s ht
  have a2 : HasDerivAt (fun s => if back then k.jump gamW cE (tm s) else 0)
      (if back then k.mtsSlope cE (tm s) * k.jump gamW cE (tm s) * tm' else 0) s := by
    rcases back with _ | _
    · simpa using hasDerivAt_const s (0 : ℝ)
    · simp only [if_true]; exact (k.jump_deriv gamW cE (h2 rfl)).comp s htm
  have a3 : HasDerivAt (fun s => if pw then gamW * 10 * (t s) ^ xnn else 0)
      (if pw then gamW * 10 * (t s) ^ xn * xnn * t' else 0) s := by
    rcases pw with _ | _
    · simpa using hasDerivAt_const s (0 : ℝ)
    · have := (ht.rpow_const (p := xnn) (Or.inl htp.ne')).const_mul (gamW * 10)
      simp only [if_true]
      refine this.congr_deriv ?_
      rw [show xnn - 1 = xn by linarith]; ring
  have a4 : HasDerivAt (fun s => k.wRate back pw gamW cE xnn (t s) (tm s)) dW s :=
    (a1.fun_sub a2).fun_add a3
  have a5 : HasDerivAt (fun s => gamR * (1 - Real.exp (-x s))) (gamR * Real.exp (-x s) * x') s := by
    refine (((hx'.fun_neg.exp).const_sub 1).const_mul gamR).congr_deriv ?_
    ring
  have b1 := a4.fun_inv hW
  have b2 := a5.fun_inv hR
  have hWR' : (k.wRate back pw gamW cE xnn (t s) (tm s))⁻¹ + (gamR * (1 - Real.exp (-x s)))⁻¹ ≠ 0 := by
    simpa [one_div] using hWR
  have b3 := (b1.fun_add b2).fun_inv hWR'
  have e : (fun s => 1 / (1 / k.wRate back pw gamW cE xnn (t s) (tm s)
        + 1 / (gamR * (1 - Real.exp (-x s))))) = fun s =>
      ((k.wRate back pw gamW cE xnn (t s) (tm s))⁻¹ + (gamR * (1 - Real.exp (-x s)))⁻¹)⁻¹ := by
    funext s; simp only [one_div]
  rw [e]
  refine b3.congr_deriv ?_
  simp only [G, one_div]
  change -(-dW / W ^ 2 + -(gamR * Real.exp (-x s) * x') / R ^ 2) / (W⁻¹ + R⁻¹) ^ 2 = _
  simp only [div_eq_mul_inv, mul_inv, pow_two]
  ring

theorem wRate_pos {back pw : Bool} {gamW cE xnn tMin tMax gI gAth a : ℝ} (hW : 0 < gamW)
    (hc : 0 ≤ cE) (hp : 0 < k.p) (hq : 0 < k.q) (hg : 0 < gI) (ha : 0 ≤ a)
    (h : k.MainBranch back pw gamW cE tMin tMax gI gAth a) :
    0 < k.wRate back pw gamW cE xnn ((a - gAth) * gI) ((-a - gAth) * gI) := by
  have h1 : 0 < k.jump gamW cE ((a - gAth) * gI)
      - (if back then k.jump gamW cE ((-a - gAth) * gI) else 0) := by
    rcases back with _ | _
    · simp only [Bool.false_eq_true, if_false, sub_zero, jump]; positivity
    · have hb := h.bwd
      simp only [if_true] at hb ⊢
      have hm := k.mts_mono hp hq hc 1
        (mul_le_mul_of_nonneg_right (show -a - gAth ≤ a - gAth by linarith) hg.le)
      have he := Real.exp_le_exp.2 hm
      have hge : 0 ≤ k.jump gamW cE ((a - gAth) * gI) - k.jump gamW cE ((-a - gAth) * gI) := by
        unfold jump; nlinarith
      rcases hge.eq_or_lt with h0 | h0
      · exfalso
        have := hb.2
        rw [← h0] at this
        simp at this
        linarith [gamRatioMin_pos]
      · exact h0
  have h2 : 0 ≤ if pw then gamW * 10 * ((a - gAth) * gI) ^ xnn else 0 := by
    split_ifs
    · have := Real.rpow_pos_of_pos (mul_pos h.pos hg) xnn
      positivity
    · exact le_refl _
  unfold wRate
  linarith

/-- the main branch is open along continuous paths -/
theorem mainBranch_eventually {back pw : Bool} {gamW cE tMin tMax : ℝ} {gI gAth a : ℝ → ℝ} {s : ℝ}
    (hI : ContinuousAt gI s) (hA : ContinuousAt gAth s) (ha : ContinuousAt a s)
    (h1 : k.MtsSmooth ((a s - gAth s) * gI s)) (h2 : k.MtsSmooth ((-a s - gAth s) * gI s))
    (h : k.MainBranch back pw gamW cE tMin tMax (gI s) (gAth s) (a s)) :
    ∀ᶠ y in nhds s, k.MainBranch back pw gamW cE tMin tMax (gI y) (gAth y) (a y) := by
  have ct : ContinuousAt (fun y => (a y - gAth y) * gI y) s := (ha.sub hA).mul hI
  have ctm : ContinuousAt (fun y => (-a y - gAth y) * gI y) s := (ha.neg.sub hA).mul hI
  have cx : ContinuousAt (fun y => (a y - gAth y) / k.wrD) s := (ha.sub hA).div_const _
  have cm : ContinuousAt (fun y => (k.mtsDG cE 1 ((a y - gAth y) * gI y)).1) s :=
    ContinuousAt.comp (g := fun t => (k.mtsDG cE 1 t).1) (k.mts_deriv cE 1 h1).continuousAt ct
  have cmm : ContinuousAt (fun y => (k.mtsDG cE 1 ((-a y - gAth y) * gI y)).1) s :=
    ContinuousAt.comp (g := fun t => (k.mtsDG cE 1 t).1) (k.mts_deriv cE 1 h2).continuousAt ctm
  have cd : ContinuousAt (fun y => |(k.jump gamW cE ((a y - gAth y) * gI y)
      - k.jump gamW cE ((-a y - gAth y) * gI y)) / gamW|) s := by
    unfold jump
    exact (((continuousAt_const.mul cm.rexp).sub (continuousAt_const.mul cmm.rexp)).div_const _).abs
  have hb : ∀ᶠ y in nhds s, if back then
      lnGamRatioMin < (k.mtsDG cE 1 ((-a y - gAth y) * gI y)).1 ∧
      gamRatioMin < |(k.jump gamW cE ((a y - gAth y) * gI y)
        - k.jump gamW cE ((-a y - gAth y) * gI y)) / gamW|
      else (k.mtsDG cE 1 ((-a y - gAth y) * gI y)).1 < lnGamRatioMin := by
    have hb := h.bwd
    rcases back with _ | _
    · simp only [Bool.false_eq_true, if_false] at hb ⊢
      exact cmm.eventually (gt_mem_nhds hb)
    · simp only [if_true] at hb ⊢
      exact (cmm.eventually (lt_mem_nhds hb.1)).and (cd.eventually (lt_mem_nhds hb.2))
  have hpw : ∀ᶠ y in nhds s, if pw then tMin < (a y - gAth y) * gI y
      else (a y - gAth y) * gI y < tMin := by
    have hb := h.pwr
    rcases pw with _ | _
    · simp only [Bool.false_eq_true, if_false] at hb ⊢
      exact ct.eventually (gt_mem_nhds hb)
    · simp only [if_true] at hb ⊢
      exact ct.eventually (lt_mem_nhds hb)
  filter_upwards [cx.eventually (lt_mem_nhds h.drag), ct.eventually (gt_mem_nhds h.notMax),
    (ha.sub hA).eventually (lt_mem_nhds h.pos), hpw, cm.eventually (lt_mem_nhds h.fwd), hb]
    with y a1 a2 a3 a4 a5 a6
  exact ⟨a1, a2, a3, a4, a5, a6⟩

/-- sign factor -/
noncomputable def sgn (t : ℝ) : ℝ := if t < 0 then -1 else 1

theorem copysign_of_nonneg {a t : ℝ} (h : 0 ≤ a) : copysign a t = sgn t * a := by
  unfold copysign sgn
  rw [abs_of_nonneg h]
  split_ifs <;> ring

theorem sgn_mul_self (t : ℝ) : sgn t * sgn t = 1 := by unfold sgn; split_ifs <;> norm_num

theorem sgn_eventually {t : ℝ} (h : t ≠ 0) : ∀ᶠ y in nhds t, sgn y = sgn t ∧ y ≠ 0 := by
  rcases lt_or_gt_of_ne h with h | h
  · filter_upwards [gt_mem_nhds h] with y hy; simp [sgn, hy, h, hy.ne]
  · filter_upwards [lt_mem_nhds h] with y hy; simp [sgn, not_lt.2 hy.le, not_lt.2 h.le, hy.ne']

theorem abs_deriv {t : ℝ} (h : t ≠ 0) : HasDerivAt (fun y : ℝ => |y|) (sgn t) t := by
  rcases lt_or_gt_of_ne h with h | h
  · simpa [sgn, h] using hasDerivAt_abs_neg h
  · simpa [sgn, not_lt.2 h.le] using hasDerivAt_abs_pos h

/-- true derivative of the rate with respect to the stress in the main branch -/
theorem sel_deriv_tau {gamW gamR g ct xn xnn tMin tMax tau : ℝ} {back pw : Bool} (ht : tau ≠ 0)
    (hx : xn + 1 = xnn) (hg : 0 < if k.withGA then k.tauA else g)
    (hW : 0 < gamW) (hR : 0 < gamR) (hD : 0 < k.wrD) (hc : 0 ≤ ct * k.muRef) (hp : 0 < k.p)
    (hq : 0 < k.q)
    (h : k.MainBranch back pw gamW (ct * k.muRef) tMin tMax (if k.withGA then 1 / k.tauA else 1 / g)
      (if k.withGA then g else k.tauA) |tau|)
    (s1 : k.MtsSmooth ((|tau| - if k.withGA then g else k.tauA) *
      (if k.withGA then 1 / k.tauA else 1 / g)))
    (s2 : k.MtsSmooth ((-|tau| - if k.withGA then g else k.tauA) *
      (if k.withGA then 1 / k.tauA else 1 / g))) :
    ∃ c, 0 < c ∧ HasDerivAt (fun s => (k.evalGdotSel gamW gamR g ct xn xnn tMin tMax s).gdot)
      ((k.evalGdotSel gamW gamR g ct xn xnn tMin tMax tau).dtau + if back then
        c * k.mtsSlope (ct * k.muRef) ((-|tau| - if k.withGA then g else k.tauA) *
          (if k.withGA then 1 / k.tauA else 1 / g)) else 0) tau := by
  have hgI : 0 < (if k.withGA then 1 / k.tauA else 1 / g) := by
    split_ifs at hg ⊢ <;> exact one_div_pos.2 hg
  have hmain := fun (y : ℝ) (hy : y ≠ 0) => k.sel_main (gamW := gamW) (gamR := gamR) (g := g) (ct := ct)
    (xn := xn) (xnn := xnn) (tMin := tMin) (tMax := tMax) (tau := y) (back := back) (pw := pw) hy hx hg
  simp only at hmain
  generalize hgi : (if k.withGA then 1 / k.tauA else 1 / g) = gI at *
  generalize hga : (if k.withGA then g else k.tauA) = gAth at *
  set cE := ct * k.muRef with hcE
  have hWp : ∀ y, k.MainBranch back pw gamW cE tMin tMax gI gAth |y| →
      0 < k.wRate back pw gamW cE xnn ((|y| - gAth) * gI) ((-|y| - gAth) * gI) := fun y hy =>
    k.wRate_pos hW hc hp hq hgI (abs_nonneg y) hy
  have hRp : ∀ y, k.MainBranch back pw gamW cE tMin tMax gI gAth |y| →
      0 < gamR * (1 - Real.exp (-((|y| - gAth) / k.wrD))) := by
    intro y hy
    have : Real.exp (-((|y| - gAth) / k.wrD)) < 1 := by
      rw [Real.exp_lt_one_iff]; linarith [idpEpsSqrt_pos.trans hy.drag]
    exact mul_pos hR (by linarith)
  set jm := k.jump gamW cE ((-|tau| - gAth) * gI) with hjm
  have hjm0 : 0 < jm := by rw [hjm]; unfold jump; positivity
  set W := k.wRate back pw gamW cE xnn ((|tau| - gAth) * gI) ((-|tau| - gAth) * gI) with hWdef
  set R := gamR * (1 - Real.exp (-((|tau| - gAth) / k.wrD))) with hRdef
  have hW0 : 0 < W := hWp tau h
  have hR0 : 0 < R := hRp tau h
  set G := 1 / (1 / W + 1 / R) with hGdef
  have hG0 : 0 < G := by positivity
  refine ⟨2 * (G * G) * (1 / (W * W)) * gI * jm, by positivity, ?_⟩
  have ev := k.mainBranch_eventually (cE := cE) (gamW := gamW) (tMin := tMin) (tMax := tMax)
    (back := back) (pw := pw) (gI := fun _ => gI) (gAth := fun _ => gAth) (a := fun y => |y|) (s := tau)
    continuousAt_const continuousAt_const (by fun_prop) s1 s2 h
  have ev2 : (fun s => (k.evalGdotSel gamW gamR g ct xn xnn tMin tMax s).gdot) =ᶠ[nhds tau] fun s =>
      sgn tau * (1 / (1 / k.wRate back pw gamW cE xnn ((|s| - gAth) * gI) ((-|s| - gAth) * gI)
        + 1 / (gamR * (1 - Real.exp (-((|s| - gAth) / k.wrD)))))) := by
    filter_upwards [ev, sgn_eventually ht] with y hy hs
    rw [hmain y hs.2 hy]
    simp only
    have a1 := hWp y hy
    have a2 := hRp y hy
    rw [copysign_of_nonneg (by positivity), hs.1]
  refine HasDerivAt.congr_of_eventuallyEq ?_ ev2
  have da := abs_deriv ht
  have dt : HasDerivAt (fun s : ℝ => (|s| - gAth) * gI) (sgn tau * gI) tau :=
    (da.sub_const gAth).mul_const gI
  have dtm : HasDerivAt (fun s : ℝ => (-|s| - gAth) * gI) (-sgn tau * gI) tau :=
    (da.fun_neg.sub_const gAth).mul_const gI
  have dx : HasDerivAt (fun s : ℝ => (|s| - gAth) / k.wrD) (sgn tau / k.wrD) tau :=
    (da.sub_const gAth).div_const k.wrD
  have core := k.core_deriv (gamW := gamW) (gamR := gamR) (cE := cE) (back := back) (pw := pw) hx dt dtm
    dx s1 (fun _ => s2) (mul_pos h.pos hgI) hW0.ne' hR0.ne' (by positivity)
  simp only at core
  refine (core.const_mul (sgn tau)).congr_deriv ?_
  rw [hmain tau ht h]
  simp only
  rw [← hWdef, ← hRdef, ← hGdef, ← hjm]
  have hss := sgn_mul_self tau
  generalize sgn tau = σ at hss ⊢
  rcases back with _ | _ <;> rcases pw with _ | _ <;>
    simp only [Bool.false_eq_true, if_false, if_true, ← hjm]
  · linear_combination (G * G * (k.mtsSlope cE ((|tau| - gAth) * gI) * k.jump gamW cE ((|tau| - gAth) * gI) * gI * (1 / (W * W)) + gamR * Real.exp (-((|tau| - gAth) / k.wrD)) / k.wrD * (1 / (R * R)))) * hss
  · linear_combination (G * G * ((k.mtsSlope cE ((|tau| - gAth) * gI) * k.jump gamW cE ((|tau| - gAth) * gI) * gI + gamW * 10 * ((|tau| - gAth) * gI) ^ xn * xnn * gI) * (1 / (W * W)) + gamR * Real.exp (-((|tau| - gAth) / k.wrD)) / k.wrD * (1 / (R * R)))) * hss
  · linear_combination (G * G * ((k.mtsSlope cE ((|tau| - gAth) * gI) * k.jump gamW cE ((|tau| - gAth) * gI) * gI + k.mtsSlope cE ((-|tau| - gAth) * gI) * jm * gI) * (1 / (W * W)) + gamR * Real.exp (-((|tau| - gAth) / k.wrD)) / k.wrD * (1 / (R * R)))) * hss
  · linear_combination (G * G * ((k.mtsSlope cE ((|tau| - gAth) * gI) * k.jump gamW cE ((|tau| - gAth) * gI) * gI + k.mtsSlope cE ((-|tau| - gAth) * gI) * jm * gI + gamW * 10 * ((|tau| - gAth) * gI) ^ xn * xnn * gI) * (1 / (W * W)) + gamR * Real.exp (-((|tau| - gAth) / k.wrD)) / k.wrD * (1 / (R * R)))) * hss

/-- true derivative of the rate with respect to the strength in the main branch -/
theorem sel_deriv_g {gamW gamR g ct xn xnn tMin tMax tau : ℝ} {back pw : Bool} (ht : tau ≠ 0)
    (hx : xn + 1 = xnn) (hg : 0 < if k.withGA then k.tauA else g)
    (hW : 0 < gamW) (hR : 0 < gamR) (hD : 0 < k.wrD) (hc : 0 ≤ ct * k.muRef) (hp : 0 < k.p)
    (hq : 0 < k.q)
    (h : k.MainBranch back pw gamW (ct * k.muRef) tMin tMax (if k.withGA then 1 / k.tauA else 1 / g)
      (if k.withGA then g else k.tauA) |tau|)
    (s1 : k.MtsSmooth ((|tau| - if k.withGA then g else k.tauA) *
      (if k.withGA then 1 / k.tauA else 1 / g)))
    (s2 : k.MtsSmooth ((-|tau| - if k.withGA then g else k.tauA) *
      (if k.withGA then 1 / k.tauA else 1 / g))) :
    HasDerivAt (fun s => (k.evalGdotSel gamW gamR s ct xn xnn tMin tMax tau).gdot)
      (k.evalGdotSel gamW gamR g ct xn xnn tMin tMax tau).dg g := by
  have hgI : 0 < (if k.withGA then 1 / k.tauA else 1 / g) := by
    split_ifs at hg ⊢ <;> exact one_div_pos.2 hg
  set cE := ct * k.muRef with hcE
  let gI : ℝ → ℝ := fun y => if k.withGA then 1 / k.tauA else 1 / y
  let gAth : ℝ → ℝ := fun y => if k.withGA then y else k.tauA
  let gI' : ℝ := if k.withGA then 0 else -(1 / g) * (1 / g)
  let gAth' : ℝ := if k.withGA then 1 else 0
  have dI : HasDerivAt gI gI' g := by
    simp only [gI, gI']
    split_ifs with hga
    · exact hasDerivAt_const _ _
    · rw [if_neg hga] at hg
      have := (hasDerivAt_id g).fun_inv hg.ne'
      simp only [id] at this
      simp only [one_div]
      refine this.congr_deriv ?_
      field_simp
  have dA : HasDerivAt gAth gAth' g := by
    simp only [gAth, gAth']
    split_ifs with hga
    · exact hasDerivAt_id' _
    · exact hasDerivAt_const _ _
  have ev := k.mainBranch_eventually (cE := cE) (gamW := gamW) (tMin := tMin) (tMax := tMax)
    (back := back) (pw := pw) (gI := gI) (gAth := gAth) (a := fun _ => |tau|) (s := g)
    dI.continuousAt dA.continuousAt continuousAt_const s1 s2 h
  have evg : ∀ᶠ y in nhds g, 0 < if k.withGA then k.tauA else y := by
    split_ifs at hg ⊢ with hga
    · exact Filter.Eventually.of_forall fun _ => hg
    · exact lt_mem_nhds hg
  have hWp : ∀ y, (0 < if k.withGA then k.tauA else y) →
      k.MainBranch back pw gamW cE tMin tMax (gI y) (gAth y) |tau| →
      0 < k.wRate back pw gamW cE xnn ((|tau| - gAth y) * gI y) ((-|tau| - gAth y) * gI y) := by
    intro y hy0 hy
    have : 0 < gI y := by
      simp only [gI]; split_ifs at hy0 ⊢ <;> exact one_div_pos.2 hy0
    exact k.wRate_pos hW hc hp hq this (abs_nonneg tau) hy
  have hRp : ∀ y, k.MainBranch back pw gamW cE tMin tMax (gI y) (gAth y) |tau| →
      0 < gamR * (1 - Real.exp (-((|tau| - gAth y) / k.wrD))) := by
    intro y hy
    have : Real.exp (-((|tau| - gAth y) / k.wrD)) < 1 := by
      rw [Real.exp_lt_one_iff]; linarith [idpEpsSqrt_pos.trans hy.drag]
    exact mul_pos hR (by linarith)
  have ev2 : (fun s => (k.evalGdotSel gamW gamR s ct xn xnn tMin tMax tau).gdot) =ᶠ[nhds g] fun s =>
      sgn tau * (1 / (1 / k.wRate back pw gamW cE xnn ((|tau| - gAth s) * gI s)
          ((-|tau| - gAth s) * gI s)
        + 1 / (gamR * (1 - Real.exp (-((|tau| - gAth s) / k.wrD)))))) := by
    filter_upwards [ev, evg] with y hy hy0
    have hm := k.sel_main (gamW := gamW) (gamR := gamR) (g := y) (ct := ct)
      (xn := xn) (xnn := xnn) (tMin := tMin) (tMax := tMax) (tau := tau) (back := back) (pw := pw)
      ht hx hy0 hy
    simp only at hm
    rw [hm]
    simp only
    have a1 := hWp y hy0 hy
    have a2 := hRp y hy
    exact copysign_of_nonneg (by positivity)
  refine HasDerivAt.congr_of_eventuallyEq ?_ ev2
  have dt : HasDerivAt (fun s : ℝ => (|tau| - gAth s) * gI s)
      (-gAth' * gI g + (|tau| - gAth g) * gI') g := (dA.const_sub |tau|).fun_mul dI
  have dtm : HasDerivAt (fun s : ℝ => (-|tau| - gAth s) * gI s)
      (-gAth' * gI g + (-|tau| - gAth g) * gI') g := (dA.const_sub (-|tau|)).fun_mul dI
  have dx : HasDerivAt (fun s : ℝ => (|tau| - gAth s) / k.wrD) (-gAth' / k.wrD) g :=
    (dA.const_sub |tau|).div_const k.wrD
  have hW0 := hWp g hg h
  have hR0 := hRp g h
  have core := k.core_deriv (gamW := gamW) (gamR := gamR) (cE := cE) (back := back) (pw := pw) hx dt dtm
    dx s1 (fun _ => s2) (mul_pos h.pos hgI) hW0.ne' hR0.ne' (by positivity)
  simp only at core
  refine (core.const_mul (sgn tau)).congr_deriv ?_
  have hm := k.sel_main (gamW := gamW) (gamR := gamR) (g := g) (ct := ct)
      (xn := xn) (xnn := xnn) (tMin := tMin) (tMax := tMax) (tau := tau) (back := back) (pw := pw)
      ht hx hg h
  simp only at hm
  rw [hm]
  have hgi : (if k.withGA then 1 / k.tauA else 1 / g) = gI g := rfl
  have hga : (if k.withGA then g else k.tauA) = gAth g := rfl
  have hGI : k.withGA = false → gI' = -(gI g) * gI g := by
    intro h; simp only [gI', gI, h, Bool.false_eq_true, if_false]
  have hGA' : gAth' = if k.withGA then 1 else 0 := rfl
  have hGI2 : k.withGA = true → gI' = 0 := by intro h; simp only [gI', h, if_true]
  simp only [hgi, hga]
  rw [copysign_of_nonneg (by positivity)]
  generalize k.wRate back pw gamW cE xnn ((|tau| - gAth g) * gI g) ((-|tau| - gAth g) * gI g) = W
  generalize gamR * (1 - Real.exp (-((|tau| - gAth g) / k.wrD))) = R
  generalize gI g = I at hGI ⊢
  generalize gAth g = A
  generalize gI' = I' at hGI hGI2 ⊢
  generalize gAth' = A' at hGA' ⊢
  by_cases hga : k.withGA = true
  · rw [hGI2 hga, hGA']
    simp only [hga, if_true]
    rcases back with _ | _ <;> rcases pw with _ | _ <;>
      simp only [Bool.false_eq_true, if_false, if_true] <;> ring
  · have hga' : k.withGA = false := by simpa using hga
    rw [hGI hga', hGA']
    simp only [hga', Bool.false_eq_true, if_false]
    rcases back with _ | _ <;> rcases pw with _ | _ <;>
      simp only [Bool.false_eq_true, if_false, if_true] <;> ring

end KMBalD
end Ecm
