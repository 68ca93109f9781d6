/- The scalar recursion of the stress in a crystal stretched along a cube axis, and of its strength. -/
import Verif.Lemmas.Solvable
import Verif.Props.Voce

namespace Ecm
open Props

namespace Voce
variable (k : Voce)

theorem law_ge (hm : 0 < k.xm) (hw : 0 < k.gamW) {g τ u : ℝ} (hg : 0 < g) (hu : k.tMin < u) (h1 : u ≤ τ / g)
    (h2 : τ / g ≤ k.tMax) : k.gamW * u ^ k.xnn ≤ (k.evalGdot g τ).gdot := by
  have hu0 : 0 < u := k.tMin_pos.trans hu
  have hτ : 0 < τ := by
    have := hu0.trans_le h1
    rwa [lt_div_iff₀ hg, zero_mul] at this
  have ha : |τ| = τ := abs_of_pos hτ
  rw [k.gdot_mid hg (by rw [ha]; exact hu.trans_le h1) (by rw [ha]; exact h2), if_pos hτ, one_mul, ha]
  exact mul_le_mul_of_nonneg_left (Real.rpow_le_rpow hu0.le h1 (k.xnn_pos hm).le) hw.le

theorem law_le (hm : 0 < k.xm) (hw : 0 < k.gamW) {g τ u : ℝ} (hg : 0 < g) (hu : 0 ≤ u) (h1 : τ / g ≤ u)
    (h2 : τ / g ≤ k.tMax) : (k.evalGdot g τ).gdot ≤ k.gamW * u ^ k.xnn := by
  have h0 : 0 ≤ k.gamW * u ^ k.xnn := mul_nonneg hw.le (Real.rpow_nonneg hu _)
  rcases le_or_gt τ 0 with hτ | hτ
  · have := (C24_sign k hm hw g τ hg).2.2
    rcases hτ.lt_or_eq with hτ | rfl
    · nlinarith
    · rw [k.evalGdot_low hg (by simpa using k.tMin_pos.le)]; exact h0
  · have ha : |τ| = τ := abs_of_pos hτ
    rcases le_or_gt (|τ| / g) k.tMin with h | h
    · rw [k.evalGdot_low hg h]; exact h0
    · rw [k.gdot_mid hg h (by rw [ha]; exact h2), if_pos hτ, one_mul, ha]
      exact mul_le_mul_of_nonneg_left (Real.rpow_le_rpow (by positivity) h1 (k.xnn_pos hm).le) hw.le

theorem rpow_xm_xnn (hm : 0 < k.xm) {r : ℝ} (hr : 0 ≤ r) : (r ^ k.xm) ^ k.xnn = r := by
  unfold xnn
  rw [← Real.rpow_mul hr, mul_one_div_cancel hm.ne', Real.rpow_one]

theorem tMin_lt_rpow (hm : 0 < k.xm) {r : ℝ} (hr : 1 / 10 ^ 60 < r) : k.tMin < r ^ k.xm := by
  have e : k.tMin = (1 / 10 ^ 60 : ℝ) ^ k.xm := by unfold Voce.tMin gamRatioMin; norm_num
  rw [e]
  exact Real.rpow_lt_rpow (by positivity) hr hm

theorem rpow_le_tMax (hm : 0 < k.xm) {r : ℝ} (h0 : 0 ≤ r) (hr : r ≤ 10 ^ 60) : r ^ k.xm ≤ k.tMax := by
  have e : k.tMax = (10 ^ 60 : ℝ) ^ k.xm := by unfold Voce.tMax gamRatioOvf; norm_num
  rw [e]
  exact Real.rpow_le_rpow h0 hr hm.le

/-- a step from below the overflow threshold ends below it -/
theorem step_below (hm : 0 < k.xm) (hw : 0 < k.gamW) {g c D T T' : ℝ} (hg : 0 < g) (hc : 0 < c)
    (hD : D < 4 * (10 ^ 45 * k.gamW)) (hT : T ≤ k.tMax * g)
    (h : T' = T + c * (D - 4 * (k.evalGdot g T').gdot)) : T' ≤ k.tMax * g := by
  by_contra hn
  push Not at hn
  have hp : 0 < T' := lt_trans (mul_pos k.tMax_pos hg) hn
  have hh : k.tMax < |T'| / g := by rw [abs_of_pos hp, lt_div_iff₀ hg]; exact hn
  have e : k.tMax = (10 ^ 60 : ℝ) ^ k.xm := by unfold Voce.tMax gamRatioOvf; norm_num
  rw [C24_overflow k hm hw.le g T' hg (by rw [← e]; exact hh), if_pos hp, one_mul] at h
  have : c * (D - 4 * (10 ^ 45 * k.gamW)) < 0 := mul_neg_of_pos_of_neg hc (by linarith)
  linarith

/-- a step does not take the stress beyond its first value and the flow stress -/
theorem step_le (hm : 0 < k.xm) (hw : 0 < k.gamW) {g c D T T' r : ℝ} (hg : 0 < g) (hc : 0 < c)
    (hr : 1 / 10 ^ 60 < r) (hD : D ≤ 4 * (k.gamW * r)) (hT' : T' ≤ k.tMax * g)
    (h : T' = T + c * (D - 4 * (k.evalGdot g T').gdot)) : T' ≤ max T (g * r ^ k.xm) := by
  by_contra hn
  push Not at hn
  obtain ⟨h1, h2⟩ := max_lt_iff.1 hn
  have hr0 : 0 < r := lt_trans (by norm_num) hr
  have := k.law_ge hm hw hg (k.tMin_lt_rpow hm hr) (τ := T')
    (by rw [le_div_iff₀ hg, mul_comm]; exact h2.le) (by rw [div_le_iff₀ hg]; exact hT')
  rw [k.rpow_xm_xnn hm hr0.le] at this
  have : c * (D - 4 * (k.evalGdot g T').gdot) ≤ 0 := mul_nonpos_of_nonneg_of_nonpos hc.le (by linarith)
  linarith

/-- the equation for the stress with the opposite sign -/
theorem step_neg (hm : 0 < k.xm) {g c D T T' : ℝ} (hg : 0 < g)
    (h : T' = T + c * (D - 4 * (k.evalGdot g T').gdot)) :
    -T' = -T + c * (-D - 4 * (k.evalGdot g (-T')).gdot) := by
  rw [(C24_odd k hm g T' hg).1]
  linarith

/-- the equation for the stress has a solution up to the jumps of the law, between the first value and the flow
    stress -/
theorem step_exists (hm : 0 < k.xm) (hw : 0 < k.gamW) {g c d T r : ℝ} (hg : 0 < g) (hc : 0 < c)
    (hr : r = |d| / (4 * k.gamW)) (hr1 : r ≤ 10 ^ 60) (hT : |T| ≤ k.tMax * g) :
    ∃ T' ρ, T' = T + c * (d + ρ - 4 * (k.evalGdot g T').gdot) ∧ |ρ| ≤ 4 / 10 ^ 60 * k.gamW := by
  have hr0 : 0 ≤ r := by rw [hr]; positivity
  set B := max |T| (g * r ^ k.xm) with hB
  have hB0 : 0 ≤ B := (abs_nonneg T).trans (le_max_left _ _)
  have hBm : B ≤ k.tMax * g := max_le hT (by
    rw [mul_comm]; exact mul_le_mul_of_nonneg_right (k.rpow_le_tMax hm hr0 hr1) hg.le)
  have hpB : k.gamW * r ≤ k.powLaw g B := by
    unfold powLaw
    rw [if_pos hB0]
    refine mul_le_mul_of_nonneg_left ?_ hw.le
    calc r = (r ^ k.xm) ^ k.xnn := (k.rpow_xm_xnn hm hr0).symm
      _ ≤ _ := Real.rpow_le_rpow (Real.rpow_nonneg hr0 _)
        (by rw [le_div_iff₀ hg, mul_comm]; exact le_max_right _ _) (k.xnn_pos hm).le
  have hneg : k.powLaw g (-B) = -k.powLaw g B := by
    rcases hB0.lt_or_eq with h | h
    · unfold powLaw
      rw [if_neg (by linarith), if_pos hB0, neg_neg]
    · rw [← h, neg_zero, k.powLaw_zero hm, neg_zero]
  have hdr : |d| = 4 * (k.gamW * r) := by rw [hr]; field_simp
  obtain ⟨T', hmem, hT'⟩ : ∃ T' ∈ Set.Icc (-B) B, T' + c * (4 * k.powLaw g T') = T + c * d := by
    have hcont : ContinuousOn (fun t => t + c * (4 * k.powLaw g t)) (Set.Icc (-B) B) :=
      (continuous_id.add (continuous_const.mul (continuous_const.mul (k.powLaw_continuous hm g)))).continuousOn
    refine intermediate_value_Icc (by linarith) hcont ⟨?_, ?_⟩
    · rw [hneg]
      have h1 : -B ≤ T := (neg_le_neg (le_max_left _ _)).trans (neg_abs_le T)
      have h2 : -(4 * k.powLaw g B) ≤ d := by
        have := neg_abs_le d; linarith
      have := mul_le_mul_of_nonneg_left h2 hc.le
      linarith
    · have h1 : T ≤ B := (le_abs_self T).trans (le_max_left _ _)
      have h2 : d ≤ 4 * k.powLaw g B := by
        have := le_abs_self d; linarith
      have := mul_le_mul_of_nonneg_left h2 hc.le
      linarith
  refine ⟨T', 4 * ((k.evalGdot g T').gdot - k.powLaw g T'), by linarith, ?_⟩
  have := k.powLaw_close hm hw hg (τ := T') (by
    rw [div_le_iff₀ hg]; exact (abs_le.2 hmem).trans hBm)
  rw [abs_mul, abs_of_pos (by norm_num : (0 : ℝ) < 4)]
  linarith

end Voce

/-! ### Sequences -/

theorem eventually_below {T : ℕ → ℝ} {U e B : ℝ} (he : 0 < e) (hB : ∀ k, B ≤ T k)
    (h : ∀ k, U ≤ T (k + 1) → T (k + 1) ≤ T k - e) : ∃ K, ∀ k, K ≤ k → T k < U := by
  have hex : ∃ K, T K < U := by
    by_contra hn
    push Not at hn
    have hd : ∀ k : ℕ, T k ≤ T 0 - k * e := by
      intro k
      induction k with
      | zero => simp
      | succ k ih =>
        have := h k (hn _)
        push_cast
        linarith
    obtain ⟨N, hN⟩ := exists_nat_gt ((T 0 - B) / e)
    rw [div_lt_iff₀ he] at hN
    have := hd N
    have := hB N
    linarith
  obtain ⟨K, hK⟩ := hex
  refine ⟨K, fun k hk => ?_⟩
  induction k, hk using Nat.le_induction with
  | base => exact hK
  | succ k _ ih =>
    by_contra hn
    push Not at hn
    have := h k hn
    linarith

/-- errors that shrink by the factor `1 / (1 + μ k)` and gain `δ` in each step, where the `μ` add up to at least `M` over
    `W` steps -/
theorem eventually_small {e μ : ℕ → ℝ} {δ M C : ℝ} {W : ℕ} (hδ : 0 ≤ δ) (hM : 0 < M) (hμ : ∀ k, 0 ≤ μ k)
    (h0 : ∀ k, 0 ≤ e k) (hC : ∀ k, e k ≤ C) (h : ∀ k, e (k + 1) ≤ e k / (1 + μ k) + δ)
    (hW : ∀ k, M ≤ ∑ j ∈ Finset.range W, μ (k + j)) {ε : ℝ} (hε : 0 < ε) :
    ∃ K, ∀ k, K ≤ k → e k ≤ W * δ * (1 + M) / M + ε := by
  have hwin : ∀ k W', e (k + W') ≤ e k / (1 + ∑ j ∈ Finset.range W', μ (k + j)) + W' * δ := by
    intro k W'
    induction W' with
    | zero => simp
    | succ W' ih =>
      have hs : 0 ≤ ∑ j ∈ Finset.range W', μ (k + j) := Finset.sum_nonneg fun j _ => hμ _
      have h1 := h (k + W')
      rw [Finset.sum_range_succ]
      generalize ∑ j ∈ Finset.range W', μ (k + j) = s at *
      have hm := hμ (k + W')
      generalize μ (k + W') = m at *
      have hek := h0 k
      have h2 : e (k + W') / (1 + m) ≤ (e k / (1 + s) + W' * δ) / (1 + m) :=
        div_le_div_of_nonneg_right ih (by linarith)
      have h3 : (W' * δ) / (1 + m) ≤ W' * δ := div_le_self (by positivity) (by linarith)
      have h4 : e k / (1 + s) / (1 + m) ≤ e k / (1 + (s + m)) := by
        rw [div_div]
        exact div_le_div_of_nonneg_left hek (by linarith) (by nlinarith)
      rw [add_div] at h2
      push_cast
      rw [show k + (W' + 1) = k + W' + 1 by ring]
      linarith
  have hone : ∀ k, e (k + W) ≤ e k / (1 + M) + W * δ := by
    intro k
    refine (hwin k W).trans ?_
    have := div_le_div_of_nonneg_left (h0 k) (by linarith) (by linarith [hW k] :
      1 + M ≤ 1 + ∑ j ∈ Finset.range W, μ (k + j))
    linarith
  set L := W * δ * (1 + M) / M with hL
  have hfix : L / (1 + M) + W * δ = L := by
    rw [hL]; field_simp
  have hL0 : 0 ≤ L := by positivity
  have hit : ∀ n k, e (k + n * W) ≤ e k / (1 + M) ^ n + L := by
    intro n
    induction n with
    | zero => intro k; simpa using hL0
    | succ n ih =>
      intro k
      have h1 := hone (k + n * W)
      have h2 : e (k + n * W) / (1 + M) ≤ (e k / (1 + M) ^ n + L) / (1 + M) :=
        div_le_div_of_nonneg_right (ih k) (by linarith)
      rw [add_div, div_div, ← pow_succ] at h2
      rw [show k + (n + 1) * W = k + n * W + W by ring]
      linarith
  obtain ⟨n, hn⟩ := pow_unbounded_of_one_lt (C / ε) (by linarith : 1 < 1 + M)
  refine ⟨n * W, fun k hk => ?_⟩
  obtain ⟨j, rfl⟩ := Nat.exists_eq_add_of_le' hk
  refine (hit n j).trans ?_
  have hp : 0 < (1 + M) ^ n := by positivity
  have : e j / (1 + M) ^ n ≤ ε := by
    rw [div_le_iff₀ hp]
    rw [div_lt_iff₀ hε] at hn
    have := hC j
    nlinarith
  linarith

/-- the stress ends up between the flow stresses that belong to the bounds on rate and strength -/
theorem flow_limit (k : Voce) (hm : 0 < k.xm) (hw : 0 < k.gamW) {T g : ℕ → ℝ} {c d θ g1 g2 B : ℝ} {K0 : ℕ}
    (hc : 0 < c) (hg1 : 0 < g1) (hg : ∀ j, K0 ≤ j → g1 ≤ g j ∧ g j ≤ g2) (hB : ∀ j, |T j| ≤ B)
    (hR : ∀ j, K0 ≤ j → T j ≤ k.tMax * g j)
    (hst : ∀ j, ∃ ρ, |ρ| ≤ θ ∧ T (j + 1) = T j + c * (d + ρ - 4 * (k.evalGdot (g (j + 1)) (T (j + 1))).gdot))
    {ε : ℝ} (hε : 0 < ε) (hθ : θ + ε ≤ d) (hr : 1 / 10 ^ 60 < (d + θ + ε) / (4 * k.gamW)) :
    ∃ K, ∀ j, K ≤ j → g1 * ((d - θ - ε) / (4 * k.gamW)) ^ k.xm < T j ∧
      T j < g2 * ((d + θ + ε) / (4 * k.gamW)) ^ k.xm := by
  have hg2 : 0 < g2 := hg1.trans_le ((hg K0 le_rfl).1.trans (hg K0 le_rfl).2)
  have hgp : ∀ j, K0 ≤ j → 0 < g j := fun j hj => hg1.trans_le (hg j hj).1
  have hcε : 0 < c * ε := mul_pos hc hε
  obtain ⟨K1, hK1⟩ := eventually_below (T := fun j => T (K0 + j))
    (U := g2 * ((d + θ + ε) / (4 * k.gamW)) ^ k.xm) (B := -B) hcε
    (fun j => (abs_le.1 (hB _)).1) (by
      intro j hj
      obtain ⟨ρ, hρ, he⟩ := hst (K0 + j)
      rw [← add_assoc] at hj ⊢
      have hG := hgp (K0 + j + 1) (by omega)
      have hr0 : 0 ≤ (d + θ + ε) / (4 * k.gamW) := le_trans (by norm_num) hr.le
      have hu := Real.rpow_nonneg hr0 k.xm
      have h1 : ((d + θ + ε) / (4 * k.gamW)) ^ k.xm ≤ T (K0 + j + 1) / g (K0 + j + 1) := by
        rw [le_div_iff₀ hG]
        refine le_trans ?_ hj
        rw [mul_comm]
        exact mul_le_mul_of_nonneg_right (hg _ (by omega)).2 hu
      have h2 := k.law_ge hm hw hG (k.tMin_lt_rpow hm hr) h1 (by
        rw [div_le_iff₀ hG]; exact hR _ (by omega))
      rw [k.rpow_xm_xnn hm hr0] at h2
      have e : k.gamW * ((d + θ + ε) / (4 * k.gamW)) = (d + θ + ε) / 4 := by field_simp
      rw [e] at h2
      have h3 : d + ρ - 4 * (k.evalGdot (g (K0 + j + 1)) (T (K0 + j + 1))).gdot ≤ -ε := by
        have := (abs_le.1 hρ).2; linarith
      have := mul_le_mul_of_nonneg_left h3 hc.le
      linarith)
  obtain ⟨K2, hK2⟩ := eventually_below (T := fun j => -T (K0 + j))
    (U := -(g1 * ((d - θ - ε) / (4 * k.gamW)) ^ k.xm)) (B := -B) hcε
    (fun j => neg_le_neg (abs_le.1 (hB _)).2) (by
      intro j hj
      obtain ⟨ρ, hρ, he⟩ := hst (K0 + j)
      rw [← add_assoc] at hj ⊢
      have hG := hgp (K0 + j + 1) (by omega)
      have hr0 : 0 ≤ (d - θ - ε) / (4 * k.gamW) := div_nonneg (by linarith) (by linarith)
      have hu := Real.rpow_nonneg hr0 k.xm
      have h1 : T (K0 + j + 1) / g (K0 + j + 1) ≤ ((d - θ - ε) / (4 * k.gamW)) ^ k.xm := by
        rw [div_le_iff₀ hG]
        refine (neg_le_neg_iff.1 hj).trans ?_
        rw [mul_comm]
        exact mul_le_mul_of_nonneg_left (hg _ (by omega)).1 hu
      have h2 := k.law_le hm hw hG hu h1 (by
        rw [div_le_iff₀ hG]; exact hR _ (by omega))
      rw [k.rpow_xm_xnn hm hr0] at h2
      have e : k.gamW * ((d - θ - ε) / (4 * k.gamW)) = (d - θ - ε) / 4 := by field_simp
      rw [e] at h2
      have h3 : ε ≤ d + ρ - 4 * (k.evalGdot (g (K0 + j + 1)) (T (K0 + j + 1))).gdot := by
        have := (abs_le.1 hρ).1; linarith
      have := mul_le_mul_of_nonneg_left h3 hc.le
      linarith)
  refine ⟨K0 + max K1 K2, fun j hj => ?_⟩
  obtain ⟨i, rfl⟩ := Nat.exists_eq_add_of_le (show K0 ≤ j by omega)
  have h1 := hK1 i (by have := le_max_left K1 K2; omega)
  have h2 := hK2 i (by have := le_max_right K1 K2; omega)
  exact ⟨by linarith, h1⟩

/-- one step does not take the stress out of a range that contains the flow stress -/
theorem axis_flow_step (k : Voce) (hm : 0 < k.xm) (hw : 0 < k.gamW) {T T' g c d θ ρ g1 g2 B : ℝ} (hc : 0 < c)
    (hd : 0 ≤ d) (hg1 : 0 < g1) (hg : g1 ≤ g ∧ g ≤ g2) (hr : 1 / 10 ^ 60 < (d + θ) / (4 * k.gamW))
    (hov : d + θ < 4 * (10 ^ 45 * k.gamW)) (hT : |T| ≤ B) (hcap : g2 * ((d + θ) / (4 * k.gamW)) ^ k.xm ≤ B)
    (hBm : B ≤ k.tMax * g1) (hρ : |ρ| ≤ θ) (he : T' = T + c * (d + ρ - 4 * (k.evalGdot g T').gdot)) : |T'| ≤ B := by
  obtain ⟨hga, hgb⟩ := hg
  have hG : 0 < g := hg1.trans_le hga
  have hmg : k.tMax * g1 ≤ k.tMax * g := mul_le_mul_of_nonneg_left hga k.tMax_pos.le
  have hr0 : 0 ≤ (d + θ) / (4 * k.gamW) := le_trans (by norm_num) hr.le
  have e : 4 * (k.gamW * ((d + θ) / (4 * k.gamW))) = d + θ := by field_simp
  obtain ⟨hρ1, hρ2⟩ := abs_le.1 hρ
  obtain ⟨hT1, hT2⟩ := abs_le.1 hT
  have hgB : g * ((d + θ) / (4 * k.gamW)) ^ k.xm ≤ B :=
    (mul_le_mul_of_nonneg_right hgb (Real.rpow_nonneg hr0 _)).trans hcap
  refine abs_le.2 ⟨?_, ?_⟩
  · have hn := k.step_neg hm hG he
    have h1 := k.step_below hm hw hG hc (D := -(d + ρ)) (by linarith) (by linarith) hn
    have h2 := k.step_le hm hw hG hc hr (D := -(d + ρ)) (by rw [e]; linarith) h1 hn
    have := h2.trans (max_le (by linarith) hgB)
    linarith
  · have h1 := k.step_below hm hw hG hc (D := d + ρ) (by linarith) (by linarith) he
    have h2 := k.step_le hm hw hG hc hr (D := d + ρ) (by rw [e]; linarith) h1 he
    exact h2.trans (max_le hT2 hgB)

/-- the stress stays below the flow stress of the greatest strength, or its first value -/
theorem flow_bound (k : Voce) (hm : 0 < k.xm) (hw : 0 < k.gamW) {T g : ℕ → ℝ} {c d θ g1 g2 : ℝ} (hc : 0 < c)
    (hd : 0 ≤ d) (hg1 : 0 < g1) (hg : ∀ j, g1 ≤ g (j + 1) ∧ g (j + 1) ≤ g2) (hr : 1 / 10 ^ 60 < (d + θ) / (4 * k.gamW))
    (hov : d + θ < 4 * (10 ^ 45 * k.gamW)) (h0 : |T 0| ≤ k.tMax * g1)
    (hcap : g2 * ((d + θ) / (4 * k.gamW)) ^ k.xm ≤ k.tMax * g1)
    (hst : ∀ j, ∃ ρ, |ρ| ≤ θ ∧ T (j + 1) = T j + c * (d + ρ - 4 * (k.evalGdot (g (j + 1)) (T (j + 1))).gdot)) (j : ℕ) :
    |T j| ≤ max |T 0| (g2 * ((d + θ) / (4 * k.gamW)) ^ k.xm) := by
  induction j with
  | zero => exact le_max_left _ _
  | succ j ih =>
    obtain ⟨ρ, hρ, he⟩ := hst j
    exact axis_flow_step k hm hw hc hd hg1 (hg j) hr hov ih (le_max_right _ _) (max_le h0 hcap) hρ he

end Ecm
