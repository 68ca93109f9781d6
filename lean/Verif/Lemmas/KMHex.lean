/- Root of the scalar equation of the one-step test of the HCP crystal, enclosed by rational certificates. -/
import Verif.Lemmas.KMPoint
import Mathlib.Topology.Order.IntermediateValue
import Mathlib.Analysis.Complex.ExponentialBounds

namespace Ecm

/-- activated rate with p = q = 1, jumps against the stress included, and the power law: activation constant
    200/3, reference rate 40, threshold 1/8000, barrier 1/250 -/
noncomputable def hexW (τ : ℝ) : ℝ :=
  40 * Real.exp (-(200 / 3) * (1 - (τ - 1 / 8000) * 250))
    - 40 * Real.exp (-(200 / 3) * (1 - (-τ - 1 / 8000) * 250)) + 400 * ((τ - 1 / 8000) * 250) ^ (400 / 3 : ℝ)

noncomputable def hexF (τ : ℝ) : ℝ := 1 / (1 / hexW τ + 1 / kmR ((τ - 1 / 8000) * 50))

theorem four_thirds {t l u : ℝ} (ht : 0 ≤ t) (hl : 0 ≤ l) (hu : 0 ≤ u) (h1 : l ^ 3 ≤ t ^ 4) (h2 : t ^ 4 ≤ u ^ 3) :
    l ^ 100 ≤ t ^ (400 / 3 : ℝ) ∧ t ^ (400 / 3 : ℝ) ≤ u ^ 100 := by
  obtain ⟨a, b⟩ := pow_between (a := 4) (b := 3) (by norm_num) ht hl hu h1 h2
  have e : t ^ (400 / 3 : ℝ) = (t ^ (((4 : ℕ) : ℝ) / (3 : ℕ))) ^ 100 := by
    rw [← Real.rpow_natCast, ← Real.rpow_mul ht]; norm_num
  rw [e]
  exact ⟨pow_le_pow_left₀ hl a 100, pow_le_pow_left₀ (Real.rpow_nonneg ht _) b 100⟩

theorem hexBack {τ : ℝ} (h : 0 ≤ τ) : Real.exp (-(200 / 3) * (1 - (-τ - 1 / 8000) * 250)) ≤ (1 / 2) ^ 66 := by
  have e : Real.exp (-66) = (Real.exp (-1)) ^ 66 := by rw [← Real.exp_nat_mul]; norm_num
  have h1 : Real.exp (-1) ≤ 1 / 2 := by
    have := Real.add_one_le_exp (1 : ℝ)
    rw [Real.exp_neg, inv_le_comm₀ (Real.exp_pos _) (by norm_num)]
    linarith
  refine (Real.exp_le_exp.2 (show _ ≤ (-66 : ℝ) by linarith)).trans ?_
  rw [e]
  exact pow_le_pow_left₀ (Real.exp_pos _).le h1 66

theorem hexFwd {τ : ℝ} (h0 : 1 / 8000 ≤ τ) :
    Real.exp (-(200 / 3) * (1 - (-τ - 1 / 8000) * 250)) < Real.exp (-(200 / 3) * (1 - (τ - 1 / 8000) * 250)) :=
  Real.exp_lt_exp.2 (by linarith)

theorem hexW_pos {τ : ℝ} (h0 : 1 / 8000 ≤ τ) : 0 < hexW τ := by
  have := hexFwd h0
  have := Real.rpow_nonneg (x := (τ - 1 / 8000) * 250) (by linarith) (400 / 3 : ℝ)
  unfold hexW
  linarith

theorem hexF_continuousOn {s : Set ℝ} (h : ∀ y ∈ s, 1 / 8000 < y) : ContinuousOn hexF s := by
  have hW : Continuous hexW := by
    unfold hexW
    have h3 : Continuous fun y : ℝ => ((y - 1 / 8000) * 250) ^ (400 / 3 : ℝ) :=
      Continuous.rpow_const (by fun_prop) fun _ => Or.inr (by norm_num)
    fun_prop
  have hR : Continuous fun y : ℝ => kmR ((y - 1 / 8000) * 50) := by unfold kmR; fun_prop
  have hr : ∀ y ∈ s, 0 < kmR ((y - 1 / 8000) * 50) := fun y hy => kmR_pos (by have := h y hy; linarith)
  unfold hexF
  refine ContinuousOn.div continuousOn_const
    ((continuousOn_const.div hW.continuousOn fun y hy => (hexW_pos (h y hy).le).ne').add
      (continuousOn_const.div hR.continuousOn fun y hy => (hr y hy).ne')) fun y hy => ?_
  have h1 := one_div_pos.2 (hexW_pos (h y hy).le)
  have h2 := one_div_pos.2 (hr y hy)
  linarith

theorem hexW_le {τ u c : ℝ} (h0 : 1 / 8000 ≤ τ) (hu : 0 ≤ u) (h1 : ((τ - 1 / 8000) * 250) ^ 4 ≤ u ^ 3)
    (ha0 : 0 ≤ 25 / 3 * (1 - (τ - 1 / 8000) * 250)) (ha1 : 25 / 3 * (1 - (τ - 1 / 8000) * 250) ≤ 1)
    (h3 : ∑ m ∈ Finset.range 20, (-(25 / 3 * (1 - (τ - 1 / 8000) * 250))) ^ m / m.factorial
      + 21 / (2432902008176640000 * 20) ≤ c) :
    hexW τ ≤ 40 * c ^ 8 + 400 * u ^ 100 := by
  have e1 := (four_thirds (l := 0) (by linarith) le_rfl hu (by
    rw [zero_pow (by norm_num)]; exact pow_nonneg (by linarith) 4) h1).2
  have e2 := exp_eighth_le (by rw [abs_neg, abs_of_nonneg ha0]; exact ha1) h3
  have e3 := Real.exp_pos (-(200 / 3) * (1 - (-τ - 1 / 8000) * 250))
  rw [show 8 * -(25 / 3 * (1 - (τ - 1 / 8000) * 250)) = -(200 / 3) * (1 - (τ - 1 / 8000) * 250) by ring] at e2
  unfold hexW
  linarith

theorem le_hexW {τ l c : ℝ} (h0 : 1 / 8000 ≤ τ) (hl : 0 ≤ l) (h1 : l ^ 3 ≤ ((τ - 1 / 8000) * 250) ^ 4)
    (ha0 : 0 ≤ 25 / 3 * (1 - (τ - 1 / 8000) * 250)) (ha1 : 25 / 3 * (1 - (τ - 1 / 8000) * 250) ≤ 1) (hc : 0 ≤ c)
    (h3 : c ≤ ∑ m ∈ Finset.range 20, (-(25 / 3 * (1 - (τ - 1 / 8000) * 250))) ^ m / m.factorial
      - 21 / (2432902008176640000 * 20)) :
    40 * c ^ 8 + 400 * l ^ 100 - 40 * (1 / 2) ^ 66 ≤ hexW τ := by
  have e1 := (four_thirds (u := 1) (by linarith) hl zero_le_one h1 (by
    rw [one_pow]; exact pow_le_one₀ (by linarith) (by linarith))).1
  have e2 := le_exp_eighth (by rw [abs_neg, abs_of_nonneg ha0]; exact ha1) hc h3
  have e3 := hexBack (τ := τ) (by linarith)
  rw [show 8 * -(25 / 3 * (1 - (τ - 1 / 8000) * 250)) = -(200 / 3) * (1 - (τ - 1 / 8000) * 250) by ring] at e2
  unfold hexW
  linarith

/-- the resolved stress; `p` is the axial component of the slip systems, `K` the axial stiffness -/
theorem hexRoot {p p2 : ℝ} (hp2 : p2 = 17949012193009739816102812500000000000000000 / 73336463119216114384393682382164965654840961)
    (hl : 494720943126266629 / 10 ^ 18 ≤ p) (hu : p ≤ 494720943126266630 / 10 ^ 18) :
    ∃ τ : ℝ, 379142317569 / 10 ^ 14 ≤ τ ∧ τ ≤ 379142317572 / 10 ^ 14 ∧ 10 * (τ / (3398 / 3000)) + 12 * p2 * hexF τ = p := by
  have hc : ContinuousOn (fun τ : ℝ => 10 * (τ / (3398 / 3000)) + 12 * p2 * hexF τ)
      (Set.Icc (379142317569 / 10 ^ 14) (379142317572 / 10 ^ 14)) := by
    have h1 := hexF_continuousOn (s := Set.Icc (379142317569 / 10 ^ 14) (379142317572 / 10 ^ 14))
      (fun y hy => by have := hy.1; norm_num at this ⊢; linarith)
    exact (continuousOn_const.mul (continuousOn_id.div_const _)).add (continuousOn_const.mul h1)
  have hlo : 10 * (379142317569 / 10 ^ 14 / (3398 / 3000)) + 12 * p2 * hexF (379142317569 / 10 ^ 14) ≤ p := by
    have w := hexW_le (τ := 379142317569 / 10 ^ 14) (u := 890382872953824 / 10 ^ 15) (c := 499098545222483 / 10 ^ 15) (by norm_num) (by norm_num)
      (by norm_num) (by norm_num) (by norm_num) (by norm_num [Finset.sum_range_succ, Nat.factorial])
    have r := (kmR_between (x := (379142317569 / 10 ^ 14 - 1 / 8000) * 50) (l := 0) (u := 41874813032271203 / 10 ^ 15) (by rw [abs_of_pos] <;> norm_num)
      (by norm_num [Finset.sum_range_succ, Nat.factorial]) (by norm_num [Finset.sum_range_succ, Nat.factorial])).2
    have w' := w.trans (show _ ≤ (157639138140575 / 10 ^ 15 : ℝ) by norm_num)
    have h := harmonic_le (hexW_pos (by norm_num)) (kmR_pos (by norm_num)) w' r
    have e : 12 * p2 * (1 / (1 / (157639138140575 / 10 ^ 15) + 1 / (41874813032271203 / 10 ^ 15)) : ℝ)
        ≤ 494720943126266629 / 10 ^ 18 - 10 * (379142317569 / 10 ^ 14 / (3398 / 3000)) := by rw [hp2]; norm_num
    have h' := mul_le_mul_of_nonneg_left h (show 0 ≤ 12 * p2 by rw [hp2]; norm_num)
    unfold hexF
    linarith
  have hhi : p ≤ 10 * (379142317572 / 10 ^ 14 / (3398 / 3000)) + 12 * p2 * hexF (379142317572 / 10 ^ 14) := by
    have w := le_hexW (τ := 379142317572 / 10 ^ 14) (l := 890382872963537 / 10 ^ 15) (c := 499098545253675 / 10 ^ 15) (by norm_num) (by norm_num)
      (by norm_num) (by norm_num) (by norm_num) (by norm_num) (by norm_num [Finset.sum_range_succ, Nat.factorial])
    have r := (kmR_between (x := (379142317572 / 10 ^ 14 - 1 / 8000) * 50) (l := 41874813032583390 / 10 ^ 15) (u := 250) (by rw [abs_of_pos] <;> norm_num)
      (by norm_num [Finset.sum_range_succ, Nat.factorial]) (by norm_num [Finset.sum_range_succ, Nat.factorial])).1
    have w' := (show (157639138221534 / 10 ^ 15 : ℝ) ≤ _ by norm_num).trans w
    have h := harmonic_le (by norm_num) (by norm_num) w' r
    have e : 494720943126266630 / 10 ^ 18 - 10 * (379142317572 / 10 ^ 14 / (3398 / 3000))
        ≤ 12 * p2 * (1 / (1 / (157639138221534 / 10 ^ 15) + 1 / (41874813032583390 / 10 ^ 15)) : ℝ) := by rw [hp2]; norm_num
    have h' := mul_le_mul_of_nonneg_left h (show 0 ≤ 12 * p2 by rw [hp2]; norm_num)
    unfold hexF
    linarith
  obtain ⟨τ, ⟨h1, h2⟩, h3⟩ := intermediate_value_Icc (by norm_num) hc ⟨hlo, hhi⟩
  exact ⟨τ, h1, h2, h3⟩

namespace KMBalD
variable {nV : ℕ} (k : KMBalD nV)

theorem mts_one (hp1 : k.pOne = true) (hq1 : k.qOne = true) (cE d : ℝ) {t : ℝ} (h1 : t ≤ 99 / 100) :
    (k.mtsDG cE d t).1 = -cE * (1 - t) := by
  rw [mtsDG_fst]
  have : k.pFunc t = t := by unfold pFunc; rw [if_pos hp1]
  rw [this]
  unfold qPow
  rw [if_neg (by rw [not_lt]; unfold idpTinySqrt; norm_num; linarith), if_pos hq1]

/-- the law of the HCP test, around the stress reached there -/
theorem hex_point (hp1 : k.pOne = true) (hq1 : k.qOne = true) (hw : k.wrD = 2 / 100) (hmu : k.muRef = 1)
    (hA : k.withGA = true) (ht : k.tauA = 4 / 1000) {xn tMin tMax τ : ℝ} (hx : xn + 1 = 400 / 3)
    (hmin : tMin ≤ 1 / 2) (hmax : 1 ≤ tMax) (h0 : 37 / 10 ^ 4 ≤ τ) (h1 : τ ≤ 38 / 10 ^ 4) :
    (k.evalGdotSel 40 250 (1 / 8000) (200 / 3) xn (400 / 3) tMin tMax τ).gdot = hexF τ := by
  have hτ : 0 < τ := by linarith
  have hI : (if k.withGA then 1 / k.tauA else 1 / (1 / 8000)) = (250 : ℝ) := by rw [hA, if_pos rfl, ht]; norm_num
  have hgA : (if k.withGA then 1 / 8000 else k.tauA) = (1 / 8000 : ℝ) := by rw [hA, if_pos rfl]
  have e1 := k.mts_one hp1 hq1 (200 / 3) 1 (t := (τ - 1 / 8000) * 250) (by linarith)
  have e2 := k.mts_one hp1 hq1 (200 / 3) 1 (t := (-τ - 1 / 8000) * 250) (by linarith)
  have hm : k.MainBranch true true 40 (200 / 3 * k.muRef) tMin tMax 250 (1 / 8000) |τ| := by
    rw [hmu, mul_one, abs_of_pos hτ]
    constructor
    · rw [hw, lt_div_iff₀ (by norm_num)]; unfold idpEpsSqrt; norm_num; linarith
    · linarith
    · linarith
    · simp only [if_true]; linarith
    · rw [e1]; unfold lnGamRatioMin; norm_num; linarith
    · simp only [if_true]
      refine ⟨by rw [e2]; unfold lnGamRatioMin; norm_num; linarith, ?_⟩
      unfold jump
      rw [e1, e2]
      have h3 := hexBack (τ := τ) (by linarith)
      have h4 := Real.add_one_le_exp (-(200 / 3) * (1 - (τ - 1 / 8000) * 250) + 8)
      have h5 : Real.exp (-(200 / 3) * (1 - (τ - 1 / 8000) * 250) + 8)
          = Real.exp (-(200 / 3) * (1 - (τ - 1 / 8000) * 250)) * Real.exp 1 ^ 8 := by
        rw [Real.exp_add, ← Real.exp_nat_mul]; norm_num
      have h6 : Real.exp 1 ^ 8 ≤ 3 ^ 8 :=
        pow_le_pow_left₀ (Real.exp_pos _).le (Real.exp_one_lt_d9.le.trans (by norm_num)) 8
      have h7 := Real.exp_pos (-(200 / 3) * (1 - (τ - 1 / 8000) * 250))
      rw [h5] at h4
      have h8 : 1 / 3 ^ 8 ≤ Real.exp (-(200 / 3) * (1 - (τ - 1 / 8000) * 250)) := by
        have := h4.trans (mul_le_mul_of_nonneg_left h6 h7.le)
        rw [div_le_iff₀ (by norm_num)]
        linarith
      rw [← mul_sub, mul_div_assoc, mul_comm, div_mul_cancel₀ _ (by norm_num), abs_of_pos]
      · unfold gamRatioMin; norm_num at h3 h8 ⊢; linarith
      · norm_num at h3 h8 ⊢; linarith
  have := k.sel_main (gamR := 250) (g := 1 / 8000) (ct := 200 / 3) hτ.ne' hx
    (by rw [hA, if_pos rfl, ht]; norm_num) (by rw [hI, hgA]; exact hm)
  rw [this]
  simp only [hI, hgA, hmu, mul_one, abs_of_pos hτ, wRate, jump, e1, e2, if_true]
  have hx0 : (τ - 1 / 8000) / k.wrD = (τ - 1 / 8000) * 50 := by rw [hw]; ring
  rw [hx0]
  have eW : 40 * Real.exp (-(200 / 3) * (1 - (τ - 1 / 8000) * 250))
      - 40 * Real.exp (-(200 / 3) * (1 - (-τ - 1 / 8000) * 250))
      + 40 * 10 * ((τ - 1 / 8000) * 250) ^ (400 / 3 : ℝ) = hexW τ := by unfold hexW; norm_num
  have eR : 250 * (1 - Real.exp (-((τ - 1 / 8000) * 50))) = kmR ((τ - 1 / 8000) * 50) := rfl
  rw [eW, eR]
  have p1 := one_div_pos.2 (hexW_pos (τ := τ) (by linarith))
  have p2 := one_div_pos.2 (kmR_pos (x := (τ - 1 / 8000) * 50) (by linarith))
  unfold copysign hexF
  rw [if_neg (not_lt.2 hτ.le), abs_of_pos (one_div_pos.2 (by linarith))]

end KMBalD

end Ecm
