/- Helper lemmas for C111: accepted points of two steps from the same state under different loading. -/
import Verif.Lemmas.UniqueStep
import Verif.Lemmas.Stability

namespace Ecm
open Spec Ecm.Props

theorem vecNorm_sub_le2 {k : ℕ} (a b : Vec k) : vecNorm (a - b) ≤ vecNorm a + vecNorm b := by
  have e : a - b = a + (-1 : ℝ) • b := by module
  rw [e]
  refine (vecNorm_add_le _ _).trans ?_
  rw [vecNorm_smul]; norm_num

theorem vecsVMTa_sub {m : ℕ} (A : Mat m m) (a b : Vec m) : vecsVMTa A (a - b) = vecsVMTa A a - vecsVMTa A b := by
  funext k
  simp only [vecsVMTa, Pi.sub_apply, mul_sub, sub_mul, Finset.sum_sub_distrib]

/-- a rotation preserves lengths -/
theorem vecNorm_rot3 {q : Vec 4} (hq : qn q = 1) (w : Vec 3) :
    vecNorm (vecsVMTa (quatToTensor q) w) = vecNorm w := by
  have hs : vecNorm (vecsVMTa (quatToTensor q) w) ^ 2 = vecNorm w ^ 2 := by
    rw [vecNorm_sq, vecNorm_sq]
    have h := (isRot_of_unit hq).1
    set R := quatToTensor q
    have e : ∀ i j, R i 0 * R j 0 + R i 1 * R j 1 + R i 2 * R j 2 = (1 : T3) i j := by
      intro i j
      have := congrFun (congrFun h i) j
      simpa [Matrix.mul_apply, Fin.sum_univ_three] using this
    have e00 := e 0 0; have e01 := e 0 1; have e02 := e 0 2
    have e11 := e 1 1; have e12 := e 1 2; have e22 := e 2 2
    simp only [Matrix.one_apply, Fin.isValue, Fin.reduceEq, if_true, if_false] at e00 e01 e02 e11 e12 e22
    simp only [vecsVMTa, Fin.sum_univ_three]
    linear_combination (w 0 ^ 2) * e00 + (w 1 ^ 2) * e11 + (w 2 ^ 2) * e22 + 2 * w 0 * w 1 * e01
      + 2 * w 0 * w 2 * e02 + 2 * w 1 * w 2 * e12
  exact (sq_eq_sq₀ (vecNorm_nonneg _) (vecNorm_nonneg _)).1 hs

namespace Updst
variable {n : ℕ} (P P₂ : Updst n)

/-- the problems of two steps from the same state, which may differ in loading and volume -/
structure Alike : Prop where
  geom : P₂.geom = P.geom
  el : P₂.el = P.el
  gd : P₂.gd = P.gd
  adotsRef : P₂.adotsRef = P.adotsRef
  dt : P₂.dt = P.dt
  eN : P₂.eN = P.eN
  cN : P₂.cN = P.cN
  const : ∀ i : Fin 5, P₂.tConst i.castSucc = P.tConst i.castSucc

/-- the point of the first problem with the stress and the rotation of a point of the second -/
noncomputable def carry (y : Vec 8) : Vec 8 :=
  block8 (fun i => (P.aV * P₂.aVri * P₂.eF y i - P.eN i) / eScale) fun i => y (iR i)

theorem carry_eF (y : Vec 8) : P.eF (P.carry P₂ y) = (P.aV * P₂.aVri) • P₂.eF y := by
  funext i
  have : eScale ≠ 0 := by unfold eScale; norm_num
  rw [Pi.smul_apply, smul_eq_mul]
  show eScale * P.carry P₂ y (iE i) + P.eN i = _
  unfold carry
  rw [block8_iE]
  field_simp
  ring

theorem carry_xiF (y : Vec 8) : xiF (P.carry P₂ y) = xiF y := by
  funext i
  simp only [xiF, vecsVxa, carry, block8_iR]

variable {P P₂}

theorem carry_cMatx (h : Alike P P₂) (y : Vec 8) : P.cMatx (P.carry P₂ y) = P₂.cMatx y := by
  unfold cMatx cQuat
  rw [carry_xiF, h.cN]

theorem carry_taua (h : Alike P P₂) (hv : 0 < P.detV) (y : Vec 8) : P.taua (P.carry P₂ y) = P₂.taua y := by
  have ha := P.aV_pos hv
  unfold taua
  rw [h.geom]
  congr 1
  funext i
  rw [P.elastNEtoT_castSucc, P₂.elastNEtoT_castSucc, h.const, h.el, carry_eF]
  simp only [Pi.smul_apply, smul_eq_mul]
  congr 2
  unfold aVri
  field_simp

theorem carry_gdot (h : Alike P P₂) (hv : 0 < P.detV) (y : Vec 8) : P.gdot (P.carry P₂ y) = P₂.gdot y := by
  unfold gdot
  rw [carry_taua h hv, h.gd]

theorem carry_strain (h : Alike P P₂) (hdt : 0 < P.dt) (hv : 0 < P.detV) (hv₂ : 0 < P₂.detV) (y : Vec 8) :
    P.eF (P.carry P₂ y) = P.eN + (P.dt * P.aV) • (vecsVMTa (P.qr5x5 (P.carry P₂ y)) P₂.dSm + P₂.residE y
      + ((P₂.aVri - P.aVri) / P.dt) • P.eN - vecsVMa P.geom.P (P.gdot (P.carry P₂ y))) := by
  have ha := P.aV_pos hv
  have ha₂ := P₂.aV_pos hv₂
  rw [carry_eF, P₂.strain_form (by rw [h.dt]; exact hdt) hv₂ y, carry_gdot h hv, h.eN, h.dt, h.geom]
  have hq : P.qr5x5 (P.carry P₂ y) = P₂.qr5x5 y := by unfold qr5x5; rw [carry_cMatx h]
  rw [hq]
  funext i
  simp only [Pi.add_apply, Pi.sub_apply, Pi.smul_apply, smul_eq_mul, aVri]
  field_simp
  ring

theorem spin_lin (Q : Updst n) (hdt : 0 < Q.dt) (z : Vec 8) : Q.eeFac • vecsVMa (m35 (Q.eF z)) (Q.edot z)
    = (Q.aVri / (2 * Q.dt)) • vecsVMa (m35 Q.eN) (Q.aVri • Q.eF z) := by
  have h1 : vecsVMa (m35 (Q.eF z)) (Q.edot z) = (1 / Q.dt) • vecsVMa (m35 Q.eN) (Q.eF z) := by
    rw [Q.edot_eq, slipSum_smul]
    congr 1
    have h := m35_self Q.eN (Q.eF z - Q.eN) 1
    rw [one_smul, add_sub_cancel] at h
    rw [h, vecsVMa_sub]
    have h0 : vecsVMa (m35 Q.eN) Q.eN = 0 := by
      have := m35_self 0 Q.eN 1
      rw [zero_add, one_smul] at this
      rw [this]
      funext i
      fin_cases i <;> simp [vecsVMa, m35, Fin.sum_univ_five]
    rw [h0, sub_zero]
  rw [h1, slipSum_smul, smul_smul, smul_smul]
  congr 1
  unfold eeFac
  field_simp

theorem carry_spin (h : Alike P P₂) (hdt : 0 < P.dt) (hv : 0 < P.detV) (y : Vec 8) :
    xiF (P.carry P₂ y) = P.dt • (vecsVMTa (P.cMatx (P.carry P₂ y)) P₂.wSm + (1 / P.dt) • P₂.residR y
      + ((P₂.aVri - P.aVri) / (2 * P.dt)) • vecsVMa (m35 P.eN) (P₂.aVri • P₂.eF y)
      - vecsVMa P.geom.Q (P.gdot (P.carry P₂ y))
      + P.eeFac • vecsVMa (m35 (P.eF (P.carry P₂ y))) (P.edot (P.carry P₂ y))) := by
  have hdt₂ : 0 < P₂.dt := by rw [h.dt]; exact hdt
  have ha := P.aV_pos hv
  rw [carry_xiF, P₂.spin_form hdt₂ y, carry_gdot h hv, carry_cMatx h, P.spin_lin hdt, P₂.spin_lin hdt₂, carry_eF,
    h.dt, h.geom, h.eN]
  have e : P.aVri • (P.aV * P₂.aVri) • P₂.eF y = P₂.aVri • P₂.eF y := by
    rw [smul_smul]
    congr 1
    unfold aVri
    field_simp
  rw [e]
  module

/-- **Accepted points of two steps from the same state.** -/
theorem agree_load {κ₀ κ K ε θ : ℝ} (h : Alike P P₂) (hκ₀ : 0 < κ₀) (h0 : ∀ k, κ₀ ≤ P.el.kDiag k)
    (h1 : ∀ k, P.el.kDiag k ≤ κ)
    (hdt : 0 < P.dt) (hv : 0 < P.detV) (hv₂ : 0 < P₂.detV) (hcn : qn P.cN = 1) (hSB : SlipBound P.geom.P K)
    (hK : 0 ≤ K)
    (hP : ∀ i, vecNorm (fun k => P.geom.P k i) ≤ 1) (hQ : ∀ i, vecNorm (fun k => P.geom.Q k i) ≤ 1 / 2)
    (hε : 0 ≤ ε) {x y : Vec 8}
    (hx : vecNorm (P.residE x) ≤ θ) (hy : vecNorm (P₂.residE y) ≤ θ)
    (hxr : vecNorm ((1 / P.dt) • P.residR x) ≤ 2 * θ) (hyr : vecNorm ((1 / P.dt) • P₂.residR y) ≤ 2 * θ)
    (hm1 : ∀ i, P.taua x i ≤ P₂.taua y i → P.gdot x i ≤ P₂.gdot y i + ε)
    (hm2 : ∀ i, P₂.taua y i ≤ P.taua x i → P₂.gdot y i ≤ P.gdot x i + ε) (b : ℝ)
    (hb : b = K * (1 + Real.sqrt (κ / κ₀)) / 2 + Real.sqrt (κ / κ₀) * vecNorm P.eN / P.aV)
    (hsmall : P.dt * (3 / 2 * vecNorm P.wSm + 3 * b * vecNorm P.dSm) ≤ 1 / 2)
    (ρ σ δ φ : ℝ)
    (hρ : vecNorm (P.dSm - P₂.dSm) + |P.aVri - P₂.aVri| * vecNorm P.eN / P.dt + 2 * θ ≤ ρ)
    (hσ : vecNorm (P.wSm - P₂.wSm) + |P.aVri - P₂.aVri| * vecNorm P.eN * vecNorm (P₂.aVri • P₂.eF y) / P.dt
      + 4 * θ ≤ σ)
    (hδ : δ = 8 / 10 ^ 90 + 2 * P.dt * (σ + b * (ρ + n * ε) + n * ε))
    (hφ : φ = 3 * vecNorm P.dSm * (δ + 8 / 10 ^ 90) + ρ + n * ε) :
    vecNorm (xiF x - xiF y) ≤ δ ∧
      vecNorm (P.aVri • P.eF x - P₂.aVri • P₂.eF y) ≤ P.dt * (Real.sqrt (κ / κ₀) * φ) ∧
      ∑ i, |P.gdot x i - P₂.gdot y i| ≤ K * ((1 + Real.sqrt (κ / κ₀)) * φ) + n * ε := by
  set z := P.carry P₂ y with hz
  have hτ : P.taua z = P₂.taua y := carry_taua h hv y
  have hγ : P.gdot z = P₂.gdot y := carry_gdot h hv y
  have hξ : xiF z = xiF y := carry_xiF P P₂ y
  have haV := P.aV_pos hv
  rw [← hτ, ← hγ] at hm1 hm2
  rw [← hξ, ← hγ]
  have hgd : ∀ i, P.taua x i = P.taua z i → P.gdot x i = P.gdot z i := fun i h => by
    simp only [gdot, h]
  obtain ⟨g, hg, hge⟩ := exists_follows (d := P.gdot x - P.gdot z) (t := P.taua x - P.taua z) hε (fun i => by
    simp only [Pi.sub_apply]
    refine ⟨fun h => ?_, fun h => ?_, fun h => ?_⟩
    · rw [hgd i (by linarith), sub_self]
    · have := hm2 i (by linarith); linarith
    · have := hm1 i (by linarith); linarith)
  simp only [Pi.sub_apply] at hge
  have ex := P.strain_form hdt hv x
  have ey := carry_strain h hdt hv hv₂ y
  have sx := P.spin_form hdt x
  have sy := carry_spin h hdt hv y
  rw [← hz] at ey sy
  have hqz := P.qn_cQuat hcn z
  have hF : vecNorm (vecsVMTa (P.qr5x5 x) P.dSm + P.residE x
      - (vecsVMTa (P.qr5x5 z) P₂.dSm + P₂.residE y + ((P₂.aVri - P.aVri) / P.dt) • P.eN))
      ≤ 3 * vecNorm P.dSm * (vecNorm (xiF x - xiF z) + 8 / 10 ^ 90) + ρ := by
    have e : vecsVMTa (P.qr5x5 x) P.dSm + P.residE x
        - (vecsVMTa (P.qr5x5 z) P₂.dSm + P₂.residE y + ((P₂.aVri - P.aVri) / P.dt) • P.eN)
        = (vecsVMTa (P.qr5x5 x) P.dSm - vecsVMTa (P.qr5x5 z) P.dSm)
          + (vecsVMTa (P.qr5x5 z) (P.dSm - P₂.dSm) + ((P.residE x - P₂.residE y)
            + ((P.aVri - P₂.aVri) / P.dt) • P.eN)) := by
      rw [vecsVMTa_sub]
      module
    rw [e]
    have t1 := P.rate_lip hcn x z P.dSm
    have t2 : vecNorm (vecsVMTa (P.qr5x5 z) (P.dSm - P₂.dSm)) = vecNorm (P.dSm - P₂.dSm) :=
      vecNorm_vecsVMTa_rot (isRot_of_unit hqz).1 _
    have t3 := vecNorm_sub_le2 (P.residE x) (P₂.residE y)
    have t4 : vecNorm (((P.aVri - P₂.aVri) / P.dt) • P.eN) = |P.aVri - P₂.aVri| * vecNorm P.eN / P.dt := by
      rw [vecNorm_smul, abs_div, abs_of_pos hdt]; ring
    have u1 := vecNorm_add_le (vecsVMTa (P.qr5x5 x) P.dSm - vecsVMTa (P.qr5x5 z) P.dSm)
      (vecsVMTa (P.qr5x5 z) (P.dSm - P₂.dSm) + ((P.residE x - P₂.residE y)
            + ((P.aVri - P₂.aVri) / P.dt) • P.eN))
    have u2 := vecNorm_add_le (vecsVMTa (P.qr5x5 z) (P.dSm - P₂.dSm)) ((P.residE x - P₂.residE y)
            + ((P.aVri - P₂.aVri) / P.dt) • P.eN)
    have u3 := vecNorm_add_le (P.residE x - P₂.residE y) (((P.aVri - P₂.aVri) / P.dt) • P.eN)
    linarith
  have hW : vecNorm (vecsVMTa (P.cMatx x) P.wSm + (1 / P.dt) • P.residR x
      - (vecsVMTa (P.cMatx z) P₂.wSm + (1 / P.dt) • P₂.residR y
        + ((P₂.aVri - P.aVri) / (2 * P.dt)) • vecsVMa (m35 P.eN) (P₂.aVri • P₂.eF y)))
      ≤ 3 / 2 * vecNorm P.wSm * (vecNorm (xiF x - xiF z) + 8 / 10 ^ 90) + σ := by
    set E₂ := P₂.aVri • P₂.eF y with hE₂
    have e : vecsVMTa (P.cMatx x) P.wSm + (1 / P.dt) • P.residR x
        - (vecsVMTa (P.cMatx z) P₂.wSm + (1 / P.dt) • P₂.residR y
          + ((P₂.aVri - P.aVri) / (2 * P.dt)) • vecsVMa (m35 P.eN) E₂)
        = (vecsVMTa (P.cMatx x) P.wSm - vecsVMTa (P.cMatx z) P.wSm)
          + (vecsVMTa (P.cMatx z) (P.wSm - P₂.wSm) + (((1 / P.dt) • P.residR x - (1 / P.dt) • P₂.residR y)
            + ((P.aVri - P₂.aVri) / (2 * P.dt)) • vecsVMa (m35 P.eN) E₂)) := by
      rw [vecsVMTa_sub]
      module
    rw [e]
    have t1 := P.spin_lip hcn x z P.wSm
    have t2 : vecNorm (vecsVMTa (P.cMatx z) (P.wSm - P₂.wSm)) = vecNorm (P.wSm - P₂.wSm) := vecNorm_rot3 hqz _
    have t3 := vecNorm_sub_le2 ((1 / P.dt) • P.residR x) ((1 / P.dt) • P₂.residR y)
    have t4 : vecNorm (((P.aVri - P₂.aVri) / (2 * P.dt)) • vecsVMa (m35 P.eN) E₂)
        ≤ |P.aVri - P₂.aVri| * vecNorm P.eN * vecNorm E₂ / P.dt := by
      rw [vecNorm_smul, abs_div, abs_of_pos (by positivity : 0 < 2 * P.dt)]
      refine (mul_le_mul_of_nonneg_left (m35_le P.eN E₂) (by positivity)).trans (le_of_eq ?_)
      field_simp
    have u1 := vecNorm_add_le (vecsVMTa (P.cMatx x) P.wSm - vecsVMTa (P.cMatx z) P.wSm)
      (vecsVMTa (P.cMatx z) (P.wSm - P₂.wSm) + (((1 / P.dt) • P.residR x - (1 / P.dt) • P₂.residR y)
            + ((P.aVri - P₂.aVri) / (2 * P.dt)) • vecsVMa (m35 P.eN) E₂))
    have u2 := vecNorm_add_le (vecsVMTa (P.cMatx z) (P.wSm - P₂.wSm))
      (((1 / P.dt) • P.residR x - (1 / P.dt) • P₂.residR y)
            + ((P.aVri - P₂.aVri) / (2 * P.dt)) • vecsVMa (m35 P.eN) E₂)
    have u3 := vecNorm_add_le ((1 / P.dt) • P.residR x - (1 / P.dt) • P₂.residR y)
      (((P.aVri - P₂.aVri) / (2 * P.dt)) • vecsVMa (m35 P.eN) E₂)
    linarith
  have hd := P.pair_bound hκ₀ h0 h1 hdt hv hSB hK hP hQ ex ey hg hge sx sy hF hW (by positivity) b hb hsmall
  rw [← hδ] at hd
  obtain ⟨b1, b2⟩ := P.pair_strain hκ₀ h0 h1 hdt hv hSB hK hP ex ey hg hge
  have hle : vecNorm (vecsVMTa (P.qr5x5 x) P.dSm + P.residE x
      - (vecsVMTa (P.qr5x5 z) P₂.dSm + P₂.residE y + ((P₂.aVri - P.aVri) / P.dt) • P.eN)) + n * ε ≤ φ := by
    rw [hφ]
    have := mul_le_mul_of_nonneg_left (add_le_add_left hd (8 / 10 ^ 90))
      (mul_nonneg (by norm_num : (0 : ℝ) ≤ 3) (vecNorm_nonneg P.dSm))
    linarith
  refine ⟨hd, ?_, ?_⟩
  · have e : P.aVri • P.eF x - P₂.aVri • P₂.eF y = P.aVri • (P.eF x - P.eF z) := by
      rw [hz, carry_eF, smul_sub, smul_smul]
      congr 2
      unfold aVri
      field_simp
    rw [e, vecNorm_smul, abs_of_pos (by unfold aVri; positivity)]
    have h3 := b1.trans (mul_le_mul_of_nonneg_left (mul_le_mul_of_nonneg_left hle (Real.sqrt_nonneg _))
      (mul_pos hdt haV).le)
    refine (mul_le_mul_of_nonneg_left h3 (by unfold aVri; positivity)).trans (le_of_eq ?_)
    unfold aVri
    field_simp
  · have h2 : ∑ i, |g i| ≤ K * ((1 + Real.sqrt (κ / κ₀)) * φ) :=
      b2.trans (mul_le_mul_of_nonneg_left (mul_le_mul_of_nonneg_left hle (by positivity)) hK)
    have h3 : ∑ i, |P.gdot x i - P.gdot z i| ≤ ∑ i, (|g i| + ε) := Finset.sum_le_sum fun i _ => by
      have := hge i
      have h4 := abs_add_le (P.gdot x i - P.gdot z i - g i) (g i)
      rw [sub_add_cancel] at h4
      linarith
    rw [Finset.sum_add_distrib] at h3
    simp only [Finset.sum_const, Finset.card_univ, Fintype.card_fin, nsmul_eq_mul] at h3
    linarith

end Updst
end Ecm
