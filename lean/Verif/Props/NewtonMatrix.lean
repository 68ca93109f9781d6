/- Property theorems C80: in short steps the Newton matrix is invertible, the tangent can be computed, and it is the
   derivative of the updated stress (src/ecmech/ECMech_evptn.h, computeRJ and getResponseSngl). -/
import Verif.Lemmas.NewtonMatrix
import Verif.Lemmas.KMSlope
import Verif.Lemmas.Axisym
import Verif.Props.UniqueStep
import Verif.Props.Implicit
import Verif.Props.TestValues

namespace Ecm.Props
open Ecm Spec Matrix

variable {n nH : ℕ}

/-- the linear solver finds the solution of every system that has exactly one -/
def LupComplete (L : LUP) : Prop := ∀ A B, A.det ≠ 0 → ∃ X, L A B = some X

/-- **C80, the Newton matrix.** If the slopes reported by the slip laws are not negative and the step is short on the
    scale of the imposed rate and spin, then the matrix of the Newton step is invertible, before and after scaling, at
    every trial point.  How short the step has to be does not depend on the slip laws or on the trial point. -/
theorem C80_jacobian (P : Updst n) (m s : Fin n → V3) (hgeom : P.geom = slipPQ m s)
    (hsys : ∀ i, IsSlipSystem (m i) (s i)) (K : ℝ) (hK : 0 ≤ K) (hSC : SlipControl m s K)
    (hcn : dot P.cN P.cN = 1) (hdt : 0 < P.dt) (hv : 0 < P.detV) (κ₀ κ : ℝ) (hκ₀ : 0 < κ₀)
    (hst : ∀ E, IsDev E → κ₀ * ddot E E ≤ ddot E (refStress P.el E))
    (hst' : ∀ E, IsDev E → ddot E (refStress P.el E) ≤ κ * ddot E E)
    (hsmall : P.dt * (3 / 2 * len P.wSm
      + 3 * spinGain K (κ / κ₀) (len P.eN) (P.detV ^ (1 / 3 : ℝ)) * len P.dSm) ≤ 1 / 2)
    (x : Vec 8) (hx : ∀ i, 0 ≤ (P.gd i (P.taua x i)).dtau) :
    (P.jacU x).det ≠ 0 ∧ (0 < P.adotsRef → (P.jac x).det ≠ 0) := by
  rw [dot_self_quat] at hcn
  have hcol := fun i => slip_columns hsys i
  have h := P.jacU_det hκ₀ (le_kDiag hst) (kDiag_le hst') hdt hv hcn
    (by rw [hgeom]; exact (slipControl_iff (fun i => (hsys i).2.2) K).1 hSC) hK
    (by rw [hgeom]; exact fun i => (hcol i).1) (by rw [hgeom]; exact fun i => (hcol i).2) x hx
    (spinGain K (κ / κ₀) (len P.eN) (P.detV ^ (1 / 3 : ℝ))) rfl hsmall
  exact ⟨h, fun ha => P.jac_det hdt ha x h⟩

/-- At temperature `T` and hardening state `h` no slope reported by the kinetics is negative. -/
def SlopesUp (K : Kin n nH) (T : ℝ) (h : Vec nH) : Prop :=
  ∀ p v sc, K.getVals p T h = .ok (v, sc) → ∀ i τ, 0 ≤ (K.evalGdot v i τ).dtau

/-- C80 the power-law kinetics report no negative slope. -/
theorem C80_voce (k : Voce) (hm : 0 < k.xm) (hw : 0 < k.gamW) (S : Solver 1) (T : ℝ) (h : Vec 1) :
    SlopesUp (k.kin S n) T h := by
  intro p v sc hv i τ
  simp only [Voce.kin] at hv
  split_ifs at hv with hp
  cases hv
  show 0 ≤ (k.evalGdot (h 0) τ).dtau
  rcases le_or_gt (|τ| / h 0) k.tMin with h1 | h1
  · rw [k.evalGdot_low hp h1]
  · rcases le_or_gt (|τ| / h 0) k.tMax with h2 | h2
    · rw [k.evalGdot_mid hp h1 h2]
      have := k.xnn_pos hm
      positivity
    · rw [k.evalGdot_high hm hp h2]

/-- C80 the dislocation kinetics report no negative slope, if the barrier is so strong (the material so cold) that
    there are no jumps against the stress, or if the barrier falls linearly with the stress. -/
theorem C80_kmbald {nV : ℕ} [NeZero nV] (k : KMBalD nV) (S : Solver 1) (T : ℝ) (hT : 0 < T)
    (hw : 0 < k.gamWo) (hr : 0 < k.gamRo) (hD : 0 < k.wrD) (hp : 0 < k.p) (hq : 0 < k.q) (hA : 0 ≤ k.tauA)
    (hc : ∀ j, 0 ≤ k.c1 j * k.muRef) (hgo : ∀ j, 0 ≤ k.go j) (hs : ∀ j, 0 ≤ k.s j)
    (hcase : ∀ j, (13816 / 100 ≤ k.c1 j * k.muRef / T ∧ 0 ≤ k.xnn j) ∨
      (k.pOne = true ∧ k.qOne = true ∧ 1 ≤ k.xnn j ∧ k.xnn j ≤ 10 ^ 80)) (h : Vec 1) :
    SlopesUp (k.kin S n) T h := by
  intro p v sc hv i τ
  simp only [KMBalD.kin, KMBalD.getVals] at hv
  split_ifs at hv with h1 h2 h3 h4
  cases hv
  have h0 : 0 < h 0 := not_le.1 h1
  have hsq : 0 < Real.sqrt (h 0) := Real.sqrt_pos.2 h0
  show 0 ≤ (k.evalGdotSel _ _ (k.go (k.iVal i) + k.s (k.iVal i) * Real.sqrt (h 0)) (k.c1 (k.iVal i) / T)
    (k.xn (k.iVal i)) (k.xnn (k.iVal i)) (k.tMin (k.iVal i)) (k.tMax (k.iVal i)) τ).dtau
  generalize k.iVal i = j
  have hgI : 0 < (if k.withGA then 1 / k.tauA else 1 / (k.go j + k.s j * Real.sqrt (h 0))) := by
    split_ifs with hg
    · exact one_div_pos.2 (not_le.1 fun h => h4 ⟨hg, h⟩)
    · have hg' : k.withGA = false := by simpa using hg
      exact one_div_pos.2 (not_le.1 fun h => h3 ⟨hg', _, h⟩)
  have hAth : 0 ≤ (if k.withGA then k.go j + k.s j * Real.sqrt (h 0) else k.tauA) := by
    split_ifs
    · have := hgo j; have := hs j; positivity
    · exact hA
  have hcE : k.c1 j / T * k.muRef = k.c1 j * k.muRef / T := by ring
  have hcE0 : 0 ≤ k.c1 j / T * k.muRef := by rw [hcE]; exact div_nonneg (hc j) hT.le
  refine k.sel_slope (by positivity) hD fun gw dgw dgwg hth hpos => ?_
  generalize (if k.withGA then 1 / k.tauA else 1 / (k.go j + k.s j * Real.sqrt (h 0))) = gI at *
  generalize (if k.withGA then k.go j + k.s j * Real.sqrt (h 0) else k.tauA) = gAth at *
  have hW : 0 < k.gamWo / Real.sqrt (h 0) := by positivity
  generalize k.gamWo / Real.sqrt (h 0) = gamW at *
  rw [max_eq_right hpos.le]
  set t := (|τ| - gAth) * gI with ht
  have htp : 0 < t := mul_pos hpos hgI
  have hxnn : 0 ≤ k.xnn j := by
    rcases hcase j with ⟨-, h⟩ | ⟨-, -, h, -⟩ <;> linarith
  have hpl : 0 ≤ gamW * 10 * Real.exp (k.xn j * Real.log t) * k.xnn j * gI := by positivity
  rcases hcase j with ⟨hcold, -⟩ | ⟨hp1, hq1, hx1, hx2⟩
  · have hd := k.thermal_slope_cold hW.le hcE0 hgI.le hp.le hq.le
      (k.no_back hp hq (by rw [hcE]; exact hcold) (by
        have := abs_nonneg τ
        exact mul_nonpos_of_nonpos_of_nonneg (by linarith) hgI.le)) hth
    split_ifs <;> linarith
  · rcases k.thermal_slope_linear hp1 hq1 hW hcE0 hgI hAth hpos hth with hd | ⟨hlarge, hd⟩
    · split_ifs <;> linarith
    · have hb : 1 / 2 ≤ (1 - 1 / 10 ^ 90 : ℝ) ^ k.xnn j := by
        have := one_add_mul_self_le_rpow_one_add (s := -(1 / 10 ^ 90 : ℝ)) (by norm_num) hx1
        have e : (1 : ℝ) + -(1 / 10 ^ 90) = 1 - 1 / 10 ^ 90 := by ring
        rw [e] at this
        refine le_trans ?_ this
        have : k.xnn j * (1 / 10 ^ 90) ≤ 10 ^ 80 * (1 / 10 ^ 90) := mul_le_mul_of_nonneg_right hx2 (by norm_num)
        norm_num at this ⊢
        linarith
      have hxnn0 : 0 < k.xnn j := by linarith
      have hmin : k.tMin j < 1 - 1 / 10 ^ 90 := by
        have hb0 : (0 : ℝ) ≤ 1 - 1 / 10 ^ 90 := by norm_num
        refine KMBalD.lt_of_pow_lt (hx := hxnn0) hb0 (lt_of_lt_of_le ?_ hb)
        unfold KMBalD.tMin
        have hxm : k.xm j * k.xnn j = 1 := by
          unfold KMBalD.xnn at hxnn0 ⊢
          have : k.xm j ≠ 0 := by
            intro h0
            rw [h0] at hxnn0
            simp at hxnn0
          field_simp
        rw [← Real.rpow_mul gamRatioMin_pos.le, hxm, Real.rpow_one]
        unfold gamRatioMin; norm_num
      rw [if_pos (hmin.trans hlarge)]
      have hexp : 1 / 2 ≤ Real.exp (k.xn j * Real.log t) := by
        have e : Real.exp (k.xn j * Real.log t) = t ^ k.xn j := by rw [Real.rpow_def_of_pos htp, mul_comm]
        have hxn : k.xn j = k.xnn j - 1 := rfl
        rw [e]
        rcases le_or_gt 1 t with h5 | h5
        · exact le_trans (by norm_num) (Real.one_le_rpow h5 (by rw [hxn]; linarith))
        · refine hb.trans ((Real.rpow_le_rpow (by norm_num) hlarge.le hxnn0.le).trans ?_)
          exact Real.rpow_le_rpow_of_exponent_ge htp h5.le (by rw [hxn]; linarith)
      have h6 : (1 : ℝ) ≤ 10 * Real.exp (k.xn j * Real.log t) * k.xnn j := by nlinarith
      have h7 := mul_le_mul_of_nonneg_left h6 (mul_pos hW hgI).le
      linarith

/-- C80 the dislocation kinetics report no negative slope, curved barriers: shape exponents in the usual ranges
    `0 < p ≤ 1`, `1 ≤ q ≤ 2`, an activation energy of at least three times the thermal energy, a temperature between a
    tenth and twenty times the reference temperature, and a drag stress that is not negligible against the barrier.
    (The reported slope is not that of the rate when jumps against the stress are counted, C30, but it keeps its
    sign.) -/
theorem C80_kmbald_curved {nV : ℕ} [NeZero nV] (k : KMBalD nV) (S : Solver 1) (T : ℝ)
    (hw : 0 < k.gamWo) (hr : 0 < k.gamRo) (hD : 0 < k.wrD) (hp : 0 < k.p) (hp1 : k.p ≤ 1) (hq1 : 1 ≤ k.q)
    (hq2 : k.q ≤ 2) (hpf : k.pOne = true → k.p = 1) (hqf : k.qOne = true → k.q = 1) (hA : 0 ≤ k.tauA)
    (hR : 0 < k.tKRef) (hT1 : k.tKRef / 10 ≤ T) (hT2 : T ≤ 20 * k.tKRef)
    (hc : ∀ j, 3 * T ≤ k.c1 j * k.muRef) (hgo : ∀ j, 0 ≤ k.go j) (hs : ∀ j, 0 ≤ k.s j) (h : Vec 1)
    (hdrag : ∀ j, (if k.withGA then k.tauA else k.go j + k.s j * Real.sqrt (h 0)) ≤ 10 ^ 30 * k.wrD) :
    SlopesUp (k.kin S n) T h := by
  have hT : 0 < T := by linarith
  intro p v sc hv i τ
  simp only [KMBalD.kin, KMBalD.getVals] at hv
  split_ifs at hv with h1 h2 h3 h4
  cases hv
  have h0 : 0 < h 0 := not_le.1 h1
  have hsq : 0 < Real.sqrt (h 0) := Real.sqrt_pos.2 h0
  show 0 ≤ (k.evalGdotSel _ _ (k.go (k.iVal i) + k.s (k.iVal i) * Real.sqrt (h 0)) (k.c1 (k.iVal i) / T)
    (k.xn (k.iVal i)) (k.xnn (k.iVal i)) (k.tMin (k.iVal i)) (k.tMax (k.iVal i)) τ).dtau
  generalize k.iVal i = j
  have hgI : 0 < (if k.withGA then 1 / k.tauA else 1 / (k.go j + k.s j * Real.sqrt (h 0))) ∧
      (if k.withGA then 1 / k.tauA else 1 / (k.go j + k.s j * Real.sqrt (h 0))) =
        1 / (if k.withGA then k.tauA else k.go j + k.s j * Real.sqrt (h 0)) := by
    split_ifs with hg
    · exact ⟨one_div_pos.2 (not_le.1 fun h => h4 ⟨hg, h⟩), rfl⟩
    · have hg' : k.withGA = false := by simpa using hg
      exact ⟨one_div_pos.2 (not_le.1 fun h => h3 ⟨hg', _, h⟩), rfl⟩
  have hAth : 0 ≤ (if k.withGA then k.go j + k.s j * Real.sqrt (h 0) else k.tauA) := by
    split_ifs
    · have := hgo j; have := hs j; positivity
    · exact hA
  have hdr : 1 / 10 ^ 30 ≤ k.wrD * (if k.withGA then 1 / k.tauA else 1 / (k.go j + k.s j * Real.sqrt (h 0))) := by
    have := hdrag j
    obtain ⟨a1, a2⟩ := hgI
    rw [a2] at a1 ⊢
    have a3 := one_div_pos.1 a1
    rw [mul_one_div, le_div_iff₀ a3, one_div, inv_mul_le_iff₀ (by norm_num)]
    exact this
  have hcE : 3 ≤ k.c1 j / T * k.muRef := by
    have e : k.c1 j / T * k.muRef = k.c1 j * k.muRef / T := by ring
    rw [e, le_div_iff₀ hT]; exact hc j
  have hc0 : k.c1 j / T * k.muRef ≤ 10 * (k.c1 j / k.tKRef * k.muRef) ∧
      k.c1 j / k.tKRef * k.muRef ≤ 20 * (k.c1 j / T * k.muRef) := by
    have hm : 0 < k.c1 j * k.muRef := by have := hc j; linarith
    have e1 : k.c1 j / T * k.muRef = k.c1 j * k.muRef / T := by ring
    have e2 : k.c1 j / k.tKRef * k.muRef = k.c1 j * k.muRef / k.tKRef := by ring
    rw [e1, e2, ← mul_div_assoc, ← mul_div_assoc, div_le_div_iff₀ hT hR, div_le_div_iff₀ hR hT]
    exact ⟨by nlinarith, by nlinarith⟩
  have hxnn : k.xnn j = k.p * (2 * (k.c1 j / k.tKRef * k.muRef) * k.q) := by
    unfold KMBalD.xnn KMBalD.xm
    rw [one_div_one_div]; ring
  have hxnn0 : 0 < k.xnn j := by
    have : 0 < k.c1 j / k.tKRef * k.muRef := by linarith [hc0.1]
    rw [hxnn]; positivity
  refine k.sel_slope_drag (by positivity) hD fun gw dgw dgwg hth hpos => ?_
  have hgI := hgI.1
  generalize (if k.withGA then 1 / k.tauA else 1 / (k.go j + k.s j * Real.sqrt (h 0))) = gI at *
  generalize (if k.withGA then k.go j + k.s j * Real.sqrt (h 0) else k.tauA) = gAth at *
  have hW : 0 < k.gamWo / Real.sqrt (h 0) := by positivity
  generalize k.gamWo / Real.sqrt (h 0) = gamW at *
  have hpos0 : 0 < |τ| - gAth := by
    have := gamRatioMin_pos.trans_le hpos
    rwa [lt_div_iff₀ hD, zero_mul] at this
  rw [max_eq_right hpos0.le]
  have htt : idpTinySqrt ≤ (|τ| - gAth) * gI := by
    rw [le_div_iff₀ hD] at hpos
    have h5 := mul_le_mul_of_nonneg_right hpos hgI.le
    have h6 : 1 / 10 ^ 60 * (1 / 10 ^ 30) ≤ gamRatioMin * k.wrD * gI := by
      rw [mul_assoc]
      exact mul_le_mul (by unfold gamRatioMin; norm_num) hdr (by norm_num) gamRatioMin_pos.le
    refine le_trans ?_ (h6.trans h5)
    unfold idpTinySqrt; norm_num
  set t := (|τ| - gAth) * gI with ht
  have htp : 0 < t := mul_pos hpos0 hgI
  have hpl : 0 ≤ gamW * 10 * Real.exp (k.xn j * Real.log t) * k.xnn j * gI := by positivity
  by_cases hcold : 13816 / 100 ≤ k.c1 j / T * k.muRef
  · have hd := k.thermal_slope_cold hW.le (by linarith) hgI.le hp.le (by linarith)
      (k.no_back hp (by linarith) hcold (by
        have := abs_nonneg τ
        exact mul_nonpos_of_nonpos_of_nonneg (by linarith) hgI.le)) hth
    split_ifs <;> linarith
  · rcases k.thermal_slope_curved hpf hqf hp hp1 hq1 hq2 hW hcE hgI hAth htt hth with hd | ⟨hlarge, z, hz, hd⟩
    · split_ifs <;> linarith
    · rw [← ht] at hlarge hz hd
      have hwin := KMBalD.power_wins hcE hc0.1 hc0.2 hq1 hq2 hlarge hz
      set c0 := k.c1 j / k.tKRef * k.muRef with hc0d
      have hc0p : 0 < c0 := by linarith [hc0.1]
      have hpw : (t ^ k.p) ^ (2 * c0 * k.q) = t ^ k.xnn j := by
        rw [hxnn, Real.rpow_mul htp.le]
      have hmin : k.tMin j < t := by
        refine KMBalD.lt_of_pow_lt (e := k.xnn j) hxnn0 htp.le ?_
        have hxm : k.xm j * k.xnn j = 1 := by
          unfold KMBalD.xnn at hxnn0 ⊢
          have : k.xm j ≠ 0 := by
            intro h0
            rw [h0] at hxnn0
            simp at hxnn0
          field_simp
        unfold KMBalD.tMin
        rw [← Real.rpow_mul gamRatioMin_pos.le, hxm, Real.rpow_one, ← hpw]
        have hy0 : 0 < t ^ k.p := Real.rpow_pos_of_pos htp _
        generalize t ^ k.p = y at *
        have hlog : -(1 / 99) ≤ Real.log y := by
          have h4 := Real.one_sub_inv_le_log_of_pos hy0
          have h5 : y⁻¹ ≤ 100 / 99 := by
            rw [inv_le_comm₀ hy0 (by norm_num)]; norm_num; linarith
          linarith
        have h6 : 2 * c0 * k.q ≤ 11060 := by nlinarith [hc0.2]
        have h7 : 0 ≤ 2 * c0 * k.q := by positivity
        have h8 : (-112 : ℝ) ≤ Real.log y * (2 * c0 * k.q) := by nlinarith
        rw [Real.rpow_def_of_pos hy0]
        refine lt_of_lt_of_le ?_ (Real.exp_le_exp.2 h8)
        have h9 := Real.exp_one_lt_d9
        have h10 : Real.exp (-112) = (Real.exp 1 ^ 112)⁻¹ := by
          rw [← Real.exp_nat_mul, ← Real.exp_neg]; norm_num
        rw [h10, lt_inv_comm₀ gamRatioMin_pos (by positivity)]
        refine lt_of_le_of_lt (pow_le_pow_left₀ (Real.exp_pos 1).le (h9.le.trans (show _ ≤ (3 : ℝ) by norm_num)) 112) ?_
        unfold gamRatioMin; norm_num
      rw [if_pos hmin]
      have hexp : Real.exp (k.xn j * Real.log t) = t ^ k.xnn j / t := by
        rw [mul_comm, ← Real.rpow_def_of_pos htp]
        exact Real.rpow_sub_one htp.ne' _
      rw [hexp, ← hpw]
      have h11 := mul_le_mul_of_nonneg_left hwin (show 0 ≤ gamW * gI * k.p * k.q / t by positivity)
      have e1 : gamW * gI * k.p * k.q / t * (20 * c0 * (t ^ k.p) ^ (2 * c0 * k.q)) =
          gamW * 10 * ((t ^ k.p) ^ (2 * c0 * k.q) / t) * k.xnn j * gI := by
        rw [hxnn]; ring
      have e2 : ∀ B, gamW * gI * k.p * k.q / t * (t ^ k.p * B) = gamW * gI * k.p * k.q * (t ^ k.p / t) * B := by
        intro B; ring
      rw [e1, e2] at h11
      linarith

/-- the parameters of the unit tests, at the temperature of the tests, and the simple linear example are covered -/
example (h : Vec 1) (h1 : h 0 ≤ 10 ^ 60) (S : Solver 1) :
    SlopesUp (testKM.kin S 12) 300 h ∧ SlopesUp (kmExample.kin S 12) 1 h := by
  constructor
  · refine C80_kmbald_curved testKM S 300 ?_ ?_ ?_ ?_ ?_ ?_ ?_ ?_ ?_ ?_ ?_ ?_ ?_ ?_ ?_ ?_ h ?_ <;>
      try norm_num [testKM]
    have : Real.sqrt (h 0) ≤ 10 ^ 30 := by
      rw [Real.sqrt_le_left (by norm_num)]
      exact h1.trans (by norm_num)
    norm_num at this ⊢
    linarith
  · refine C80_kmbald kmExample S 1 ?_ ?_ ?_ ?_ ?_ ?_ ?_ ?_ ?_ ?_ ?_ h <;>
      norm_num [kmExample, KMBalD.xnn, KMBalD.xm]

/-- **C80, the tangent.** With a linear solver that solves every regular system, a short step that succeeds without a
    tangent succeeds also when the tangent is asked for, whatever point the nonlinear solver has stopped at. -/
theorem C80_tangent (X : Ext) (hL : LupComplete X.lup) (M : Material n nH)
    (mS sS : Fin n → V3) (hgeom : M.geom = slipPQ mS sS) (hsys : ∀ i, IsSlipSystem (mS i) (sS i))
    (K : ℝ) (hK : 0 ≤ K) (hSC : SlipControl mS sS K) (κ₀ κ : ℝ) (hκ₀ : 0 < κ₀)
    (h0 : ∀ E, IsDev E → κ₀ * ddot E E ≤ ddot E (refStress M.el E))
    (h1 : ∀ E, IsDev E → ddot E (refStress M.el E) ≤ κ * ddot E E)
    (inp : Inputs) (hdt : 0 < inp.dt) (hd : IsDev (devOfSvecP inp.d)) (m m1 : Mem nH n)
    (ok1 : getResponseSngl X M inp { m with mtan := none } = .ok m1)
    (hlaw : SlopesUp M.kin m1.tkelv (histOf m1).h)
    (hsmall : inp.dt * (3 / 2 * len inp.w + 3 * spinGain K (κ / κ₀) (len (histOf m).e)
      ((inp.vr 1) ^ (1 / 3 : ℝ)) * frob (devOfSvecP inp.d)) ≤ 1 / 2) (t : Mat 6 6) :
    ∃ m2, getResponseSngl X M inp { m with mtan := some t } = .ok m2 := by
  refine ((C38_same_success X M inp m t).2 m1 ok1).resolve_right ?_
  rintro ⟨m2, hfail⟩
  obtain ⟨s⟩ := getResponseSngl_ok ok1
  have hh1 : (histOf m1).h = s.hU := by rw [OkStep.hist_eq s]; rfl
  rw [s.htk, hh1] at hlaw
  have hslope := hlaw _ _ _ s.hV
  have hPg : s.P.geom = slipPQ mS sS := by rw [s.hP]; exact hgeom
  have hPel : s.P.el = M.el := by rw [s.hP]
  have hPdt : s.P.dt = inp.dt := by rw [s.hP]
  have hPv : s.P.detV = inp.vr 1 := by rw [s.hP]
  have hPd : s.P.dSm = svecToVecd inp.d := by rw [s.hP]
  have hPw : s.P.wSm = inp.w := by rw [s.hP]
  have hPe : s.P.eN = (histOf m).e := by rw [s.hP]
  have hgd : s.P.gd = M.kin.evalGdot s.v := by rw [s.hP]
  have hcn : qn s.P.cN = 1 := by rw [s.hP]; exact qn_quatN s.hq
  have hdD : frob (devOfSvecP inp.d) = vecNorm s.P.dSm := by rw [hPd]; exact frob_eq hd
  have hdet := (C80_jacobian s.P mS sS hPg hsys K hK hSC (by rw [dot_self_quat]; exact hcn) (hPdt ▸ hdt)
    (hPv ▸ s.hv) κ₀ κ hκ₀ (hPel ▸ h0) (hPel ▸ h1)
    (by rw [hPdt, hPw, hPe, hPv]; rw [hdD] at hsmall; exact hsmall)
    (Step.solve X inp s.P).x (fun i => by rw [hgd]; exact hslope i _)).1
  obtain ⟨Y, hY⟩ := hL _ (s.P.pfracRhsT (Step.solve X inp s.P).x) hdet
  -- the update with the tangent
  have hset : Step.setup M inp { m with mtan := some t } = .ok (s.hU, s.P) := by
    show Step.setup M inp { m with mtan := none } = .ok (s.hU, s.P)
    cases hs : Step.setup M inp { m with mtan := none } with
    | fail e => simp [getResponseSngl, hs] at ok1
    | undef w => simp [getResponseSngl, hs] at ok1
    | ok a =>
      obtain ⟨hU, P⟩ := a
      obtain ⟨kU, v, sc, -, -, -, -, a5, a6, a7⟩ := Step.setup_ok hs
      have e1 := Out.ok.inj (a5.symm.trans s.hH)
      have e2 : hU = s.hU := congrArg Prod.fst e1
      subst e2
      have e3 := Out.ok.inj (a6.symm.trans s.hV)
      have e4 : v = s.v := congrArg Prod.fst e3
      have e5 : sc = s.scale := congrArg Prod.snd e3
      rw [s.hP, a7, e4, e5]
  unfold getResponseSngl at hfail
  rw [hset] at hfail
  simp only [Step.run, s.hc, Step.tangent, Updst.mtan, hY, s.hg] at hfail
  simp at hfail

/-- the slip law is differentiable at `τ` with the reported slope, and near `τ` it is the same as some continuous law
    that rises with the stress and vanishes at zero stress -/
def RisesNear (gd : ℝ → Gd) (τ : ℝ) : Prop :=
  HasDerivAt (fun t => (gd t).gdot) (gd τ).dtau τ ∧
  ∃ h : ℝ → ℝ, Continuous h ∧ Monotone h ∧ h 0 = 0 ∧ ∀ᶠ t in nhds τ, (gd t).gdot = h t

/-- C80 the power law is of this kind away from its two thresholds, below the upper one. -/
theorem C80_voce_near (k : Voce) (hm : 0 < k.xm) (hw : 0 < k.gamW) (g τ : ℝ) (hg : 0 < g)
    (h1 : |τ| / g ≠ (1 / 10 ^ 60 : ℝ) ^ k.xm) (h2 : |τ| / g < (10 ^ 60 : ℝ) ^ k.xm) :
    RisesNear (k.evalGdot g) τ := by
  have e1 : k.tMin = (1 / 10 ^ 60 : ℝ) ^ k.xm := by unfold Voce.tMin gamRatioMin; norm_num
  have e2 : k.tMax = (10 ^ 60 : ℝ) ^ k.xm := by unfold Voce.tMax gamRatioOvf; norm_num
  have hcont : Continuous fun t : ℝ => |t| / g := by fun_prop
  rcases lt_or_gt_of_ne h1 with h | h
  · refine ⟨(C25_inactive k hm g τ hg (Or.inl h)).1, fun _ => 0, continuous_const, monotone_const, rfl, ?_⟩
    filter_upwards [hcont.continuousAt.eventually_lt continuousAt_const h] with t ht
    rw [k.evalGdot_low hg (by rw [e1]; exact ht.le)]
  · refine ⟨(C25_active k hm hw g τ hg h h2).1, k.powLaw g, k.powLaw_continuous hm g, k.powLaw_monotone hm hw hg,
      k.powLaw_zero hm g, ?_⟩
    filter_upwards [continuousAt_const.eventually_lt hcont.continuousAt h,
      hcont.continuousAt.eventually_lt continuousAt_const h2] with t ht1 ht2
    rw [k.gdot_mid hg (by rw [e1]; exact ht1) (by rw [e2]; exact ht2.le)]
    have ht : t ≠ 0 := by
      rintro rfl
      rw [abs_zero, zero_div] at ht1
      have : (0 : ℝ) ≤ (1 / 10 ^ 60 : ℝ) ^ k.xm := by positivity
      linarith
    unfold Voce.powLaw
    rcases lt_or_gt_of_ne ht with h3 | h3
    · rw [if_neg (not_lt.2 h3.le), if_neg (not_le.2 h3), abs_of_neg h3]; ring
    · rw [if_pos h3, if_pos h3.le, abs_of_pos h3]; ring

/-- **C80, the derivative of the stress.** At a solution of the equations of a short step the tangent is returned.
    For every change of the deviatoric rate there is near this solution exactly one solution of the changed
    equations, it depends differentiably on the change, and the tangent is the derivative of the stress. -/
theorem C80_derivative (P : Updst n) (m s : Fin n → V3) (hgeom : P.geom = slipPQ m s)
    (hsys : ∀ i, IsSlipSystem (m i) (s i)) (K : ℝ) (hK : 0 ≤ K) (hSC : SlipControl m s K)
    (hcn : dot P.cN P.cN = 1) (hdt : 0 < P.dt) (hv : 0 < P.detV) (ha : 0 < P.adotsRef) (κ₀ κ : ℝ) (hκ₀ : 0 < κ₀)
    (hst : ∀ E, IsDev E → κ₀ * ddot E E ≤ ddot E (refStress P.el E))
    (hst' : ∀ E, IsDev E → ddot E (refStress P.el E) ≤ κ * ddot E E)
    (hsmall : P.dt * (3 / 2 * len P.wSm
      + 3 * spinGain K (κ / κ₀) (len P.eN) (P.detV ^ (1 / 3 : ℝ)) * len P.dSm) < 1 / 2)
    (X : Ext) (hX : X.lup.Sound) (hL : LupComplete X.lup) (bulk : ℝ)
    (x₀ : Vec 8) (hx₀ : P.resid x₀ = 0) (hξ : 1 / 10 ^ 9 ≤ len (Updst.xiF x₀))
    (hlaw : ∀ i, RisesNear (P.gd i) (P.taua x₀ i)) :
    ∃ A : Mat 6 6, Step.tangent X bulk P x₀ true = some (some A) ∧
    ∀ D, IsDev D → ∃ x : ℝ → Vec 8, x 0 = x₀ ∧
      (∀ᶠ p in nhds ((0 : ℝ), x₀),
        ({ P with dSm := fun i => P.dSm i + p.1 * symmToVecd D i } : Updst n).resid p.2 = 0 ↔ p.2 = x p.1) ∧
      (∃ x' : Vec 8, ∀ k, HasDerivAt (fun s => x s k) (x' k) 0) ∧
      ∀ i : Fin 6, HasDerivAt
        (fun s => voigt (ofSvecP (Step.stressOf
          ({ P with dSm := fun i => P.dSm i + s * symmToVecd D i } : Updst n)
          (P.eF (x s)) (P.cQuat (x s)))) i)
        (A.mulVec (P.dt • ![D 0 0, D 1 1, D 2 2, 2 * D 1 2, 2 * D 0 2, 2 * D 0 1]) i) 0 := by
  have hslope : ∀ i, 0 ≤ (P.gd i (P.taua x₀ i)).dtau := by
    intro i
    obtain ⟨hd, h, -, hmono, -, hev⟩ := hlaw i
    exact (hd.congr_of_eventuallyEq (hev.mono fun t ht => ht.symm)).nonneg_of_monotone hmono
  have hdet := (C80_jacobian P m s hgeom hsys K hK hSC hcn hdt hv κ₀ κ hκ₀ hst hst' hsmall.le x₀ hslope).1
  obtain ⟨Y, hY⟩ := hL _ (P.pfracRhsT x₀) hdet
  have hA : ∃ A, Step.tangent X bulk P x₀ true = some (some A) := by
    simp only [Step.tangent, Updst.mtan, hY, if_true, Option.map_some]
    exact ⟨_, rfl⟩
  obtain ⟨A, hA⟩ := hA
  refine ⟨A, hA, fun D hD => ?_⟩
  choose h hhc hhm hhz hhl using fun i => (hlaw i).2
  have hcn' := hcn
  rw [dot_self_quat] at hcn'
  have hcol := fun i => slip_columns hsys i
  obtain ⟨x, hx0, hxc, hsol⟩ := P.exists_path_local hκ₀ (le_kDiag hst) (kDiag_le hst') hdt hv hcn'
    (by rw [hgeom]; exact (slipControl_iff (fun i => (hsys i).2.2) K).1 hSC) hK
    (by rw [hgeom]; exact fun i => (hcol i).1) (by rw [hgeom]; exact fun i => (hcol i).2) hhc hhm hhz
    (spinGain K (κ / κ₀) (len P.eN) (P.detV ^ (1 / 3 : ℝ))) rfl hsmall
    ((P.resid_eq_zero hdt ha x₀).1 hx₀) hξ hhl (symmToVecd D)
  have hsol' : ∀ᶠ p in nhds ((0 : ℝ), x₀),
      ({ P with dSm := fun i => P.dSm i + p.1 * symmToVecd D i } : Updst n).resid p.2 = 0 ↔ p.2 = x p.1 :=
    hsol.mono fun p hp =>
      (Updst.resid_eq_zero (P.atRate fun i => P.dSm i + p.1 * symmToVecd D i) hdt ha p.2).trans hp
  have hpath : Filter.Tendsto (fun s : ℝ => (s, x s)) (nhds 0) (nhds ((0 : ℝ), x₀)) := by
    rw [← hx0]
    exact Filter.Tendsto.prodMk_nhds Filter.tendsto_id hxc
  have hres := (hpath.eventually hsol').mono fun s hs => hs.2 rfl
  rw [← hx0] at hξ hdet hA hlaw
  have hC := C15_continuous P X hX bulk hcn hdt ha D hD x hxc hres (fun i => (hlaw i).1) hξ hdet A hA
  exact ⟨x, hx0, hsol', hC.1, hC.2⟩

theorem idealLup_complete : LupComplete idealLup := by
  intro A B h
  exact ⟨_, if_pos h⟩

/-- an FCC crystal with a linear rate law that is turned by 1/4 in a step -/
noncomputable def whirlEx : Updst 12 :=
  { probEx with
    dt := 1
    detV := 1
    eN := 0
    cN := ![1, 0, 0, 0]
    dSm := 0
    wSm := ![0, 0, 1 / 4] }

theorem whirl_taua (i : Fin 12) : whirlEx.taua (axisX 0 (1 / 4)) i = 0 := by
  rw [whirlEx.taua_cubic (c11 := 3) (c12 := 1) (c44 := 1) rfl, whirlEx.eF_axis rfl]
  have : (![0, 0, 0, 0, 0] : Vec 5) = 0 := by ext k; fin_cases k <;> rfl
  rw [this]
  simp

theorem whirl_resid : whirlEx.resid (axisX 0 (1 / 4)) = 0 := by
  refine (Updst.resid_eq_zero _ (by norm_num [whirlEx]) (by norm_num [whirlEx, probEx]) _).2 ⟨?_, ?_⟩
  · funext i
    have hg : whirlEx.gdot (axisX 0 (1 / 4)) = 0 := by
      funext i
      show whirlEx.taua (axisX 0 (1 / 4)) i = 0
      exact whirl_taua i
    simp only [Updst.residE, hg, whirlEx.edot_axis]
    fin_cases i <;> simp [vecsVMa, vecsVMTa, whirlEx]
  · funext i
    have hg : whirlEx.gdot (axisX 0 (1 / 4)) = 0 := by
      funext i
      show whirlEx.taua (axisX 0 (1 / 4)) i = 0
      exact whirl_taua i
    have hc : whirlEx.cMatx (axisX 0 (1 / 4)) = quatToTensor ![Real.cos (1 / 4 / 2), 0, 0, Real.sin (1 / 4 / 2)] := by
      unfold Updst.cMatx
      rw [whirlEx.cQuat_axis rfl (by norm_num [idpTinySqrt])]
    simp only [Updst.residR, hg, whirlEx.edot_axis, Updst.xiF_axis, hc, whirlEx.eF_axis rfl]
    have hw : whirlEx.wSm = ![0, 0, 1 / 4] := rfl
    have hdt : whirlEx.dt = 1 := rfl
    rw [hw, Updst.spin_axis (Real.cos_sq_add_sin_sq _), hdt, show (0 : ℝ) / 1 = 0 by norm_num, Updst.m35_axis]
    fin_cases i <;> simp [vecsVMa]

/-- hypotheses of the statements about the matrix and the derivative -/
example : ∃ K : ℝ, 0 ≤ K ∧ SlipControl fccM fccS K ∧
    whirlEx.dt * (3 / 2 * len whirlEx.wSm
      + 3 * spinGain K (2 / 2) (len whirlEx.eN) (whirlEx.detV ^ (1 / 3 : ℝ)) * len whirlEx.dSm) < 1 / 2 ∧
    whirlEx.resid (axisX 0 (1 / 4)) = 0 ∧ 1 / 10 ^ 9 ≤ len (Updst.xiF (axisX 0 (1 / 4))) ∧
    (∀ i, RisesNear (whirlEx.gd i) (whirlEx.taua (axisX 0 (1 / 4)) i)) ∧
    idealLup.Sound ∧ LupComplete idealLup := by
  obtain ⟨K, hK0, hK⟩ := C79_geometry fccM fccS fun i => (fcc_slip i).2.2
  refine ⟨K, hK0.le, hK, ?_, whirl_resid, ?_, fun i => ⟨hasDerivAt_id _, id, continuous_id, monotone_id, rfl,
    Filter.Eventually.of_forall fun _ => rfl⟩, idealLup_sound, idealLup_complete⟩
  · have h1 : len whirlEx.wSm = 1 / 4 := vecNorm_axis (by norm_num)
    have h2 : len whirlEx.dSm = 0 := vecNorm_zero
    have h3 : whirlEx.dt = 1 := rfl
    rw [h1, h2, h3]
    norm_num
  · rw [Updst.xiF_axis]
    show _ ≤ vecNorm _
    rw [vecNorm_axis (by norm_num)]
    norm_num

/-- hypotheses of the statement about the tangent: the example step with a non-zero elastic strain -/
example (t : Mat 6 6) : ∃ (η : ℝ) (m2 : Mem 1 12), 0 < η ∧
    getResponseSngl { exExt with lup := idealLup } (exMat exEl) (exInp exEl ![η, 0, 0, 0, 0])
      { exMem ![η, 0, 0, 0, 0] none with mtan := some t } = .ok m2 := by
  obtain ⟨K, hK0, hK⟩ := C79_geometry fccM fccS fun i => (fcc_slip i).2.2
  have hη : 0 < 1 / (1000 * (K + 1)) := by positivity
  have hη1 : 1 / (1000 * (K + 1)) ≤ 1 := by rw [div_le_one (by positivity)]; linarith
  have hηK : 1 / (1000 * (K + 1)) * (K + 1) = 1 / 1000 := by field_simp
  refine ⟨1 / (1000 * (K + 1)), ?_⟩
  generalize 1 / (1000 * (K + 1)) = η at hη hη1 hηK
  set e : Vec 5 := ![η, 0, 0, 0, 0] with he
  have hg : (exMat exEl).el.getGmod = .ok exEl.kGmod := by
    show exEl.getGmod = _
    unfold Elast.getGmod
    rw [if_neg (not_le.2 exEl_pos)]
  have hok : ∃ m', getResponseSngl { exExt with lup := idealLup } (exMat exEl) (exInp exEl e)
      { exMem e none with mtan := none } = .ok m' := by
    unfold getResponseSngl
    have : Step.setup (exMat exEl) (exInp exEl e) { exMem e none with mtan := none }
        = Step.setup (exMat exEl) (exInp exEl e) (exMem e none) := rfl
    rw [this, ex_setup]
    have hsol := ex_solve exEl e
    simp only [Step.solve] at hsol
    simp only [Step.run, Step.solve, hsol, hg]
    exact ⟨_, rfl⟩
  obtain ⟨m', ok⟩ := hok
  obtain ⟨hd, hw⟩ := slight_rate η hη.le
  rw [← he] at hd hw
  have hdev : ∀ A : T3, IsDev (devOfSvecP (svecP (sym A))) := by
    intro A
    rw [isDev_iff]
    simp [devOfSvecP, svecP, sym, dev, Matrix.trace_fin_three]
    ring
  obtain ⟨m2, hm2⟩ := C80_tangent { exExt with lup := idealLup } idealLup_complete (exMat exEl) fccM fccS rfl fcc_slip
    K hK0.le hK 2 2 two_pos (fun E hE => (exEl_ddot E hE).ge) (fun E hE => (exEl_ddot E hE).le)
    (exInp exEl e) one_pos (hdev _) (exMem e none) m' ok
    (C80_voce voceExample (by norm_num [voceExample]) (by norm_num [voceExample]) _ _ _) (by
      have he' : (histOf (exMem e none)).e = e := by unfold histOf; rw [ex_ofArray]; rfl
      have hle : len e = η := by
        unfold len dot
        simp [Fin.sum_univ_five, he, Real.sqrt_mul_self hη.le]
      have hv : (1 : ℝ) ≤ ((exInp exEl e).vr 1) ^ (1 / 3 : ℝ) := by
        show (1 : ℝ) ≤ (2 : ℝ) ^ (1 / 3 : ℝ)
        exact Real.one_le_rpow (by norm_num) (by norm_num)
      rw [he', hle]
      have hgain : spinGain K (2 / 2) η (((exInp exEl e).vr 1) ^ (1 / 3 : ℝ)) ≤ K + 1 := by
        unfold spinGain
        rw [div_self two_ne_zero, Real.sqrt_one]
        have : 1 * η / ((exInp exEl e).vr 1) ^ (1 / 3 : ℝ) ≤ 1 := by
          rw [div_le_one (by linarith)]; linarith
        linarith
      have hdt : (exInp exEl e).dt = 1 := rfl
      rw [hdt, one_mul]
      have h1 := mul_le_mul hgain hd (frob_nonneg _) (by linarith)
      nlinarith) t
  exact ⟨m2, hη, hm2⟩

end Ecm.Props
