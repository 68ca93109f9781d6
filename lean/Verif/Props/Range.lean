/- C89: no overflow and no division by a vanishing number in the slip laws, at any resolved shear stress. -/
import Verif.Lemmas.RangeKM

namespace Ecm.Props
open Classical

/-- usual magnitudes of the Voce parameters: xm between 1e-6 and 1, reference rate at most 1e50 -/
structure VoceRange (k : Voce) : Prop where
  xm_lo : 1 / 10 ^ 6 ≤ k.xm
  xm_hi : k.xm ≤ 1
  gamW : |k.gamW| ≤ 10 ^ 50

/-- magnitudes of the parameters of the hardening law of Voce -/
structure VoceHardRange (k : Voce) : Prop where
  h0 : |k.h0| ≤ 10 ^ 20
  taus0 : |k.taus0| ≤ 10 ^ 20
  gamss0_pos : 0 < k.gamss0
  gamss0_lo : 1 / 10 ^ 20 ≤ k.gamss0
  gamss0_hi : k.gamss0 ≤ 10 ^ 20
  xms_nonneg : 0 ≤ k.xms
  xms_hi : k.xms ≤ 1

/-- magnitudes of the quantities of the balanced kinetics on one slip system: rates, barrier and drag stress between
    1e-15 and 1e15, barrier energy over kT at most 1e10, exponents as usual for this law -/
structure KMRange {nV : ℕ} (k : KMBalD nV) (v : KMVals nV) (j : Fin nV) : Prop where
  p_pos : 0 < k.p
  p_hi : k.p ≤ 1
  q_lo : 1 ≤ k.q
  q_hi : k.q ≤ 2
  gamW_lo : 1 / 10 ^ 15 ≤ v.gamW
  gamW_hi : v.gamW ≤ 10 ^ 15
  gamR_lo : 1 / 10 ^ 15 ≤ v.gamR
  gamR_hi : v.gamR ≤ 10 ^ 15
  wrD_lo : 1 / 10 ^ 15 ≤ k.wrD
  cE_nonneg : 0 ≤ v.ct j * k.muRef
  cE_hi : v.ct j * k.muRef ≤ 10 ^ 10
  barrier : 1 / 10 ^ 15 ≤ if k.withGA then k.tauA else v.g j
  ath : |if k.withGA then v.g j else k.tauA| ≤ 10 ^ 15
  xm_lo : 1 / 10 ^ 6 ≤ k.xm j
  xm_hi : k.xm j ≤ 1

/-- magnitudes of the parameters of the dislocation density evolution -/
structure KMHardRange {nV : ℕ} (k : KMBalD nV) : Prop where
  k1 : |k.k1| ≤ 10 ^ 20
  k2o : |k.k2o| ≤ 10 ^ 20
  gammaO_lo : 1 / 10 ^ 20 ≤ k.gammaO
  gammaO_hi : k.gammaO ≤ 10 ^ 20
  ninv_nonneg : 0 ≤ k.ninv
  ninv_hi : k.ninv ≤ 2

private theorem pos_of {x : ℝ} {n : ℕ} (h : 1 / 10 ^ n ≤ x) : 0 < x := lt_of_lt_of_le (by positivity) h
private theorem lz_of {x : ℝ} {n : ℕ} (h : 1 / 10 ^ n ≤ x) : Lz x n := h.trans (le_abs_self x)
private theorem sz_of {x : ℝ} {n : ℕ} (h0 : 0 ≤ x) (h : x ≤ 10 ^ n) : Sz x n := by
  unfold Sz; rwa [abs_of_nonneg h0]

/-- Voce: the rate and both derivatives, all intermediate results in range, for every strength above 1e-50 and every
    resolved shear stress -/
theorem C89_voce (k : Voce) (h : VoceRange k) {g tau : ℝ} (hg : 1 / 10 ^ 50 ≤ g) (ht : |tau| ≤ 10 ^ 200) :
    k.evalGdotR dblLim g tau = some (k.evalGdot g tau) :=
  k.evalGdotR_ok h.xm_lo h.xm_hi h.gamW (pos_of hg) (lz_of hg) ht

/-- Voce: the saturation strength -/
theorem C89_voce_saturation {n : ℕ} (k : Voce) (h : VoceHardRange k) (gdot : Vec n) (hs : vecsssumabs gdot ≤ 10 ^ 100) :
    k.svSatR dblLim (vecsssumabs gdot) = some (k.getEvolVals gdot).2 := by
  unfold Voce.svSatR Voce.getEvolVals
  simp only
  by_cases h1 : idpTinySqrt < vecsssumabs gdot
  · rw [if_pos h1, if_pos h1]
    generalize vecsssumabs gdot = s at *
    have hs0 : 0 < s := idpTinySqrt_pos.trans h1
    have s1 : Sz (s / k.gamss0) 120 := (sz_of hs0.le hs).div (lz_of h.gamss0_lo)
    have hpos : 0 < s / k.gamss0 := div_pos hs0 h.gamss0_pos
    have l1 : Lz (s / k.gamss0) 110 := by
      have hl : Lz s 90 := lz_of h1.le
      have hi := (Lz.inv (sz_of h.gamss0_pos.le h.gamss0_hi) h.gamss0_pos.ne')
      have := hl.mul hi
      rwa [mul_one_div] at this
    have s2 := s1.rpow hpos.le h.xms_nonneg h.xms_hi
    have s3 : Sz (k.taus0 * (s / k.gamss0) ^ k.xms) 140 := Sz.mul h.taus0 s2
    refine (bind_of (Lim.div_ok (lz_of h.gamss0_lo) (by norm_num) s1 (by norm_num))).trans ?_
    refine (bind_of (Lim.pow_ok hpos.le l1 (by norm_num) s2 (by norm_num))).trans ?_
    exact Lim.mul_ok s3 (by norm_num)
  · rw [if_neg h1, if_neg h1]

/-- Voce: the hardening rate and its derivative.  The difference of two strengths that are different numbers of double
    precision and at least 1e-20 is at least 1e-40. -/
theorem C89_voce_hardening (k : Voce) (h : VoceHardRange k) (hl : k.nonlinear = false) (evol : ℝ × ℝ) (x : ℝ)
    (he : |evol.1| ≤ 10 ^ 60) (hsat : |evol.2| ≤ 10 ^ 140) (hx : |x| ≤ 10 ^ 20)
    (hd : evol.2 ≤ k.tausi ∨ 1 / 10 ^ 40 ≤ evol.2 - k.tausi) (hti : |k.tausi| ≤ 10 ^ 20) :
    k.getSdot1R dblLim evol x = k.getSdot1 evol x := by
  obtain ⟨e1, e2⟩ := evol
  simp only at he hsat hd ⊢
  have sx : Sz (e2 - x) 141 := Sz.sub hsat (Sz.mono hx (by norm_num))
  have key : ∀ t2 : ℝ, Sz t2 40 →
      (do let d ← dblLim.sub e2 x
          let t ← dblLim.mul d t2
          let temp1 ← dblLim.mul k.h0 t
          let sdot ← dblLim.mul temp1 e1
          let a ← dblLim.mul (-k.h0) t2
          let ds ← dblLim.mul a e1
          return (sdot, ds) : Option (ℝ × ℝ)) =
        some (k.h0 * ((e2 - x) * t2) * e1, -k.h0 * t2 * e1) := by
    intro t2 s2
    have c1 := sx.mul s2
    have c2 := Sz.mul h.h0 c1
    have c3 := c2.mul he
    have c4 := (Sz.neg h.h0).mul s2
    have c5 := c4.mul he
    refine (bind_of (Lim.sub_ok sx (by norm_num))).trans ?_
    refine (bind_of (Lim.mul_ok c1 (by norm_num))).trans ?_
    refine (bind_of (Lim.mul_ok c2 (by norm_num))).trans ?_
    refine (bind_of (Lim.mul_ok c3 (by norm_num))).trans ?_
    refine (bind_of (Lim.mul_ok c4 (by norm_num))).trans ?_
    exact bind_of (Lim.mul_ok c5 (by norm_num))
  have er : k.getSdot1 (e1, e2) x = some (k.h0 * ((e2 - x) * (if e2 ≤ k.tausi then 0 else 1 / (e2 - k.tausi))) * e1,
      -k.h0 * (if e2 ≤ k.tausi then 0 else 1 / (e2 - k.tausi)) * e1) := by
    unfold Voce.getSdot1; simp only [hl, Bool.false_eq_true, if_false]
  rw [er]
  unfold Voce.getSdot1R
  by_cases h1 : e2 ≤ k.tausi
  · simp only [if_pos h1]
    exact (bind_of rfl).trans (key 0 (Sz.zero _))
  · simp only [if_neg h1]
    have hd' := hd.resolve_left h1
    have sd : Sz (e2 - k.tausi) 141 := Sz.sub hsat (Sz.mono hti (by norm_num))
    have si : Sz (1 / (e2 - k.tausi)) 40 := ((Sz.one 0).div (lz_of hd')).mono (by norm_num)
    refine (bind_of (Lim.sub_ok sd (by norm_num))).trans ?_
    exact (bind_of (Lim.div_ok (lz_of hd') (by norm_num) si (by norm_num))).trans (key _ si)

/-- balanced kinetics: the rate and both derivatives, all intermediate results in range, for every resolved shear stress -/
theorem C89_kmbald {nV n : ℕ} [NeZero nV] (k : KMBalD nV) (v : KMVals nV) (i : Fin n) (h : KMRange k v (k.iVal i))
    {tau : ℝ} (ht : |tau| ≤ 10 ^ 250) : k.evalGdotR dblLim v i tau = some (k.evalGdot v i tau) := by
  unfold KMBalD.evalGdotR KMBalD.evalGdot
  exact k.evalGdotSelR_ok (xm := k.xm (k.iVal i)) h.p_pos h.p_hi h.q_lo h.q_hi (pos_of h.gamW_lo)
    (sz_of (pos_of h.gamW_lo).le h.gamW_hi) (lz_of h.gamW_lo) (pos_of h.gamR_lo)
    (sz_of (pos_of h.gamR_lo).le h.gamR_hi) (lz_of h.gamR_lo) (pos_of h.wrD_lo) (lz_of h.wrD_lo) h.cE_nonneg
    (sz_of h.cE_nonneg h.cE_hi) (pos_of h.barrier) (lz_of h.barrier) h.ath h.xm_lo h.xm_hi ht

/-- balanced kinetics: the reference rates from the dislocation density -/
theorem C89_kmbald_rates {nV : ℕ} (k : KMBalD nV) {ρ : ℝ} (h1 : 1 / 10 ^ 10 ≤ ρ) (h2 : ρ ≤ 10 ^ 10)
    (hw1 : 1 / 10 ^ 10 ≤ k.gamWo) (hw2 : k.gamWo ≤ 10 ^ 10) (hr1 : 1 / 10 ^ 5 ≤ k.gamRo) (hr2 : k.gamRo ≤ 10 ^ 5) :
    k.gamsR dblLim ρ = some (Real.sqrt ρ, k.gamWo / Real.sqrt ρ, k.gamRo * Real.sqrt ρ * Real.sqrt ρ) ∧
    (1 / 10 ^ 15 ≤ k.gamWo / Real.sqrt ρ ∧ k.gamWo / Real.sqrt ρ ≤ 10 ^ 15) ∧
    (1 / 10 ^ 15 ≤ k.gamRo * Real.sqrt ρ * Real.sqrt ρ ∧ k.gamRo * Real.sqrt ρ * Real.sqrt ρ ≤ 10 ^ 15) := by
  have hρ := pos_of h1
  have hs : 0 < Real.sqrt ρ := Real.sqrt_pos.2 hρ
  have s1 : Real.sqrt ρ ≤ 10 ^ 5 := by
    rw [Real.sqrt_le_left (by positivity)]; exact h2.trans (by norm_num)
  have l1 : 1 / 10 ^ 5 ≤ Real.sqrt ρ := by
    refine Real.le_sqrt_of_sq_le ?_
    exact le_trans (by norm_num) h1
  have S := sz_of hs.le s1
  have L := lz_of l1
  have hw0 := pos_of hw1
  have hr0 := pos_of hr1
  have a1 := (sz_of hw0.le hw2).div L
  have a2 := (sz_of hr0.le hr2).mul S
  have a3 := a2.mul S
  have b1 : Lz (k.gamWo / Real.sqrt ρ) 15 := by
    have := (lz_of hw1).mul (Lz.inv S hs.ne')
    rwa [mul_one_div] at this
  have b3 := ((lz_of hr1).mul L).mul L
  refine ⟨?_, ⟨?_, ?_⟩, ?_, ?_⟩
  · refine (bind_of (Lim.sqrt_ok hρ.le S (by norm_num))).trans ?_
    refine (bind_of (Lim.div_ok L (by norm_num) a1 (by norm_num))).trans ?_
    refine (bind_of (Lim.mul_ok a2 (by norm_num))).trans ?_
    exact bind_of (Lim.mul_ok a3 (by norm_num))
  · unfold Lz at b1; rwa [abs_of_pos (by positivity)] at b1
  · exact (le_abs_self _).trans a1
  · unfold Lz at b3; rwa [abs_of_pos (by positivity)] at b3
  · exact (le_abs_self _).trans a3

/-- balanced kinetics: the recovery coefficient from the slip rates -/
theorem C89_kmbald_recovery {nV n : ℕ} (k : KMBalD nV) (h : KMHardRange k) (gdot : Vec n)
    (hs : vecsssumabs gdot ≤ 10 ^ 60) : k.k2R dblLim (vecsssumabs gdot) = some (k.getEvolVals gdot).2 ∧
      |(k.getEvolVals gdot).2| ≤ 10 ^ 240 := by
  unfold KMBalD.k2R KMBalD.getEvolVals
  simp only
  by_cases h1 : idpTinySqrt < vecsssumabs gdot
  · rw [if_pos h1, if_pos h1]
    generalize vecsssumabs gdot = s at *
    have hs0 : 0 < s := idpTinySqrt_pos.trans h1
    have hg0 := pos_of h.gammaO_lo
    have ls : Lz s 90 := lz_of h1.le
    have s1 : Sz (k.gammaO / s) 110 := (sz_of hg0.le h.gammaO_hi).div ls
    have hpos : 0 < k.gammaO / s := div_pos hg0 hs0
    have l1 : Lz (k.gammaO / s) 80 := by
      have := (lz_of h.gammaO_lo).mul (Lz.inv (sz_of hs0.le hs) hs0.ne')
      rwa [mul_one_div] at this
    have s2 := s1.rpow2 hpos.le h.ninv_nonneg h.ninv_hi
    have s3 : Sz (k.k2o * (k.gammaO / s) ^ k.ninv) 240 := Sz.mul h.k2o s2
    refine ⟨?_, s3⟩
    refine (bind_of (Lim.div_ok ls (by norm_num) s1 (by norm_num))).trans ?_
    refine (bind_of (Lim.pow_ok hpos.le l1 (by norm_num) s2 (by norm_num))).trans ?_
    exact Lim.mul_ok s3 (by norm_num)
  · rw [if_neg h1, if_neg h1]
    exact ⟨rfl, (Sz.mono h.k2o (by norm_num) : Sz k.k2o 240)⟩

/-- balanced kinetics: the rate of the logarithm of the density and its derivative, for logarithms between -500 and 500 -/
theorem C89_kmbald_hardening {nV : ℕ} (k : KMBalD nV) (h : KMHardRange k) (evol : ℝ × ℝ) (x : ℝ)
    (he : |evol.1| ≤ 10 ^ 50) (hk : |evol.2| ≤ 10 ^ 240) (hx : |x| ≤ 500) :
    k.getSdot1R dblLim evol x = k.getSdot1 evol x := by
  obtain ⟨e1, e2⟩ := evol
  simp only at he hk ⊢
  have hx' := abs_le.1 hx
  have s1 : Sz (-(1 / 2) * x) 3 := by
    unfold Sz; rw [abs_mul, abs_neg, abs_of_pos (by norm_num : (0 : ℝ) < 1 / 2)]; linarith
  have s2 : Sz (Real.exp (-(1 / 2) * x)) 125 := by
    unfold Sz
    rw [abs_of_pos (Real.exp_pos _)]
    have h1 : Real.exp (-(1 / 2) * x) ≤ Real.exp 250 := Real.exp_le_exp.2 (by linarith)
    have h2 : Real.exp 250 = Real.exp 1 ^ 250 := by rw [← Real.exp_nat_mul]; norm_num
    rw [h2] at h1
    refine h1.trans ?_
    calc Real.exp 1 ^ 250 ≤ 3 ^ 250 :=
          pow_le_pow_left₀ (Real.exp_pos 1).le (Real.exp_one_lt_d9.le.trans (by norm_num)) 250
      _ ≤ 10 ^ 125 := by norm_num
  have s3 := Sz.mul h.k1 s2
  have s4 := (s3.mono (by norm_num : 20 + 125 ≤ 240)).sub hk
  have s5 := s4.mul he
  have sh : Sz (1 / 2 : ℝ) 0 := Sz.of_unit (by norm_num) (by norm_num)
  have s6 := (Sz.neg h.k1).mul sh
  have s7 := s6.mul s2
  have s8 := s7.mul he
  unfold KMBalD.getSdot1R
  refine (bind_of (Lim.mul_ok s1 (by norm_num))).trans ?_
  refine (bind_of (Lim.exp_ok s2 (by norm_num))).trans ?_
  refine (bind_of (Lim.mul_ok s3 (by norm_num))).trans ?_
  refine (bind_of (Lim.sub_ok s4 (by norm_num))).trans ?_
  refine (bind_of (Lim.mul_ok s5 (by norm_num))).trans ?_
  refine (bind_of (Lim.mul_ok s6 (by norm_num))).trans ?_
  refine (bind_of (Lim.mul_ok s7 (by norm_num))).trans ?_
  exact bind_of (Lim.mul_ok s8 (by norm_num))

/-- the tests bite: a strength of 1e-301 overflows in the first division -/
theorem C89_limit (k : Voce) (tau : ℝ) : k.evalGdotR dblLim (1 / 10 ^ 301) tau = none := by
  have h : ¬ dblLim.lo ≤ |(1 : ℝ) / 10 ^ 301| := by
    rw [abs_of_pos (by positivity)]
    unfold dblLim
    simp only
    rw [not_le]
    refine one_div_lt_one_div_of_lt (by positivity) (pow_lt_pow_right₀ (by norm_num) (by norm_num))
  have : dblLim.div 1 (1 / 10 ^ 301) = none := by unfold Lim.div; rw [if_neg h]
  unfold Voce.evalGdotR
  rw [this]; rfl

/- the parameters of the test suite meet the ranges (test/setup_kin_VocePL.h, test/setup_kin_KMBalD_FFF.h) -/
noncomputable def rngVoce : Voce :=
  { nonlinear := false, mu := 1, xm := 0.01, gamW := 1, h0 := 200e-5, tausi := 100e-5, taus0 := 400e-5, xmprime := 1
    xms := 0.05, gamss0 := 1e-6, hdnInit := 100e-5 }

example : VoceRange rngVoce ∧ VoceHardRange rngVoce := by
  constructor <;> constructor <;> norm_num [rngVoce, abs_of_pos]

example (tau : ℝ) (ht : |tau| ≤ 10 ^ 200) :
    rngVoce.evalGdotR dblLim 100e-5 tau = some (rngVoce.evalGdot 100e-5 tau) :=
  C89_voce _ (by constructor <;> norm_num [rngVoce]) (by norm_num) ht

noncomputable def rngKM : KMBalD 1 :=
  { withGA := false, pOne := false, qOne := false, perSS := false, muRef := 1, tKRef := 300, c1 := fun _ => 20000
    tauA := 0.004, p := 0.28, q := 1.34, gamWo := 20, gamRo := 1000, wrD := 0.02, go := fun _ => 10e-5
    s := fun _ => 5e-5, k1 := 100, k2o := 10, ninv := 0.05, gammaO := 1e-6, hdnInit := 0.25 }

/-- the values at the initial density and at 300 K -/
noncomputable def rngVals : KMVals 1 := { gamW := 40, gamR := 250, g := fun _ => 12.5e-5, ct := fun _ => 20000 / 300 }

example : KMRange rngKM rngVals 0 ∧ KMHardRange rngKM := by
  constructor <;> constructor <;> norm_num [rngKM, rngVals, KMBalD.xm]

example (i : Fin 12) (tau : ℝ) (ht : |tau| ≤ 10 ^ 250) :
    rngKM.evalGdotR dblLim rngVals i tau = some (rngKM.evalGdot rngVals i tau) :=
  C89_kmbald _ _ _ (by constructor <;> norm_num [rngKM, rngVals, KMBalD.xm, KMBalD.iVal]) ht

example : ∃ a b, rngKM.gamsR dblLim 0.25 = some (Real.sqrt 0.25, a, b) :=
  ⟨_, _, (C89_kmbald_rates rngKM (ρ := 0.25) (by norm_num) (by norm_num) (by norm_num [rngKM]) (by norm_num [rngKM])
    (by norm_num [rngKM]) (by norm_num [rngKM])).1⟩

example : rngVoce.getSdot1R dblLim (1e-3, 400e-5) 200e-5 = rngVoce.getSdot1 (1e-3, 400e-5) 200e-5 :=
  C89_voce_hardening _ (by constructor <;> norm_num [rngVoce]) rfl _ _ (by norm_num) (by norm_num) (by norm_num)
    (Or.inr (by norm_num [rngVoce])) (by norm_num [rngVoce])

end Ecm.Props
