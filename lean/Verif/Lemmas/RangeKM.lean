/- Helper lemmas: the balanced dislocation density kinetics with range checks. -/
import Verif.Lemmas.Range

namespace Ecm
open Classical

theorem lz_abs_pos {x : ℝ} {m : ℕ} (h : Lz x m) : 0 < |x| := abs_pos.2 h.ne

/-- `a^b/a` for a number not below 1 -/
theorem rpow_div_self {a b : ℝ} (ha : 0 < a) : a ^ b / a = a ^ (b - 1) := by
  rw [Real.rpow_sub_one ha.ne']

namespace KMBalD
variable {nV : ℕ} (k : KMBalD nV)

/-- the value of `pFuncR` -/
noncomputable def dfac1 (mts t : ℝ) : ℝ :=
  if k.pOne then mts else if |t| < idpTinySqrt then mts * 10 ^ 10 else mts * k.p * k.pFunc t / t

theorem sz_p (hp0 : 0 < k.p) (hp1 : k.p ≤ 1) : Sz k.p 0 := Sz.of_unit hp0.le hp1

theorem pFunc_size (hp0 : 0 < k.p) (hp1 : k.p ≤ 1) {t : ℝ} {m : ℕ} (h : Sz t m) : Sz (k.pFunc t) m := by
  unfold pFunc
  split_ifs
  · exact h
  · exact Sz.zero _
  · exact (h.abs.rpow (abs_nonneg t) hp0.le hp1).copysign

theorem pFunc_unit (hp0 : 0 < k.p) {t : ℝ} (h : |t| < 1) : Sz (k.pFunc t) 0 := by
  unfold pFunc
  have h' : Sz t 0 := by unfold Sz; simpa using h.le
  split_ifs
  · exact h'
  · exact Sz.zero _
  · exact (Sz.of_unit (Real.rpow_nonneg (abs_nonneg t) _) (Real.rpow_le_one (abs_nonneg t) h.le hp0.le)).copysign

/-- size of the first factor of the derivative: 10^(m+90) in general, 10^m above the threshold -/
theorem dfac1_size (hp0 : 0 < k.p) (hp1 : k.p ≤ 1) {mts t : ℝ} {m : ℕ} (hm : Sz mts m) :
    (|t| < 1 → Sz (k.dfac1 mts t) (m + 90)) ∧ (1 ≤ |t| → Sz (k.dfac1 mts t) m) := by
  constructor
  · intro h
    unfold dfac1
    split_ifs with h1 h2
    · exact hm.mono (by omega)
    · have : Sz ((10 : ℝ) ^ 10) 10 := by unfold Sz; rw [abs_of_pos (by positivity)]
      exact (hm.mul this).mono (by omega)
    · have hl : Lz t 90 := not_lt.1 h2
      exact (((hm.mul (k.sz_p hp0 hp1)).mul (k.pFunc_unit hp0 h)).div hl).mono (by omega)
  · intro h
    unfold dfac1
    have hti : ¬ |t| < idpTinySqrt := by
      have : idpTinySqrt ≤ 1 := by unfold idpTinySqrt; norm_num
      intro h'; linarith
    split_ifs with h1
    · exact hm
    · have e : mts * k.p * k.pFunc t / t = mts * k.p * (k.pFunc t / t) := by ring
      rw [e]
      have hpos : 0 < |t| := by linarith
      have : Sz (k.pFunc t / t) 0 := by
        unfold Sz
        rw [abs_div, div_le_iff₀ hpos]
        have : |k.pFunc t| = |t| ^ k.p := by
          unfold pFunc
          rw [if_neg h1, if_neg hti, abs_copysign, abs_of_nonneg (Real.rpow_nonneg (abs_nonneg t) _)]
        rw [this]
        calc |t| ^ k.p ≤ |t| ^ (1 : ℝ) := Real.rpow_le_rpow_of_exponent_le h hp1
          _ = 10 ^ 0 * |t| := by rw [Real.rpow_one]; ring
      exact ((hm.mul (k.sz_p hp0 hp1)).mul this).mono (by omega)

theorem pFuncR_ok (hp0 : 0 < k.p) (hp1 : k.p ≤ 1) {mts t : ℝ} (hm : Sz mts 25) (ht : Sz t 61) :
    k.pFuncR dblLim mts t = some (k.pFunc t, k.dfac1 mts t) := by
  have hd := k.dfac1_size hp0 hp1 (t := t) hm
  have hd' : Sz (k.dfac1 mts t) 115 := by
    rcases lt_or_ge |t| 1 with h | h
    · exact hd.1 h
    · exact (hd.2 h).mono (by norm_num)
  unfold pFuncR
  by_cases h1 : k.pOne = true
  · rw [if_pos h1]; unfold pFunc dfac1; rw [if_pos h1, if_pos h1]
  by_cases h2 : |t| < idpTinySqrt
  · rw [if_neg h1, if_pos h2]
    have e : k.dfac1 mts t = mts * 10 ^ 10 := by unfold dfac1; rw [if_neg h1, if_pos h2]
    have e2 : k.pFunc t = 0 := by unfold pFunc; rw [if_neg h1, if_pos h2]
    rw [e] at hd' ⊢
    rw [Lim.mul_ok hd' (by norm_num), e2]; rfl
  · rw [if_neg h1, if_neg h2]
    have hl : Lz t 90 := not_lt.1 h2
    have e : k.dfac1 mts t = mts * k.p * k.pFunc t / t := by unfold dfac1; rw [if_neg h1, if_neg h2]
    have e2 : k.pFunc t = copysign (|t| ^ k.p) t := by unfold pFunc; rw [if_neg h1, if_neg h2]
    have s1 : Sz (|t| ^ k.p) 61 := ht.abs.rpow (abs_nonneg t) hp0.le hp1
    have s2 := hm.mul (k.sz_p hp0 hp1)
    have s3 := s2.mul (s1.copysign (t := t))
    rw [e, e2] at hd'
    rw [e, e2]
    rw [Lim.pow_ok (abs_nonneg t) hl.abs (by norm_num) s1 (by norm_num)]
    simp only [Option.bind_eq_bind, Option.bind_some]
    rw [Lim.mul_ok s2 (by norm_num)]
    simp only [Option.bind_some]
    rw [Lim.mul_ok s3 (by norm_num)]
    simp only [Option.bind_some]
    rw [Lim.div_ok hl (by norm_num) hd' (by norm_num)]
    rfl

/-- get_mts_dG with range checks, and the size of its results -/
theorem mtsDGR_ok (hp0 : 0 < k.p) (hp1 : k.p ≤ 1) (hq1 : 1 ≤ k.q) (hq2 : k.q ≤ 2) {cE gI t : ℝ} (hc : Sz cE 10)
    (hg : Sz gI 15) (ht : Sz t 61) :
    k.mtsDGR dblLim cE gI t = some (k.mtsDG cE gI t) ∧ Sz (k.mtsDG cE gI t).2 117 ∧
      Sz ((k.mtsDG cE gI t).2 * t) 149 := by
  have hm : Sz (cE * gI) 25 := hc.mul hg
  have hd := k.dfac1_size hp0 hp1 (t := t) hm
  have hd' : Sz (k.dfac1 (cE * gI) t) 115 := by
    rcases lt_or_ge |t| 1 with h | h
    · exact hd.1 h
    · exact (hd.2 h).mono (by norm_num)
  have hP := k.pFunc_size hp0 hp1 ht
  have hQ : Sz (1 - k.pFunc t) 62 := (Sz.one 61).sub hP
  have sq : Sz k.q 1 := by unfold Sz; rw [abs_of_pos (by linarith)]; linarith
  have edef : k.mtsDG cE gI t = if 1 - k.pFunc t < idpTinySqrt then (-cE * 0, 0)
      else if k.qOne then (-cE * (1 - k.pFunc t), k.dfac1 (cE * gI) t)
      else (-cE * copysign (|1 - k.pFunc t| ^ k.q) (1 - k.pFunc t),
        k.dfac1 (cE * gI) t * k.q * |1 - k.pFunc t| ^ k.q / |1 - k.pFunc t|) := by
    simp only [mtsDG, dfac1]
  have esplit : ∀ {x : ℝ}, (|t| < 1 → Sz x 117) → (1 ≤ |t| → Sz x 88) → Sz x 117 ∧ Sz (x * t) 149 := by
    intro x h1 h2
    rcases lt_or_ge |t| 1 with h | h
    · refine ⟨h1 h, ((h1 h).mul (n := 0) ?_).mono (by norm_num)⟩
      unfold Sz; simpa using h.le
    · exact ⟨(h2 h).mono (by norm_num), (h2 h).mul ht⟩
  unfold mtsDGR
  rw [Lim.mul_ok hm (by norm_num)]
  simp only [Option.bind_eq_bind, Option.bind_some]
  rw [k.pFuncR_ok hp0 hp1 hm ht]
  simp only [Option.bind_some]
  rw [Lim.sub_ok hQ (by norm_num)]
  simp only [Option.bind_some]
  by_cases h1 : 1 - k.pFunc t < idpTinySqrt
  · rw [if_pos h1] at edef
    rw [if_pos h1, edef]
    have : Sz (-cE * 0) 0 := by rw [mul_zero]; exact Sz.zero 0
    rw [Lim.mul_ok this (by norm_num)]
    exact ⟨rfl, esplit (fun _ => Sz.zero _) (fun _ => Sz.zero _)⟩
  have hl : Lz (1 - k.pFunc t) 90 := by
    unfold Lz; exact (not_lt.1 h1).trans (le_abs_self _)
  have hq0 : 0 < 1 - k.pFunc t := idpTinySqrt_pos.trans_le (not_lt.1 h1)
  by_cases h2 : k.qOne = true
  · rw [if_neg h1, if_pos h2] at edef
    rw [if_neg h1, if_pos h2, edef]
    rw [Lim.mul_ok (hc.neg.mul hQ) (by norm_num)]
    exact ⟨rfl, esplit (fun h => (hd.1 h).mono (by norm_num)) (fun h => (hd.2 h).mono (by norm_num))⟩
  · rw [if_neg h1, if_neg h2] at edef
    rw [if_neg h1, if_neg h2, edef]
    have s1 : Sz (|1 - k.pFunc t| ^ k.q) 124 := hQ.abs.rpow2 (abs_nonneg _) (by linarith) hq2
    have hs : (|t| < 1 → Sz (|1 - k.pFunc t| ^ k.q / |1 - k.pFunc t|) 1 ∧ Sz (|1 - k.pFunc t| ^ k.q) 1) ∧
        (1 ≤ |t| → Sz (|1 - k.pFunc t| ^ k.q / |1 - k.pFunc t|) 62) := by
      have e : |1 - k.pFunc t| ^ k.q / |1 - k.pFunc t| = (1 - k.pFunc t) ^ (k.q - 1) := by
        rw [abs_of_pos hq0, rpow_div_self hq0]
      rw [e]
      refine ⟨fun h => ?_, fun _ => hQ.rpow hq0.le (by linarith) (by linarith)⟩
      have hPu := k.pFunc_unit hp0 h
      have h2' : 1 - k.pFunc t ≤ 2 := by
        unfold Sz at hPu; rw [pow_zero, abs_le] at hPu; linarith
      refine ⟨?_, ?_⟩
      · refine Sz.rpow hq0.le ?_ (by linarith) (by linarith)
        unfold Sz; rw [abs_of_pos hq0]; linarith
      · unfold Sz
        rw [abs_of_pos hq0, abs_of_nonneg (Real.rpow_nonneg hq0.le _)]
        calc (1 - k.pFunc t) ^ k.q ≤ 2 ^ k.q := Real.rpow_le_rpow hq0.le h2' (by linarith)
          _ ≤ 2 ^ (2 : ℝ) := Real.rpow_le_rpow_of_exponent_le (by norm_num) hq2
          _ ≤ 10 ^ 1 := by norm_num
    have s2 : Sz (k.dfac1 (cE * gI) t * k.q) 116 := hd'.mul sq
    have s3 : Sz (k.dfac1 (cE * gI) t * k.q * |1 - k.pFunc t| ^ k.q) 150 := by
      rcases lt_or_ge |t| 1 with h | h
      · exact (s2.mul (hs.1 h).2).mono (by norm_num)
      · exact (((hd.2 h).mul sq).mul s1).mono (by norm_num)
    have e4 : k.dfac1 (cE * gI) t * k.q * |1 - k.pFunc t| ^ k.q / |1 - k.pFunc t| =
        k.dfac1 (cE * gI) t * k.q * (|1 - k.pFunc t| ^ k.q / |1 - k.pFunc t|) := by ring
    have s4 : Sz (k.dfac1 (cE * gI) t * k.q * |1 - k.pFunc t| ^ k.q / |1 - k.pFunc t|) 117 ∧
        Sz (k.dfac1 (cE * gI) t * k.q * |1 - k.pFunc t| ^ k.q / |1 - k.pFunc t| * t) 149 := by
      refine esplit (fun h => ?_) (fun h => ?_)
      · rw [e4]; exact ((hd'.mul sq).mul (hs.1 h).1).mono (by norm_num)
      · rw [e4]; exact (((hd.2 h).mul sq).mul (hs.2 h)).mono (by norm_num)
    rw [Lim.pow_ok (abs_nonneg _) hl.abs (by norm_num) s1 (by norm_num)]
    simp only [Option.bind_some]
    rw [Lim.mul_ok s2 (by norm_num)]
    simp only [Option.bind_some]
    rw [Lim.mul_ok s3 (by norm_num)]
    simp only [Option.bind_some]
    rw [Lim.div_ok hl.abs (by norm_num) s4.1 (by norm_num)]
    simp only [Option.bind_some]
    rw [Lim.mul_ok (hc.neg.mul (s1.copysign (t := 1 - k.pFunc t))) (by norm_num)]
    exact ⟨rfl, s4⟩

/-- the drag limited part with range checks -/
theorem dragR_ok {gamR x : ℝ} (hR : 0 < gamR) (hRs : Sz gamR 15) (hRl : Lz gamR 15) (hD : Lz k.wrD 15) :
    k.dragR dblLim gamR x = some (k.drag gamR x) ∧
    ∀ r d, k.drag gamR x = some (r, d) → Sz r 15 ∧ Lz r 75 ∧ Sz d 30 ∧ 0 < r := by
  unfold dragR drag
  by_cases h1 : x < gamRatioMin
  · simp [if_pos h1]
  have hx : 0 < x := gamRatioMin_pos.trans_le (not_lt.1 h1)
  by_cases h2 : x < idpEpsSqrt
  · simp only [if_neg h1, if_pos h2]
    have hx1 : x ≤ 1 := h2.le.trans (by unfold idpEpsSqrt; norm_num)
    have sx : Sz x 0 := Sz.of_unit hx.le hx1
    have lx : Lz x 60 := by unfold Lz; rw [abs_of_pos hx]; exact not_lt.1 h1
    have s1 := hRs.mul sx
    have s2 : Sz (1 - x) 0 := Sz.of_unit (by linarith) (by linarith)
    have s3 := hRs.mul s2
    have s4 := s3.div hD
    constructor
    · rw [Lim.mul_ok s1 (by norm_num)]
      simp only [Option.bind_eq_bind, Option.bind_some]
      rw [Lim.sub_ok s2 (by norm_num)]
      simp only [Option.bind_some]
      rw [Lim.mul_ok s3 (by norm_num)]
      simp only [Option.bind_some]
      rw [Lim.div_ok hD (by norm_num) s4 (by norm_num)]
      rfl
    · rintro r d h
      simp only [Option.some.injEq, Prod.mk.injEq] at h
      obtain ⟨rfl, rfl⟩ := h
      exact ⟨s1, hRl.mul lx, s4, by positivity⟩
  · simp only [if_neg h1, if_neg h2]
    have he : Real.exp (-x) ≤ 1 := Real.exp_le_one_iff.2 (by linarith)
    have hep := Real.exp_pos (-x)
    have h8 : 1 / 10 ^ 8 ≤ x := not_lt.1 h2
    have hlow : 1 / 10 ^ 9 ≤ 1 - Real.exp (-x) := by
      have h3 : Real.exp (-x) ≤ Real.exp (-(1 / 10 ^ 8)) := Real.exp_le_exp.2 (by linarith)
      have h4 : Real.exp (-(1 / 10 ^ 8 : ℝ)) ≤ 1 / (1 + 1 / 10 ^ 8) := by
        rw [Real.exp_neg, ← one_div]
        exact one_div_le_one_div_of_le (by positivity) (by linarith [Real.add_one_le_exp (1 / 10 ^ 8 : ℝ)])
      have h5 : (1 : ℝ) / (1 + 1 / 10 ^ 8) ≤ 1 - 1 / 10 ^ 9 := by norm_num
      linarith
    have hpos : 0 < 1 - Real.exp (-x) := lt_of_lt_of_le (by positivity) hlow
    have s0 : Sz (Real.exp (-x)) 0 := Sz.of_unit hep.le he
    have s1 : Sz (1 - Real.exp (-x)) 0 := Sz.of_unit hpos.le (by linarith)
    have l1 : Lz (1 - Real.exp (-x)) 9 := by unfold Lz; rwa [abs_of_pos hpos]
    have s2 := hRs.mul s1
    have s3 := hRs.mul s0
    have s4 := s3.div hD
    constructor
    · rw [Lim.exp_ok s0 (by norm_num)]
      simp only [Option.bind_eq_bind, Option.bind_some]
      rw [Lim.sub_ok s1 (by norm_num)]
      simp only [Option.bind_some]
      rw [Lim.mul_ok s2 (by norm_num)]
      simp only [Option.bind_some]
      rw [Lim.mul_ok s3 (by norm_num)]
      simp only [Option.bind_some]
      rw [Lim.div_ok hD (by norm_num) s4 (by norm_num)]
      rfl
    · rintro r d h
      simp only [Option.some.injEq, Prod.mk.injEq] at h
      obtain ⟨rfl, rfl⟩ := h
      exact ⟨s2, (hRl.mul l1).mono (by norm_num), s4, mul_pos hR hpos⟩

theorem exp_cut_lower {x : ℝ} (h : lnGamRatioMin ≤ x) : Lz (Real.exp x) 61 := by
  unfold Lz
  rw [abs_of_pos (Real.exp_pos x)]
  have h1 : Real.exp (-139) ≤ Real.exp x := by
    refine Real.exp_le_exp.2 (le_trans ?_ h)
    unfold lnGamRatioMin; norm_num
  refine le_trans ?_ h1
  rw [Real.exp_neg, ← one_div]
  refine one_div_le_one_div_of_le (Real.exp_pos _) ?_
  have h2 : Real.exp 139 = Real.exp 1 ^ 139 := by rw [← Real.exp_nat_mul]; norm_num
  rw [h2]
  calc Real.exp 1 ^ 139 ≤ 2.7182818286 ^ 139 := pow_le_pow_left₀ (Real.exp_pos 1).le Real.exp_one_lt_d9.le 139
    _ ≤ 10 ^ 61 := by norm_num

/-- the thermally activated part with range checks -/
theorem thermalR_ok (hp0 : 0 < k.p) (hp1 : k.p ≤ 1) (hq1 : 1 ≤ k.q) (hq2 : k.q ≤ 2) {gamW cE gI gAth tau : ℝ}
    (hWs : Sz gamW 15) (hWl : Lz gamW 15) (hc0 : 0 ≤ cE) (hc : Sz cE 10)
    (hg : Sz gI 15) (hA : Sz gAth 15) (hT : Sz tau 250) (ht : Sz ((|tau| - gAth) * gI) 60) :
    k.thermalR dblLim gamW cE gI gAth tau = some (k.thermal gamW cE gI gAth tau) ∧
    ∀ gw dgw dgwg, k.thermal gamW cE gI gAth tau = some (gw, dgw, dgwg) →
      Sz gw 16 ∧ Lz gw 76 ∧ Sz dgw 133 ∧ Sz dgwg 165 := by
  have sd : Sz (|tau| - gAth) 251 := hT.abs.sub (hA.mono (by norm_num))
  have sdm : Sz (-|tau| - gAth) 251 := hT.abs.neg.sub (hA.mono (by norm_num))
  have stm : Sz ((-|tau| - gAth) * gI) 61 := by
    have e : (-|tau| - gAth) * gI = -((|tau| - gAth) * gI) - 2 * (gAth * gI) := by ring
    rw [e]
    have s2 : Sz (2 : ℝ) 1 := by unfold Sz; norm_num
    exact ht.neg.sub ((s2.mul (hA.mul hg)).mono (by norm_num))
  obtain ⟨m1, m2, m3⟩ := k.mtsDGR_ok hp0 hp1 hq1 hq2 hc hg (ht.mono (by norm_num : 60 ≤ 61))
  obtain ⟨n1, n2, n3⟩ := k.mtsDGR_ok hp0 hp1 hq1 hq2 hc hg stm
  have hme := k.mts_nonpos hc0 gI ((|tau| - gAth) * gI)
  have hne := k.mts_nonpos hc0 gI ((-|tau| - gAth) * gI)
  have edef : k.thermal gamW cE gI gAth tau =
      if (k.mtsDG cE gI ((|tau| - gAth) * gI)).1 < lnGamRatioMin then none
      else if lnGamRatioMin < (k.mtsDG cE gI ((-|tau| - gAth) * gI)).1 then
        if |(gamW * Real.exp (k.mtsDG cE gI ((|tau| - gAth) * gI)).1 -
            gamW * Real.exp (k.mtsDG cE gI ((-|tau| - gAth) * gI)).1) / gamW| < gamRatioMin then none
        else some (gamW * Real.exp (k.mtsDG cE gI ((|tau| - gAth) * gI)).1 -
            gamW * Real.exp (k.mtsDG cE gI ((-|tau| - gAth) * gI)).1,
          (k.mtsDG cE gI ((|tau| - gAth) * gI)).2 * (gamW * Real.exp (k.mtsDG cE gI ((|tau| - gAth) * gI)).1) -
            (k.mtsDG cE gI ((-|tau| - gAth) * gI)).2 * (gamW * Real.exp (k.mtsDG cE gI ((-|tau| - gAth) * gI)).1),
          (k.mtsDG cE gI ((|tau| - gAth) * gI)).2 * (gamW * Real.exp (k.mtsDG cE gI ((|tau| - gAth) * gI)).1) *
              ((|tau| - gAth) * gI) -
            (k.mtsDG cE gI ((-|tau| - gAth) * gI)).2 * (gamW * Real.exp (k.mtsDG cE gI ((-|tau| - gAth) * gI)).1) *
              ((-|tau| - gAth) * gI))
      else some (gamW * Real.exp (k.mtsDG cE gI ((|tau| - gAth) * gI)).1,
        (k.mtsDG cE gI ((|tau| - gAth) * gI)).2 * (gamW * Real.exp (k.mtsDG cE gI ((|tau| - gAth) * gI)).1),
        (k.mtsDG cE gI ((|tau| - gAth) * gI)).2 * (gamW * Real.exp (k.mtsDG cE gI ((|tau| - gAth) * gI)).1) *
          ((|tau| - gAth) * gI)) := rfl
  generalize k.thermal gamW cE gI gAth tau = T at *
  generalize hm : k.mtsDG cE gI ((|tau| - gAth) * gI) = m at *
  generalize hmm : k.mtsDG cE gI ((-|tau| - gAth) * gI) = mm at *
  have start : k.thermalR dblLim gamW cE gI gAth tau = (if m.1 < lnGamRatioMin then some none else do
    let e ← dblLim.exp m.1
    let gw ← dblLim.mul gamW e
    let dgw ← dblLim.mul m.2 gw
    let dgwg ← dblLim.mul dgw ((|tau| - gAth) * gI)
    let dm ← dblLim.sub (-|tau|) gAth
    let tFracM ← dblLim.mul dm gI
    let mm ← k.mtsDGR dblLim cE gI tFracM
    if lnGamRatioMin < mm.1 then
      let em ← dblLim.exp mm.1
      let gwm ← dblLim.mul gamW em
      let gw' ← dblLim.sub gw gwm
      let contrib ← dblLim.mul mm.2 gwm
      let dgw' ← dblLim.sub dgw contrib
      let ct ← dblLim.mul contrib tFracM
      let dgwg' ← dblLim.sub dgwg ct
      let r ← dblLim.div gw' gamW
      if |r| < gamRatioMin then return none
      else return some (gw', dgw', dgwg')
    else return some (gw, dgw, dgwg)) := by
    unfold thermalR
    refine (bind_of (Lim.sub_ok sd (by norm_num))).trans ?_
    refine (bind_of (Lim.mul_ok ht (by norm_num))).trans ?_
    exact bind_of m1
  by_cases h1 : m.1 < lnGamRatioMin
  · rw [if_pos h1] at edef start
    subst edef
    exact ⟨start, by rintro _ _ _ h; cases h⟩
  rw [if_neg h1] at edef start
  rw [start]
  clear start
  have se : Sz (Real.exp m.1) 0 := Sz.of_unit (Real.exp_pos _).le (Real.exp_le_one_iff.2 hme)
  have le1 := exp_cut_lower (not_lt.1 h1)
  have s1 := hWs.mul se
  have s2 := m2.mul s1
  have s3 : Sz (m.2 * (gamW * Real.exp m.1) * ((|tau| - gAth) * gI)) 164 := by
    have e : m.2 * (gamW * Real.exp m.1) * ((|tau| - gAth) * gI) =
        m.2 * ((|tau| - gAth) * gI) * (gamW * Real.exp m.1) := by ring
    rw [e]; exact (m3.mul s1).mono (by norm_num)
  by_cases h2 : lnGamRatioMin < mm.1
  · rw [if_pos h2] at edef
    have sem : Sz (Real.exp mm.1) 0 := Sz.of_unit (Real.exp_pos _).le (Real.exp_le_one_iff.2 hne)
    have t1 := hWs.mul sem
    have t2 := s1.sub t1
    have t3 := n2.mul t1
    have t4 := s2.sub t3
    have t5 : Sz (mm.2 * (gamW * Real.exp mm.1) * ((-|tau| - gAth) * gI)) 164 := by
      have e : mm.2 * (gamW * Real.exp mm.1) * ((-|tau| - gAth) * gI) =
          mm.2 * ((-|tau| - gAth) * gI) * (gamW * Real.exp mm.1) := by ring
      rw [e]; exact (n3.mul t1).mono (by norm_num)
    have t6 := s3.sub t5
    have t7 := t2.div hWl
    constructor
    · refine (bind_of (Lim.exp_ok se (by norm_num))).trans ?_
      refine (bind_of (Lim.mul_ok s1 (by norm_num))).trans ?_
      refine (bind_of (Lim.mul_ok s2 (by norm_num))).trans ?_
      refine (bind_of (Lim.mul_ok s3 (by norm_num))).trans ?_
      refine (bind_of (Lim.sub_ok sdm (by norm_num))).trans ?_
      refine (bind_of (Lim.mul_ok stm (by norm_num))).trans ?_
      refine (bind_of n1).trans ?_
      refine (if_pos h2).trans ?_
      refine (bind_of (Lim.exp_ok sem (by norm_num))).trans ?_
      refine (bind_of (Lim.mul_ok t1 (by norm_num))).trans ?_
      refine (bind_of (Lim.sub_ok t2 (by norm_num))).trans ?_
      refine (bind_of (Lim.mul_ok t3 (by norm_num))).trans ?_
      refine (bind_of (Lim.sub_ok t4 (by norm_num))).trans ?_
      refine (bind_of (Lim.mul_ok t5 (by norm_num))).trans ?_
      refine (bind_of (Lim.sub_ok t6 (by norm_num))).trans ?_
      refine (bind_of (Lim.div_ok hWl (by norm_num) t7 (by norm_num))).trans ?_
      rw [edef]
      split_ifs <;> rfl
    · rintro gw dgw dgwg h
      rw [edef] at h
      split_ifs at h with h3
      simp only [Option.some.injEq, Prod.mk.injEq] at h
      obtain ⟨rfl, rfl, rfl⟩ := h
      refine ⟨t2.mono (by norm_num), ?_, t4.mono (by norm_num), t6.mono (by norm_num)⟩
      have hl : Lz ((gamW * Real.exp m.1 - gamW * Real.exp mm.1) / gamW) 60 := not_lt.1 h3
      have := hl.mul hWl
      rw [div_mul_cancel₀ _ hWl.ne] at this
      exact this.mono (by norm_num)
  · rw [if_neg h2] at edef
    constructor
    · refine (bind_of (Lim.exp_ok se (by norm_num))).trans ?_
      refine (bind_of (Lim.mul_ok s1 (by norm_num))).trans ?_
      refine (bind_of (Lim.mul_ok s2 (by norm_num))).trans ?_
      refine (bind_of (Lim.mul_ok s3 (by norm_num))).trans ?_
      refine (bind_of (Lim.sub_ok sdm (by norm_num))).trans ?_
      refine (bind_of (Lim.mul_ok stm (by norm_num))).trans ?_
      refine (bind_of n1).trans ?_
      refine (if_neg h2).trans ?_
      rw [edef]; rfl
    · rintro gw dgw dgwg h
      rw [edef] at h
      simp only [Option.some.injEq, Prod.mk.injEq] at h
      obtain ⟨rfl, rfl, rfl⟩ := h
      exact ⟨s1.mono (by norm_num), (hWl.mul le1).mono (by norm_num), s2.mono (by norm_num), s3.mono (by norm_num)⟩

/-- the power-law part of the model, as one function -/
noncomputable def plaw (gamW xn xnn tMin gI at0 : ℝ) (w : ℝ × ℝ × ℝ) : ℝ × ℝ × ℝ :=
  if tMin < at0 then
    (w.1 + gamW * 10 * Real.exp (xn * Real.log at0) * at0,
     w.2.1 + gamW * 10 * Real.exp (xn * Real.log at0) * xnn * gI,
     w.2.2 + gamW * 10 * Real.exp (xn * Real.log at0) * xnn * gI * at0)
  else w

theorem plawR_ok {gamW xm gI at0 : ℝ} (h6 : 1 / 10 ^ 6 ≤ xm) (h1 : xm ≤ 1) (hW : 0 < gamW) (hWs : Sz gamW 15)
    (hg : Sz gI 15) (h0 : 0 ≤ at0) (hmax : at0 ≤ gamRatioOvf ^ xm) {w : ℝ × ℝ × ℝ} (hw0 : 0 < w.1)
    (w1 : Sz w.1 16) (w2 : Lz w.1 76) (w3 : Sz w.2.1 133) (w4 : Sz w.2.2 165) :
    plawR dblLim gamW (1 / xm - 1) (1 / xm) (gamRatioMin ^ xm) gI at0 w =
      some (plaw gamW (1 / xm - 1) (1 / xm) (gamRatioMin ^ xm) gI at0 w) ∧
    0 < (plaw gamW (1 / xm - 1) (1 / xm) (gamRatioMin ^ xm) gI at0 w).1 ∧
    Sz (plaw gamW (1 / xm - 1) (1 / xm) (gamRatioMin ^ xm) gI at0 w).1 137 ∧
    Lz (plaw gamW (1 / xm - 1) (1 / xm) (gamRatioMin ^ xm) gI at0 w).1 76 ∧
    Sz (plaw gamW (1 / xm - 1) (1 / xm) (gamRatioMin ^ xm) gI at0 w).2.1 134 ∧
    Sz (plaw gamW (1 / xm - 1) (1 / xm) (gamRatioMin ^ xm) gI at0 w).2.2 166 := by
  have hx0 : 0 < xm := lt_of_lt_of_le (by positivity) h6
  unfold plawR plaw
  by_cases ha : gamRatioMin ^ xm < at0
  · simp only [if_pos ha]
    have hlo : 1 / 10 ^ 60 ≤ at0 := (tMin_size hx0.le h1).trans ha.le
    have hpos : 0 < at0 := lt_of_lt_of_le (by positivity) hlo
    have hL : Lz at0 60 := by unfold Lz; rwa [abs_of_pos hpos]
    have hS : Sz at0 60 := (tMax_size hx0.le h1).of_nonneg hpos.le hmax
    obtain ⟨b1, b2, b3⟩ := blog_size h6 h1 hpos hS hL
    have b4 := plaw_size hx0 h1 hpos hmax
    have s10 : Sz (10 : ℝ) 1 := by unfold Sz; norm_num
    have c1 := hWs.mul s10
    have c2 := c1.mul b4
    have c3 := c2.mul hS
    have c4 : Sz (w.1 + gamW * 10 * Real.exp ((1 / xm - 1) * Real.log at0) * at0) 137 :=
      (w1.mono (by norm_num)).add c3
    have c5 := c2.mul b3
    have c6 := c5.mul hg
    have c7 : Sz (w.2.1 + gamW * 10 * Real.exp ((1 / xm - 1) * Real.log at0) * (1 / xm) * gI) 134 :=
      w3.add (c6.mono (by norm_num))
    have c8 := c6.mul hS
    have c9 : Sz (w.2.2 + gamW * 10 * Real.exp ((1 / xm - 1) * Real.log at0) * (1 / xm) * gI * at0) 166 :=
      w4.add (c8.mono (by norm_num))
    have hge : w.1 ≤ w.1 + gamW * 10 * Real.exp ((1 / xm - 1) * Real.log at0) * at0 := by
      have : 0 < gamW * 10 * Real.exp ((1 / xm - 1) * Real.log at0) * at0 := by positivity
      linarith
    refine ⟨?_, hw0.trans_le hge, c4, w2.of_le hw0.le hge, c7, c9⟩
    rw [Lim.log_ok hpos.le hL (by norm_num) b2 (by norm_num)]
    simp only [Option.bind_eq_bind, Option.bind_some]
    rw [Lim.mul_ok b1 (by norm_num), Lim.mul_ok c1 (by norm_num)]
    simp only [Option.bind_some]
    rw [Lim.exp_ok b4 (by norm_num)]
    simp only [Option.bind_some]
    rw [Lim.mul_ok c2 (by norm_num)]
    simp only [Option.bind_some]
    rw [Lim.mul_ok c3 (by norm_num)]
    simp only [Option.bind_some]
    rw [Lim.add_ok c4 (by norm_num), Lim.mul_ok c5 (by norm_num)]
    simp only [Option.bind_some]
    rw [Lim.mul_ok c6 (by norm_num)]
    simp only [Option.bind_some]
    rw [Lim.add_ok c7 (by norm_num), Lim.mul_ok c8 (by norm_num)]
    simp only [Option.bind_some]
    rw [Lim.add_ok c9 (by norm_num)]
    rfl
  · simp only [if_neg ha]
    exact ⟨trivial, hw0, w1.mono (by norm_num), w2, w3.mono (by norm_num), w4.mono (by norm_num)⟩

/-- the combination in series of the model, as one function -/
noncomputable def series (tau r d : ℝ) (w : ℝ × ℝ × ℝ) : Gd :=
  let gdot := 1 / (1 / w.1 + 1 / r)
  let gdrdiv2 := 1 / (r * r)
  let gdwdiv2 := 1 / (w.1 * w.1)
  let temp1 := gdot * copysign gdot tau * gdwdiv2
  let temp2 := gdot * copysign gdot tau * gdrdiv2
  { gdot := copysign gdot tau
    dtau := gdot * gdot * (w.2.1 * gdwdiv2 + d * gdrdiv2)
    dg := if k.withGA then -temp2 * d + -temp1 * w.2.1 else -temp1 * w.2.2 }

theorem seriesR_ok {tau r d : ℝ} {w : ℝ × ℝ × ℝ} (hw0 : 0 < w.1) (w1 : Sz w.1 137) (w2 : Lz w.1 76)
    (w3 : Sz w.2.1 134) (w4 : Sz w.2.2 166) (hr : 0 < r) (r1 : Sz r 15) (r2 : Lz r 75) (d1 : Sz d 30) :
    k.seriesR dblLim tau r d w = some (k.series tau r d w) := by
  have iw : Sz (1 / w.1) 76 := ((Sz.one 0).div w2).mono (by norm_num)
  have ir : Sz (1 / r) 76 := ((Sz.one 0).div r2).mono (by norm_num)
  have s := iw.add ir
  have hiw : 0 < 1 / w.1 := by positivity
  have hir : 0 < 1 / r := by positivity
  have ls : Lz (1 / w.1 + 1 / r) 15 := (Lz.inv r1 hr.ne').of_le hir.le (by linarith)
  have g : Sz (1 / (1 / w.1 + 1 / r)) 15 := ((Sz.one 0).div ls).mono (by norm_num)
  have hG : 0 < 1 / (1 / w.1 + 1 / r) := by positivity
  have hGw : 1 / (1 / w.1 + 1 / r) ≤ w.1 := by
    rw [div_le_iff₀ (by positivity)]
    have : w.1 * (1 / w.1) = 1 := mul_one_div_cancel hw0.ne'
    nlinarith
  have hGr : 1 / (1 / w.1 + 1 / r) ≤ r := by
    rw [div_le_iff₀ (by positivity)]
    have : r * (1 / r) = 1 := mul_one_div_cancel hr.ne'
    nlinarith
  have unit : ∀ x : ℝ, 0 < x → 1 / (1 / w.1 + 1 / r) ≤ x →
      Sz (1 / (1 / w.1 + 1 / r) * (1 / (1 / w.1 + 1 / r)) * (1 / (x * x))) 0 := by
    intro x hx hle
    refine Sz.of_unit (by positivity) ?_
    rw [mul_one_div, div_le_one (by positivity)]
    exact mul_le_mul hle hle hG.le hx.le
  have uw := unit w.1 hw0 hGw
  have ur := unit r hr hGr
  have es : k.series tau r d w =
      { gdot := copysign (1 / (1 / w.1 + 1 / r)) tau
        dtau := 1 / (1 / w.1 + 1 / r) * (1 / (1 / w.1 + 1 / r)) * (w.2.1 * (1 / (w.1 * w.1)) + d * (1 / (r * r)))
        dg := if k.withGA then
            -(1 / (1 / w.1 + 1 / r) * copysign (1 / (1 / w.1 + 1 / r)) tau * (1 / (r * r))) * d +
              -(1 / (1 / w.1 + 1 / r) * copysign (1 / (1 / w.1 + 1 / r)) tau * (1 / (w.1 * w.1))) * w.2.1
          else -(1 / (1 / w.1 + 1 / r) * copysign (1 / (1 / w.1 + 1 / r)) tau * (1 / (w.1 * w.1))) * w.2.2 } := rfl
  rw [es]
  clear es
  generalize hgd : 1 / (1 / w.1 + 1 / r) = G at *
  have rr := r1.mul r1
  have rr' : Sz (1 / (r * r)) 150 := ((Sz.one 0).div (r2.mul r2)).mono (by norm_num)
  have ww := w1.mul w1
  have ww' : Sz (1 / (w.1 * w.1)) 152 := ((Sz.one 0).div (w2.mul w2)).mono (by norm_num)
  have gg := g.mul g
  have a := w3.mul ww'
  have b := d1.mul rr'
  have ab : Sz (w.2.1 * (1 / (w.1 * w.1)) + d * (1 / (r * r))) 287 := a.add (b.mono (by norm_num))
  have dt : Sz (G * G * (w.2.1 * (1 / (w.1 * w.1)) + d * (1 / (r * r)))) 135 := by
    have e : G * G * (w.2.1 * (1 / (w.1 * w.1)) + d * (1 / (r * r))) =
        (G * G * (1 / (w.1 * w.1))) * w.2.1 + (G * G * (1 / (r * r))) * d := by ring
    rw [e]
    exact ((uw.mul w3).mono (by norm_num)).add ((ur.mul d1).mono (by norm_num))
  have gs := g.mul (g.copysign (t := tau))
  have habs : |G * copysign G tau| = |G * G| := by rw [abs_mul, abs_mul, abs_copysign]
  have t1 : Sz (G * copysign G tau * (1 / (w.1 * w.1))) 0 := by
    unfold Sz at *; rw [abs_mul, habs, ← abs_mul]; exact uw
  have t2 : Sz (G * copysign G tau * (1 / (r * r))) 0 := by
    unfold Sz at *; rw [abs_mul, habs, ← abs_mul]; exact ur
  unfold seriesR
  refine (bind_of (Lim.div_ok w2 (by norm_num) iw (by norm_num))).trans ?_
  refine (bind_of (Lim.div_ok r2 (by norm_num) ir (by norm_num))).trans ?_
  refine (bind_of (Lim.add_ok s (by norm_num))).trans ?_
  refine (bind_of ((Lim.div_ok ls (by norm_num) (hgd.symm ▸ g) (by norm_num)).trans (congrArg some hgd))).trans ?_
  refine (bind_of (Lim.mul_ok rr (by norm_num))).trans ?_
  refine (bind_of (Lim.div_ok (r2.mul r2) (by norm_num) rr' (by norm_num))).trans ?_
  refine (bind_of (Lim.mul_ok ww (by norm_num))).trans ?_
  refine (bind_of (Lim.div_ok (w2.mul w2) (by norm_num) ww' (by norm_num))).trans ?_
  refine (bind_of (Lim.mul_ok gg (by norm_num))).trans ?_
  refine (bind_of (Lim.mul_ok a (by norm_num))).trans ?_
  refine (bind_of (Lim.mul_ok b (by norm_num))).trans ?_
  refine (bind_of (Lim.add_ok ab (by norm_num))).trans ?_
  refine (bind_of (Lim.mul_ok dt (by norm_num))).trans ?_
  refine (bind_of (Lim.mul_ok gs (by norm_num))).trans ?_
  refine (bind_of (Lim.mul_ok t1 (by norm_num))).trans ?_
  refine (bind_of (Lim.mul_ok t2 (by norm_num))).trans ?_
  by_cases hga : k.withGA = true
  · have u1 := t1.neg.mul w3
    have u2 := t2.neg.mul d1
    have u3 := (u2.mono (by norm_num : 0 + 30 ≤ 0 + 134)).add u1
    rw [if_pos hga, if_pos hga]
    refine (bind_of (Lim.mul_ok u1 (by norm_num))).trans ?_
    refine (bind_of (Lim.mul_ok u2 (by norm_num))).trans ?_
    refine (bind_of (Lim.add_ok u3 (by norm_num))).trans ?_
    rfl
  · have u1 := t1.neg.mul w4
    rw [if_neg hga, if_neg hga]
    refine (bind_of (Lim.mul_ok u1 (by norm_num))).trans ?_
    rfl

/-- evalGdot with range checks -/
theorem evalGdotSelR_ok (hp0 : 0 < k.p) (hp1 : k.p ≤ 1) (hq1 : 1 ≤ k.q) (hq2 : k.q ≤ 2)
    {gamW gamR g ct xm tau : ℝ} (hW : 0 < gamW) (hWs : Sz gamW 15) (hWl : Lz gamW 15) (hR : 0 < gamR)
    (hRs : Sz gamR 15) (hRl : Lz gamR 15) (hD0 : 0 < k.wrD) (hD : Lz k.wrD 15) (hc0 : 0 ≤ ct * k.muRef)
    (hc : Sz (ct * k.muRef) 10) (hb : 0 < if k.withGA then k.tauA else g)
    (hbl : Lz (if k.withGA then k.tauA else g) 15) (hA : Sz (if k.withGA then g else k.tauA) 15)
    (h6 : 1 / 10 ^ 6 ≤ xm) (h1 : xm ≤ 1) (hT : Sz tau 250) :
    k.evalGdotSelR dblLim gamW gamR g ct (1 / xm - 1) (1 / xm) (gamRatioMin ^ xm) (gamRatioOvf ^ xm) tau =
      some (k.evalGdotSel gamW gamR g ct (1 / xm - 1) (1 / xm) (gamRatioMin ^ xm) (gamRatioOvf ^ xm) tau) := by
  have hx0 : 0 < xm := lt_of_lt_of_le (by positivity) h6
  have eI : (if k.withGA then 1 / k.tauA else 1 / g) = 1 / (if k.withGA then k.tauA else g) := by
    split_ifs <;> rfl
  unfold evalGdotSelR evalGdotSel
  simp only [eI]
  generalize (if k.withGA then k.tauA else g) = gB at *
  generalize (if k.withGA then g else k.tauA) = gAth at *
  by_cases h0 : k.withGA = false ∧ tau = 0
  · simp only [if_pos h0]; rfl
  simp only [if_neg h0]
  have sI : Sz (1 / gB) 15 := ((Sz.one 0).div hbl).mono (by norm_num)
  have sd : Sz (|tau| - gAth) 251 := hT.abs.sub (hA.mono (by norm_num))
  have sm : Sz (max 0 (|tau| - gAth)) 251 := by
    refine sd.le ?_
    rw [abs_of_nonneg (le_max_left _ _)]
    exact max_le (abs_nonneg _) (le_abs_self _)
  have sa := sm.mul sI
  have sx := sd.div hD
  obtain ⟨hdr, hds⟩ := k.dragR_ok (x := (|tau| - gAth) / k.wrD) hR hRs hRl hD
  rw [Lim.div_ok hbl (by norm_num) sI (by norm_num)]
  simp only [Option.bind_eq_bind, Option.bind_some]
  rw [Lim.sub_ok sd (by norm_num)]
  simp only [Option.bind_some]
  rw [Lim.mul_ok sa (by norm_num), Lim.div_ok hD (by norm_num) sx (by norm_num)]
  simp only [Option.bind_some]
  rw [hdr]
  simp only [Option.bind_some]
  generalize hdd : k.drag gamR ((|tau| - gAth) / k.wrD) = dd at *
  cases dd with
  | none => rfl
  | some rd =>
    obtain ⟨r, d⟩ := rd
    obtain ⟨r1, r2, d1, hr⟩ := hds r d rfl
    obtain ⟨hx, -⟩ := k.drag_some hR hdd
    have hpos : 0 < |tau| - gAth := by
      have := gamRatioMin_pos.trans_le hx
      rwa [lt_div_iff₀ hD0, zero_mul] at this
    have ha0 : 0 ≤ max 0 (|tau| - gAth) * (1 / gB) := mul_nonneg (le_max_left _ _) (by positivity)
    have ea : max 0 (|tau| - gAth) * (1 / gB) = (|tau| - gAth) * (1 / gB) := by rw [max_eq_right hpos.le]
    simp only
    by_cases hm : gamRatioOvf ^ xm < max 0 (|tau| - gAth) * (1 / gB)
    · simp only [if_pos hm]; rfl
    · simp only [if_neg hm]
      rw [Lim.mul_ok hc (by norm_num)]
      simp only [Option.bind_some]
      have ht : Sz ((|tau| - gAth) * (1 / gB)) 60 := by
        rw [← ea]; exact (tMax_size hx0.le h1).of_nonneg ha0 (not_lt.1 hm)
      obtain ⟨hth, hts⟩ := k.thermalR_ok hp0 hp1 hq1 hq2 hWs hWl hc0 hc sI hA hT ht
      rw [hth]
      simp only [Option.bind_some]
      generalize htt : k.thermal gamW (ct * k.muRef) (1 / gB) gAth tau = tt at *
      cases tt with
      | none => rfl
      | some w =>
        obtain ⟨gw, dgw, dgwg⟩ := w
        obtain ⟨w1, w2, w3, w4⟩ := hts gw dgw dgwg rfl
        have hw0 : 0 < gw := k.thermal_pos hW hc0 (by positivity) hp0 (by linarith) htt
        obtain ⟨p0, p1, p2, p3, p4, p5⟩ := plawR_ok (w := (gw, dgw, dgwg)) h6 h1 hW hWs sI ha0 (not_lt.1 hm)
          hw0 w1 w2 w3 w4
        simp only
        rw [p0]
        simp only [Option.bind_some]
        rw [k.seriesR_ok p1 p2 p3 p4 p5 hr r1 r2 d1]
        unfold series plaw
        by_cases hmin : gamRatioMin ^ xm < max 0 (|tau| - gAth) * (1 / gB)
        · simp only [if_pos hmin]
        · simp only [if_neg hmin]

end KMBalD
end Ecm
