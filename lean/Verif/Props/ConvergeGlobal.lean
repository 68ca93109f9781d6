import Verif.Lemmas.ConvergeGlobal

/-! C73 for the power law with saturation hardening, without assumptions on the computed states. -/

namespace Ecm.Props
open Ecm Spec Matrix
variable {n nH : ℕ}

/-- **C73, power law with saturation hardening, without assumptions on the computed states.**  For a cubic
    crystal with stable elasticity, power-law kinetics and hardening towards a constant saturation strength,
    the updates converge with first order in the time step to the solution of the rate equations that starts
    near the stored state.  That computed and exact states stay within the bounds needed is part of the
    conclusion: it follows from the dissipation of the slip law and from the relaxation of the strength. -/
theorem C73_voce_bounded (k : Voce) (hk : k.nonlinear = false) (hx : k.xms = 0) (hm : 0 < k.xm) (hm1 : k.xm ≤ 1)
    (hw : 0 < k.gamW) (hw1 : k.gamW ≤ 10 ^ 60) (hθ : 0 ≤ k.h0) {c11 c12 c44 : ℝ} (hc : c12 < c11 ∧ 0 < c44)
    {m s : Fin n → V3} (hms : ∀ i, dot (m i) (s i) = 0) {D : ℝ → T3} {w : ℝ → V3} {a : ℝ → ℝ}
    {T e0 dmax amax b g0 g1 : ℝ} (hT : 0 < T) (hD : ∀ t ∈ Set.Icc 0 T, IsDev (D t))
    (hD1 : ∀ i j, LipOn (fun t => D t i j) (Set.Icc 0 T)) (hwl : ∀ i, LipOn (fun t => w t i) (Set.Icc 0 T))
    (ha : LipOn a (Set.Icc 0 T)) (ha0 : ∀ t ∈ Set.Icc 0 T, 0 < a t)
    (hd : ∀ t ∈ Set.Icc 0 T, frob (D t) ≤ dmax) (ham : ∀ t ∈ Set.Icc 0 T, a t ≤ amax)
    (hg0 : 0 < g0) (hg1 : 1 ≤ g1) (hg2 : 2 * g1 ≤ 10 ^ 10) (hs : g0 ≤ k.taus0 ∧ k.taus0 ≤ g1)
    (hb : ShearAtMost (.cubic c11 c12 c44) m s a T (strainBound c11 c12 c44 e0 amax dmax k.gamW T) b)
    (hbt : b ≤ k.tMax * (g0 / 2)) :
    ∃ C, 0 ≤ C ∧ ∃ N0 : ℕ, ∀ N ≥ N0, ∀ (S : Solver 1) (eos : Eos), S.Sound →
      ∀ tol δ : ℝ, 0 ≤ tol → tol ≤ 1 → N * tol ≤ 10 ^ 6 → 4 * N * g1 ≤ 10 ^ 10 * g0 →
      ∀ t : Trajectory { geom := slipPQ m s, kin := k.kin S n, el := .cubic c11 c12 c44, eos := eos } N,
      Follows t D w a T tol → dot (histOf (t.m 0)).q (histOf (t.m 0)).q = 1 →
      (∀ i, (histOf (t.m 0)).gdot i = slipRates (.cubic c11 c12 c44) m s (powerLaw k n) (a 0)
        (vecdToSymm (histOf (t.m 0)).e) (histOf (t.m 0)).h i) →
      energyNorm (.cubic c11 c12 c44) (vecdToSymm (histOf (t.m 0)).e) ≤ e0 →
      (histOf (t.m 0)).h ∈ strengths g0 g1 →
      ∀ E R h, CrystalMotion (.cubic c11 c12 c44) m s (powerLaw k n) (saturation k n) D w a T E R h →
      energyNorm (.cubic c11 c12 c44) (E 0) ≤ e0 → h 0 ∈ strengths g0 g1 →
      Near (histOf (t.m 0)) (E 0) (R 0) (h 0) δ →
      ∀ k' < N, Near (histOf (t.m' k')) (E (T / N * (k' + 1 : ℕ))) (R (T / N * (k' + 1 : ℕ)))
        (h (T / N * (k' + 1 : ℕ)))
        (C * (δ + T / N + tol + 1 / 10 ^ 60 * k.gamW
          + N * (tol / 10 ^ 6 + 2 * g1 / 10 ^ 10 + 1 / 10 ^ 88))) := by
  obtain ⟨C, C0, N0, hC⟩ := C73_voce (n := n) k hk hx hm hm1 hw hw1 (c11 := c11) (c12 := c12) (c44 := c44) hms hT hD hD1
    hwl ha ha0 (half_pos hg0) (by linarith : 1 ≤ 2 * g1) hg2 hb hbt
  have h0 : (0:ℝ) ∈ Set.Icc 0 T := ⟨le_rfl, hT.le⟩
  have hd0 : 0 ≤ dmax := (Real.sqrt_nonneg _).trans (hd 0 h0)
  have ham0 : 0 ≤ amax := (ha0 0 h0).le.trans (ham 0 h0)
  have hmin : 0 < min (c11 - c12) (2 * c44) := lt_min (by linarith [hc.1]) (by linarith [hc.2])
  have hwide : ∀ {x : Vec 1}, x ∈ strengths g0 g1 → x ∈ strengths (g0 / 2) (2 * g1) := fun hx =>
    ⟨by linarith [hx.1], by linarith [hx.2]⟩
  -- a strain of the size that the imposed deformation can supply is within the bound
  have hbound : ∀ v : Vec 5, energyNorm (.cubic c11 c12 c44) (vecdToSymm v)
      ≤ e0 + amax * (Real.sqrt (max (c11 - c12) (2 * c44)) * dmax) * T →
      ∀ i j, |vecdToSymm v i j| ≤ strainBound c11 c12 c44 e0 amax dmax k.gamW T := by
    intro v hv i j
    refine (comp_le_energyNorm hmin (min_le_left _ _) (min_le_right _ _) _ i j).trans ?_
    unfold strainBound
    refine div_le_div_of_nonneg_right (hv.trans ?_) (Real.sqrt_nonneg _)
    have h1 : 0 ≤ amax * Real.sqrt (max (c11 - c12) (2 * c44)) := mul_nonneg ham0 (Real.sqrt_nonneg _)
    have h2 : dmax * T ≤ T * (2 * dmax + k.gamW) + 1 := by nlinarith [mul_nonneg hT.le hd0, mul_nonneg hT.le hw.le]
    have := mul_le_mul_of_nonneg_left h2 h1
    linarith
  refine ⟨C, C0, max N0 1, fun N hN S eos hS tol δ ht0 ht1 hNt hNg t hf hq hgd he hh E R h hy hE0 hh0 hnear => ?_⟩
  have hN1 : 1 ≤ N := (le_max_right _ _).trans hN
  have hNp : (0:ℝ) < N := by exact_mod_cast hN1
  refine hC N ((le_max_left _ _).trans hN) S eos hS tol δ ht0 ht1 t hf hq hgd ⟨hbound _ ?_, hwide hh⟩
    (fun j hj => ⟨fun i l => ?_, ?_⟩) E R h hy (fun u hu => ⟨?_, ?_⟩) hnear
  · have : 0 ≤ amax * (Real.sqrt (max (c11 - c12) (2 * c44)) * dmax) * T := by positivity
    linarith
  · exact traj_strain t rfl hc (C69_voce k S hw) hw.le hT hD ha0 hd ham ht0 ht1 hNt hf
      (fun _ _ => C32_voce k hm hw S _) he j hj i l
  · exact traj_strength k hk hx hθ S hS t (fun j hj => by rw [(hf j hj).2.1]; positivity) hg0 hg1 hs hNg hh j hj
  · rw [← vecdToSymm_symmToVecd _ (hy.dev u hu)]
    refine hbound _ ?_
    rw [vecdToSymm_symmToVecd _ (hy.dev u hu)]
    have := motion_energy hc hms hD ha0 hd ham hy (fun v hv i τ => powerLaw_dissipative k hw
      (hg0.trans_le (motion_strength k hθ hy hh0 hs hv).1) i τ) hu
    refine this.trans (add_le_add hE0 ?_)
    exact mul_le_mul_of_nonneg_left hu.2 (by positivity)
  · exact hwide (motion_strength k hθ hy hh0 hs hu)

theorem flow_frob : frob (dev (sym flowL)) ≤ 100 := by
  have hbd : ∀ u : Vec 3, dot u u = 1 → ∀ j, |u j| ≤ 1 := by
    intro u hu j
    rw [← sq_le_one_iff_abs_le_one]
    simp only [dot, Fin.sum_univ_three] at hu
    have hj : j = 0 ∨ j = 1 ∨ j = 2 := by fin_cases j <;> simp
    rcases hj with rfl | rfl | rfl <;> nlinarith [sq_nonneg (u 0), sq_nonneg (u 1), sq_nonneg (u 2)]
  have hγ : ∀ i, |flowRate i| ≤ 1 := fun i => by
    unfold flowRate
    rcases flowTau_cases i with h | h
    · rw [h]; norm_num
    · rw [abs_div, abs_two]; linarith [h.2]
  have hL : ∀ i j, |flowL i j| ≤ 12 := by
    intro i j
    have e : flowL i j = ∑ l, flowRate l * (fccS l i * fccM l j) := by
      simp [flowL, slipGrad, Matrix.sum_apply, dyad]
    rw [e]
    refine (Finset.abs_sum_le_sum_abs _ _).trans ?_
    refine (Finset.sum_le_sum (g := fun _ => (1:ℝ)) fun l _ => ?_).trans (by simp)
    rw [abs_mul, abs_mul]
    have h1 := mul_le_mul (hbd _ (fcc_slip l).2.1 i) (hbd _ (fcc_slip l).1 j) (abs_nonneg _) zero_le_one
    have := mul_le_mul (hγ l) h1 (by positivity) zero_le_one
    linarith
  have hD : ∀ i j, |dev (sym flowL) i j| ≤ 24 := by
    intro i j
    have h := fun i j => abs_le.1 (hL i j)
    rw [abs_le]
    fin_cases i <;> fin_cases j <;> simp [dev, sym, Matrix.trace_fin_three] <;> constructor <;>
      linarith [h 0 0, h 0 1, h 0 2, h 1 0, h 1 1, h 1 2, h 2 0, h 2 1, h 2 2]
  unfold frob
  refine Real.sqrt_le_iff.2 ⟨by norm_num, ?_⟩
  simp only [ddot, Fin.sum_univ_three]
  have h := fun i j => abs_le.1 (hD i j)
  have h2 : ∀ i j, dev (sym flowL) i j * dev (sym flowL) i j ≤ 576 := fun i j => by
    have := h i j
    nlinarith
  linarith [h2 0 0, h2 0 1, h2 0 2, h2 1 0, h2 1 1, h2 1 2, h2 2 0, h2 2 1, h2 2 2]

theorem flow_energy : energyNorm (.cubic 3 1 1) (vecdToSymm flowE) ≤ 1 := by
  rw [energyNorm_eq]
  unfold wNorm
  refine Real.sqrt_le_iff.2 ⟨by norm_num, ?_⟩
  simp [Fin.sum_univ_five, flowE, Elast.kDiag]
  norm_num

/-- the hypotheses hold for every number of steps the tolerance of the hardness solve allows, on time
    intervals up to a length of a million: a crystal in steady flow under stress -/
example (T : ℝ) (hT : 0 < T) (hT1 : T ≤ 10 ^ 6) (N : ℕ) (hN : 0 < N) (hN1 : N ≤ 10 ^ 8) :
    voceExample.nonlinear = false ∧ voceExample.xms = 0 ∧ 0 < voceExample.xm ∧ voceExample.xm ≤ 1 ∧
    0 < voceExample.gamW ∧ voceExample.gamW ≤ 10 ^ 60 ∧ 0 ≤ voceExample.h0 ∧ ((1:ℝ) < 3 ∧ (0:ℝ) < 1) ∧
    (∀ i, dot (fccM i) (fccS i) = 0) ∧ IsDev (dev (sym flowL)) ∧ frob (dev (sym flowL)) ≤ 100 ∧
    (1 ≤ voceExample.taus0 ∧ voceExample.taus0 ≤ 3) ∧
    ShearAtMost (.cubic 3 1 1) fccM fccS (fun _ => 1) T (strainBound 3 1 1 1 1 100 voceExample.gamW T)
      (18 * strainBound 3 1 1 1 1 100 voceExample.gamW T) ∧
    18 * strainBound 3 1 1 1 1 100 voceExample.gamW T ≤ voceExample.tMax * (1 / 2) ∧ (probe 1).Sound ∧
    N * (1 / 10 ^ 10 : ℝ) ≤ 10 ^ 6 ∧ 4 * N * (3:ℝ) ≤ 10 ^ 10 * 1 ∧
    ∃ (eos : Eos) (t : Trajectory { geom := slipPQ fccM fccS, kin := voceExample.kin (probe 1) 12,
                                    el := .cubic 3 1 1, eos := eos } N),
      Follows t (fun _ => dev (sym flowL)) (fun _ => axial flowL) (fun _ => 1) T (1 / 10 ^ 10) ∧
      dot (histOf (t.m 0)).q (histOf (t.m 0)).q = 1 ∧
      (∀ i, (histOf (t.m 0)).gdot i = slipRates (.cubic 3 1 1) fccM fccS (powerLaw voceExample 12) 1
        (vecdToSymm (histOf (t.m 0)).e) (histOf (t.m 0)).h i) ∧
      energyNorm (.cubic 3 1 1) (vecdToSymm (histOf (t.m 0)).e) ≤ 1 ∧
      (histOf (t.m 0)).h ∈ strengths 1 3 ∧
      CrystalMotion (.cubic 3 1 1) fccM fccS (powerLaw voceExample 12)
        (saturation voceExample 12) (fun _ => dev (sym flowL)) (fun _ => axial flowL) (fun _ => 1) T
        (fun _ => vecdToSymm flowE) (fun _ => 1) (fun _ _ => 2) ∧
      energyNorm (.cubic 3 1 1) (vecdToSymm flowE) ≤ 1 ∧ (fun _ => 2) ∈ strengths 1 3 ∧
      Near (histOf (t.m 0)) (vecdToSymm flowE) 1 (fun _ => 2) 0 ∧ vecdToSymm flowE ≠ 0 := by
  have hdt : 0 < T / N := by positivity
  have hNr : (N : ℝ) ≤ 10 ^ 8 := by exact_mod_cast hN1
  have hB : strainBound 3 1 1 1 1 100 voceExample.gamW T ≤ 10 ^ 20 := by
    unfold strainBound
    have hs : Real.sqrt (max ((3:ℝ) - 1) (2 * 1)) = Real.sqrt 2 := by norm_num
    have hs' : Real.sqrt (min ((3:ℝ) - 1) (2 * 1)) = Real.sqrt 2 := by norm_num
    have h1 : 1 ≤ Real.sqrt 2 := Real.le_sqrt_of_sq_le (by norm_num)
    rw [hs, hs', div_le_iff₀ (by positivity)]
    have : voceExample.gamW = 1 := rfl
    rw [this]
    nlinarith
  refine ⟨rfl, rfl, by norm_num [voceExample], by norm_num [voceExample], by norm_num [voceExample],
    by norm_num [voceExample], by norm_num [voceExample], by norm_num, fun i => (fcc_slip i).2.2, isDev_dev_sym _,
    flow_frob, by norm_num [voceExample], flow_shear T _, ?_, probe_sound 1, ?_, ?_,
    (exMat exEl).eos, flowTraj (T / N) hdt N, fun k _ => ⟨probe_sound 8, rfl, le_rfl, ?_, rfl, ?_⟩, ?_, ?_, ?_, ?_,
    (flow_motion T).1, flow_energy, ?_, ?_, ?_⟩
  · have : voceExample.tMax = 10 ^ 60 := by
      unfold Voce.tMax gamRatioOvf
      simp only [voceExample, Real.rpow_one]
    rw [this]
    linarith
  · linarith
  · linarith
  · show devOfSvecP (svecP (sym flowL)) = dev (sym flowL)
    ext i j
    fin_cases i <;> fin_cases j <;> simp [devOfSvecP, svecP, sym, dev, Matrix.trace_fin_three] <;> ring
  · show (1:ℝ) = 1 ^ 3
    norm_num
  · show dot (histOf flowMem).q (histOf flowMem).q = 1
    rw [flowMem_inv.q]; simp [dot, Fin.sum_univ_four]
  · intro i
    show (histOf flowMem).gdot i = slipRates _ _ _ _ _ (vecdToSymm (histOf flowMem).e) (histOf flowMem).h i
    rw [flowMem_inv.gdot, flowMem_inv.e, flowMem_inv.h, (flow_motion T).2]
  · show energyNorm _ (vecdToSymm (histOf flowMem).e) ≤ 1
    rw [flowMem_inv.e]; exact flow_energy
  · show (histOf flowMem).h ∈ _
    rw [flowMem_inv.h]; constructor <;> norm_num
  · constructor <;> norm_num
  · show Near (histOf flowMem) _ _ _ _
    refine ⟨fun i j => ?_, fun i j => ?_, fun i => ?_⟩
    · rw [flowMem_inv.e, sub_self, abs_zero]
    · rw [flowMem_inv.q, quatToTensor_one, sub_self, abs_zero]
    · rw [flowMem_inv.h, sub_self, abs_zero]
  · intro h
    have := congrArg symmToVecd h
    rw [symmToVecd_vecdToSymm] at this
    have := congrFun this 0
    simp [flowE, symmToVecd] at this

end Ecm.Props
