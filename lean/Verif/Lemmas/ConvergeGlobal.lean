import Verif.Props.ConvergeVoce

/-! Bounds on computed and exact states for C73: what the imposed deformation supplies bounds the elastic
    strain, and the relaxation towards the saturation strength keeps the strength in its range. -/

namespace Ecm.Props
open Ecm Spec Matrix
variable {n nH : ℕ}

/-- a function with derivative of at most `c` grows by at most `c` per unit of time -/
theorem growth_of_deriv {f f' : ℝ → ℝ} {T c : ℝ}
    (hd : ∀ t ∈ Set.Icc 0 T, HasDerivWithinAt f (f' t) (Set.Icc 0 T) t)
    (h : ∀ t ∈ Set.Icc 0 T, f' t ≤ c) {t : ℝ} (ht : t ∈ Set.Icc 0 T) : f t ≤ f 0 + c * t := by
  have h0 : (0:ℝ) ∈ Set.Icc 0 T := ⟨le_rfl, ht.1.trans ht.2⟩
  have hda : ∀ u ∈ interior (Set.Icc 0 T), HasDerivAt f (f' u) u := fun u hu =>
    (hd u (interior_subset hu)).hasDerivAt (mem_interior_iff_mem_nhds.1 hu)
  have := (convex_Icc 0 T).image_sub_le_mul_sub_of_deriv_le (f := f) (C := c)
    (fun u hu => (hd u hu).continuousWithinAt)
    (fun u hu => (hda u hu).differentiableAt.differentiableWithinAt)
    (fun u hu => by rw [(hda u hu).deriv]; exact h u (interior_subset hu)) 0 h0 t ht ht.1
  linarith

/-- growth of the weighted norm of a vector from the rate of its square -/
theorem wNorm_growth {K : Vec 5} (hK : ∀ k, 0 < K k) {v v' : ℝ → Vec 5} {T c : ℝ} (hc : 0 ≤ c)
    (hd : ∀ t ∈ Set.Icc 0 T, ∀ i, HasDerivWithinAt (fun u => v u i) (v' t i) (Set.Icc 0 T) t)
    (h : ∀ t ∈ Set.Icc 0 T, ∑ i, K i * v t i * v' t i ≤ c * wNorm K (v t)) {t : ℝ}
    (ht : t ∈ Set.Icc 0 T) : wNorm K (v t) ≤ wNorm K (v 0) + c * t := by
  refine le_of_forall_pos_le_add fun ε hε => ?_
  have hK0 : ∀ k, 0 ≤ K k := fun k => (hK k).le
  let W : ℝ → ℝ := fun u => ∑ i, K i * v u i ^ 2
  have hW : ∀ u, 0 ≤ W u := fun u => Finset.sum_nonneg fun i _ => mul_nonneg (hK0 i) (sq_nonneg _)
  have hdW : ∀ u ∈ Set.Icc 0 T, HasDerivWithinAt W (2 * ∑ i, K i * v u i * v' u i) (Set.Icc 0 T) u := by
    intro u hu
    have := HasDerivWithinAt.fun_sum (u := Finset.univ) fun i _ => (((hd u hu i).pow 2).const_mul (K i))
    refine this.congr_deriv ?_
    rw [Finset.mul_sum]
    refine Finset.sum_congr rfl fun i _ => ?_
    simp; ring
  have hp : ∀ u, 0 < W u + ε ^ 2 := fun u => add_pos_of_nonneg_of_pos (hW u) (by positivity)
  have hdf : ∀ u ∈ Set.Icc 0 T, HasDerivWithinAt (fun u => Real.sqrt (W u + ε ^ 2))
      ((2 * ∑ i, K i * v u i * v' u i) / (2 * Real.sqrt (W u + ε ^ 2))) (Set.Icc 0 T) u := fun u hu =>
    ((hdW u hu).add_const (ε ^ 2)).sqrt (hp u).ne'
  have hgr := growth_of_deriv hdf (c := c) (fun u hu => by
    have hs := Real.sqrt_pos.2 (hp u)
    rw [mul_div_mul_left _ _ two_ne_zero, div_le_iff₀ hs]
    refine (h u hu).trans (mul_le_mul_of_nonneg_left ?_ hc)
    exact Real.sqrt_le_sqrt (by simp only [W]; nlinarith [sq_nonneg ε])) ht
  have h1 : wNorm K (v t) ≤ Real.sqrt (W t + ε ^ 2) :=
    Real.sqrt_le_sqrt (by simp only [W]; nlinarith [sq_nonneg ε])
  have h2 : Real.sqrt (W 0 + ε ^ 2) ≤ wNorm K (v 0) + ε := by
    refine Real.sqrt_le_iff.2 ⟨add_nonneg (wNorm_nonneg _ _) hε.le, ?_⟩
    have := wNorm_sq hK0 (v 0)
    have h3 := wNorm_nonneg K (v 0)
    simp only [W]
    nlinarith
  linarith

/-- lower bound of the weighted norm by a component -/
theorem abs_le_wNorm {K : Vec 5} {κ : ℝ} (hκ : 0 < κ) (hK : ∀ k, κ ≤ K k) (v : Vec 5) :
    vecNorm v ≤ wNorm K v / Real.sqrt κ := by
  rw [le_div_iff₀ (Real.sqrt_pos.2 hκ)]
  unfold vecNorm wNorm
  rw [← Real.sqrt_mul (Finset.sum_nonneg fun i _ => mul_self_nonneg _), Finset.sum_mul]
  refine Real.sqrt_le_sqrt (Finset.sum_le_sum fun i _ => ?_)
  have := mul_le_mul_of_nonneg_right (hK i) (mul_self_nonneg (v i))
  nlinarith

theorem comp_le_energyNorm {c11 c12 c44 κ : ℝ} (hκ : 0 < κ) (h1 : κ ≤ c11 - c12) (h2 : κ ≤ 2 * c44) (v : Vec 5)
    (i j : Fin 3) : |vecdToSymm v i j| ≤ energyNorm (.cubic c11 c12 c44) (vecdToSymm v) / Real.sqrt κ := by
  rw [energyNorm_eq]
  refine le_trans ?_ (abs_le_wNorm hκ (fun k => ?_) v)
  · have h0 := sumsq_symmToVecd (vecdToSymm_isDev v)
    rw [symmToVecd_vecdToSymm, ← vecNorm_sq] at h0
    have hA : vecdToSymm v i j ^ 2 ≤ ddot (vecdToSymm v) (vecdToSymm v) := by
      have a1 : vecdToSymm v i j ^ 2 ≤ ∑ j, vecdToSymm v i j * vecdToSymm v i j := by
        rw [sq]
        exact Finset.single_le_sum (f := fun j => vecdToSymm v i j * vecdToSymm v i j)
          (fun _ _ => mul_self_nonneg _) (Finset.mem_univ j)
      refine a1.trans ?_
      exact Finset.single_le_sum (f := fun i => ∑ j, vecdToSymm v i j * vecdToSymm v i j)
        (fun _ _ => Finset.sum_nonneg fun _ _ => mul_self_nonneg _) (Finset.mem_univ i)
    rw [← h0] at hA
    exact abs_le_of_sq_le_sq hA (vecNorm_nonneg _)
  · fin_cases k <;> simp [Elast.kDiag] <;> linarith

/-- a function that does not grow above `M` stays below `M` -/
theorem stays_below {f f' : ℝ → ℝ} {T M : ℝ}
    (hd : ∀ t ∈ Set.Icc 0 T, HasDerivWithinAt f (f' t) (Set.Icc 0 T) t)
    (h : ∀ t ∈ Set.Icc 0 T, M < f t → f' t ≤ 0) (h0 : f 0 ≤ M) {t : ℝ} (ht : t ∈ Set.Icc 0 T) : f t ≤ M := by
  have key : ∀ x : ℝ, HasDerivAt (fun y : ℝ => max (y - M) 0 ^ 2) (2 * max (x - M) 0) x := by
    intro x
    have e : (fun y : ℝ => max (y - M) 0 ^ 2) = (fun z : ℝ => max z 0 ^ 2) ∘ fun y => y - M := rfl
    have hz : ∀ z : ℝ, HasDerivAt (fun z : ℝ => max z 0 ^ 2) (2 * max z 0) z := by
      intro z
      rcases lt_trichotomy z 0 with hz | hz | hz
      · rw [max_eq_right hz.le, mul_zero]
        refine (hasDerivAt_const z (0:ℝ)).congr_of_eventuallyEq ?_
        filter_upwards [Iio_mem_nhds hz] with y hy
        rw [max_eq_right (le_of_lt hy)]; norm_num
      · subst hz
        rw [max_self, mul_zero, hasDerivAt_iff_isLittleO]
        simp only [sub_zero, max_self, ne_eq, OfNat.ofNat_ne_zero, not_false_eq_true, zero_pow, smul_zero]
        refine Asymptotics.isLittleO_iff.2 fun c hc => ?_
        filter_upwards [Metric.ball_mem_nhds (0:ℝ) hc] with y hy
        rw [Metric.mem_ball, dist_zero_right, Real.norm_eq_abs] at hy
        rw [Real.norm_eq_abs, Real.norm_eq_abs, abs_of_nonneg (sq_nonneg _)]
        have h1 : max y 0 ≤ |y| := max_le (le_abs_self _) (abs_nonneg _)
        have h2 : 0 ≤ max y 0 := le_max_right _ _
        nlinarith [abs_nonneg y]
      · rw [max_eq_left hz.le]
        have : HasDerivAt (fun y : ℝ => y ^ 2) (2 * z) z := by simpa using hasDerivAt_pow 2 z
        refine this.congr_of_eventuallyEq ?_
        filter_upwards [Ioi_mem_nhds hz] with y hy
        rw [max_eq_left (le_of_lt hy)]
    rw [e]
    simpa using (hz (x - M)).comp x ((hasDerivAt_id x).sub_const M)
  have hφ := growth_of_deriv (f := fun u => max (f u - M) 0 ^ 2) (c := 0)
    (fun u hu => (key (f u)).comp_hasDerivWithinAt u (hd u hu)) (fun u hu => by
      rcases le_or_gt (f u) M with h1 | h1
      · rw [max_eq_right (by linarith)]; simp
      · exact mul_nonpos_of_nonneg_of_nonpos (by positivity) (h u hu h1)) ht
  rw [max_eq_right (by linarith : f 0 - M ≤ 0)] at hφ
  have h1 : max (f t - M) 0 ^ 2 ≤ 0 := by simpa using hφ
  have h2 : max (f t - M) 0 = 0 := by nlinarith [sq_nonneg (max (f t - M) 0)]
  have := le_max_left (f t - M) 0
  linarith

/-- **C73, bound of the exact motion.**  Along a solution of the rate equations with a slip law that never
    opposes the stress, the size of the elastic strain grows at most as fast as the imposed deformation
    supplies it. -/
theorem motion_energy {c11 c12 c44 : ℝ} (hc : c12 < c11 ∧ 0 < c44) {m s : Fin n → V3}
    (hms : ∀ i, dot (m i) (s i) = 0) {g : Fin n → ℝ → Vec nH → ℝ} {H : Vec nH → Vec n → Vec nH} {D : ℝ → T3}
    {w : ℝ → V3} {a : ℝ → ℝ} {T dmax amax : ℝ} (hD : ∀ t ∈ Set.Icc 0 T, IsDev (D t))
    (ha : ∀ t ∈ Set.Icc 0 T, 0 < a t) (hd : ∀ t ∈ Set.Icc 0 T, frob (D t) ≤ dmax)
    (ham : ∀ t ∈ Set.Icc 0 T, a t ≤ amax) {E R : ℝ → T3} {h : ℝ → Vec nH}
    (hy : CrystalMotion (.cubic c11 c12 c44) m s g H D w a T E R h)
    (hg : ∀ t ∈ Set.Icc 0 T, ∀ i τ, 0 ≤ τ * g i τ (h t)) {t : ℝ} (ht : t ∈ Set.Icc 0 T) :
    energyNorm (.cubic c11 c12 c44) (E t) ≤ energyNorm (.cubic c11 c12 c44) (E 0)
      + amax * (Real.sqrt (max (c11 - c12) (2 * c44)) * dmax) * t := by
  have h0 : (0:ℝ) ∈ Set.Icc 0 T := ⟨le_rfl, ht.1.trans ht.2⟩
  -- the strain is bounded
  have hcont : ∀ i j, ContinuousOn (fun u => E u i j) (Set.Icc 0 T) := fun i j u hu => by
    obtain ⟨_, _, _, d1, _⟩ := hy.rate u hu
    exact (d1 i j).continuousWithinAt
  have hbd : ∀ i j, ∃ B, ∀ u ∈ Set.Icc 0 T, |E u i j| ≤ B := fun i j => by
    obtain ⟨B, hB⟩ := isCompact_Icc.exists_bound_of_continuousOn (hcont i j)
    exact ⟨B, fun u hu => by simpa using hB u hu⟩
  choose B hB using hbd
  have hBs : ∀ u ∈ Set.Icc 0 T, (∀ i j, |E u i j| ≤ ∑ i, ∑ j, |B i j|) ∧ h u ∈ (Set.univ : Set (Vec nH)) := by
    intro u hu
    refine ⟨fun i j => (hB i j u hu).trans ((le_abs_self _).trans ?_), trivial⟩
    have a1 : |B i j| ≤ ∑ j, |B i j| :=
      Finset.single_le_sum (f := fun j => |B i j|) (fun _ _ => abs_nonneg _) (Finset.mem_univ j)
    exact a1.trans (Finset.single_le_sum (f := fun i => ∑ j, |B i j|)
      (fun _ _ => Finset.sum_nonneg fun _ _ => abs_nonneg _) (Finset.mem_univ i))
  have hS := solves_of hms hD ha hy hBs
  set F := rateEq (.cubic c11 c12 c44) m s g H D w a with hF
  have hK : ∀ k, 0 < (Elast.cubic c11 c12 c44).kDiag k :=
    ((C47_stability_constants c11 c12 0 0 c44 0).1).2 hc
  set K := (Elast.cubic c11 c12 c44).kDiag with hKd
  have hκ : ∀ k, K k ≤ max (c11 - c12) (2 * c44) := by
    intro k; fin_cases k <;> simp [hKd, Elast.kDiag]
  have hd0 : 0 ≤ dmax := (Real.sqrt_nonneg _).trans (hd 0 h0)
  have ham0 : 0 ≤ amax := (ha 0 h0).le.trans (ham 0 h0)
  have e : ∀ u ∈ Set.Icc 0 T, energyNorm (.cubic c11 c12 c44) (E u) = wNorm K (symmToVecd (E u)) := fun u hu => by
    conv_lhs => rw [← vecdToSymm_symmToVecd _ (hy.dev u hu)]
    rw [energyNorm_eq]
  rw [e t ht, e 0 h0]
  refine wNorm_growth hK (v := fun u => symmToVecd (E u))
    (v' := fun u => F.ed (u, symmToVecd (E u), R u, h u)) (by positivity)
    (fun u hu i => hS.deriv u hu (Sum.inl i)) (fun u hu => ?_) ht
  have hau := ha u hu
  have hR := hy.rot u hu
  set v := symmToVecd (E u) with hv
  set γ := F.gam (u, v, R u, h u) with hγ
  have e1 : ∑ i, K i * v i * F.ed (u, v, R u, h u) i
      = a u * (∑ i, K i * v i * vecsVMTa (getRotMatVecd (R u)) (symmToVecd (D u)) i)
        - a u * (∑ i, K i * v i * vecsVMa (slipPQ m s).P γ i) := by
    rw [Finset.mul_sum, Finset.mul_sum, ← Finset.sum_sub_distrib]
    refine Finset.sum_congr rfl fun i _ => ?_
    show K i * v i * (a u * (vecsVMTa (getRotMatVecd (R u)) (symmToVecd (D u)) i
      - vecsVMa (slipPQ m s).P γ i)) = _
    ring
  have e2 : ∑ i, K i * v i * vecsVMa (slipPQ m s).P γ i
      = a u * ∑ j, F.tau (u, v, R u, h u) j * γ j := by
    simp only [vecsVMa, Finset.mul_sum]
    rw [Finset.sum_comm]
    refine Finset.sum_congr rfl fun j _ => ?_
    have : F.tau (u, v, R u, h u) j = ∑ k, (1 / a u * (K k * v k)) * (slipPQ m s).P k j := by
      show 1 / a u * ∑ k, K k * v k * (slipPQ m s).P k j = _
      rw [Finset.mul_sum]
      refine Finset.sum_congr rfl fun k _ => ?_
      ring
    rw [this, Finset.sum_mul, Finset.mul_sum]
    refine Finset.sum_congr rfl fun i _ => ?_
    field_simp
  have h3 : 0 ≤ ∑ j, F.tau (u, v, R u, h u) j * γ j := Finset.sum_nonneg fun j _ => hg u hu j _
  have h4 : ∑ i, K i * v i * vecsVMTa (getRotMatVecd (R u)) (symmToVecd (D u)) i
      ≤ wNorm K v * (Real.sqrt (max (c11 - c12) (2 * c44)) * dmax) := by
    refine (wDot_le (fun k => (hK k).le) _ _).trans (mul_le_mul_of_nonneg_left ?_ (wNorm_nonneg _ _))
    refine (wNorm_le (fun k => (hK k).le) hκ _).trans (mul_le_mul_of_nonneg_left ?_ (Real.sqrt_nonneg _))
    rw [vecNorm_vecsVMTa_rot hR.1, vecNorm_symmToVecd (hD u hu)]
    exact hd u hu
  show ∑ i, K i * v i * F.ed (u, v, R u, h u) i ≤ _ * wNorm K v
  rw [e1, e2]
  have h5 := mul_le_mul_of_nonneg_left h4 hau.le
  have h6 : 0 ≤ wNorm K v * (Real.sqrt (max (c11 - c12) (2 * c44)) * dmax) :=
    mul_nonneg (wNorm_nonneg _ _) (by positivity)
  have h7 := mul_le_mul_of_nonneg_right (ham u hu) h6
  have h8 : 0 ≤ a u * (a u * ∑ j, F.tau (u, v, R u, h u) j * γ j) := by positivity
  nlinarith

/-- the power law never opposes the stress -/
theorem powerLaw_dissipative (k : Voce) (hw : 0 < k.gamW) {h : Vec 1} (hh : 0 < h 0) (i : Fin n) (τ : ℝ) :
    0 ≤ τ * powerLaw k n i τ h := by
  unfold powerLaw
  rw [k.powLaw_mul]
  positivity

/-- along a solution of the rate equations the strength stays between its first value and saturation -/
theorem motion_strength (k : Voce) (hθ : 0 ≤ k.h0) {el : Elast} {m s : Fin n → V3}
    {g : Fin n → ℝ → Vec 1 → ℝ} {D : ℝ → T3} {w : ℝ → V3} {a : ℝ → ℝ} {T gmin gmax : ℝ}
    {E R : ℝ → T3} {h : ℝ → Vec 1} (hy : CrystalMotion el m s g (saturation k n) D w a T E R h)
    (h0 : h 0 ∈ strengths gmin gmax) (hs : gmin ≤ k.taus0 ∧ k.taus0 ≤ gmax) {t : ℝ} (ht : t ∈ Set.Icc 0 T) :
    h t ∈ strengths gmin gmax := by
  have hder : ∀ u ∈ Set.Icc 0 T, HasDerivWithinAt (fun u => h u 0)
      (saturation k n (h u) (slipRates el m s g (a u) (E u) (h u)) 0) (Set.Icc 0 T) u := fun u hu => by
    obtain ⟨_, _, _, _, _, d3⟩ := hy.rate u hu
    exact d3 0
  have hsg : ∀ (x : Vec 1) (γ : Vec n), (k.taus0 < x 0 → saturation k n x γ 0 ≤ 0) ∧
      (x 0 < k.taus0 → 0 ≤ saturation k n x γ 0) := by
    intro x γ
    have hγ : 0 ≤ ∑ i, |γ i| := Finset.sum_nonneg fun i _ => abs_nonneg _
    unfold saturation voceRate
    refine ⟨fun hx => ?_, fun hx => ?_⟩
    · split_ifs with h1
      · exact le_rfl
      · push Not at h1
        refine mul_nonpos_of_nonpos_of_nonneg (mul_nonpos_of_nonneg_of_nonpos hθ ?_) hγ
        exact div_nonpos_of_nonpos_of_nonneg (by linarith) (by linarith)
    · split_ifs with h1
      · exact le_rfl
      · push Not at h1
        exact mul_nonneg (mul_nonneg hθ (div_nonneg (by linarith) (by linarith))) hγ
  refine ⟨?_, stays_below hder (fun u _ hM => (hsg _ _).1 (hs.2.trans_lt hM)) h0.2 ht⟩
  have := stays_below (f := fun u => -h u 0) (fun u hu => (hder u hu).neg) (M := -gmin)
    (fun u _ hM => neg_nonpos.2 ((hsg _ _).2 (by linarith [hs.1]))) (by linarith [h0.1]) ht
  linarith

/-- largest component of the elastic strain over `[0, T]`: for an imposed deformation rate of at most `dmax`
    at relative volumes with cube root of at most `amax`, a reference rate `A` and a start of size `e0` -/
noncomputable def strainBound (c11 c12 c44 e0 amax dmax A T : ℝ) : ℝ :=
  (e0 + amax * Real.sqrt (max (c11 - c12) (2 * c44)) * (T * (2 * dmax + A) + 1))
    / Real.sqrt (min (c11 - c12) (2 * c44))

/-- the elastic strain of every update stays within the bound -/
theorem traj_strain {M : Material n nH} {N : ℕ} (t : Trajectory M N) {c11 c12 c44 : ℝ}
    (hel : M.el = .cubic c11 c12 c44) (hc : c12 < c11 ∧ 0 < c44) {A : ℝ} (hA : RefRateAtMost M.kin A) (hA0 : 0 ≤ A)
    {D : ℝ → T3} {w : ℝ → V3} {a : ℝ → ℝ} {T tol e0 dmax amax : ℝ} (hT : 0 < T)
    (hD : ∀ t ∈ Set.Icc 0 T, IsDev (D t)) (ha : ∀ t ∈ Set.Icc 0 T, 0 < a t)
    (hd : ∀ t ∈ Set.Icc 0 T, frob (D t) ≤ dmax) (ham : ∀ t ∈ Set.Icc 0 T, a t ≤ amax) (htol : 0 ≤ tol)
    (htol1 : tol ≤ 1) (hNt : N * tol ≤ 10 ^ 6) (hf : Follows t D w a T tol)
    (hK : ∀ k < N, DissipativeAt M.kin (t.m' k).tkelv)
    (he : energyNorm M.el (vecdToSymm (histOf (t.m 0)).e) ≤ e0) (K : ℕ) (hKN : K < N) (i j : Fin 3) :
    |vecdToSymm (histOf (t.m' K)).e i j| ≤ strainBound c11 c12 c44 e0 amax dmax A T := by
  have hNp : (0:ℝ) < N := by exact_mod_cast (Nat.zero_le K).trans_lt hKN
  have hdt : 0 < T / N := div_pos hT hNp
  have hmem : ∀ k < N, T / N * (k + 1 : ℕ) ∈ Set.Icc 0 T := fun k hk => by
    refine ⟨by positivity, ?_⟩
    rw [div_mul_eq_mul_div, div_le_iff₀ hNp]
    exact mul_le_mul_of_nonneg_left (by exact_mod_cast hk) hT.le
  have h0 : (0:ℝ) ∈ Set.Icc 0 T := ⟨le_rfl, hT.le⟩
  have hd0 : 0 ≤ dmax := (Real.sqrt_nonneg _).trans (hd 0 h0)
  have ham0 : 0 ≤ amax := (ha 0 h0).le.trans (ham 0 h0)
  have hh := C69_history t (fun k hk => (hf k hk).1) c11 c12 c44 hel hc A hA
    (fun k hk => by rw [(hf k hk).2.1]; exact hdt)
    (fun k hk => by rw [(hf k hk).2.2.2.1]; exact hD _ (hmem k hk)) hK K hKN
  set κ := max (c11 - c12) (2 * c44) with hκ
  have hstep : ∀ k < N, stepSupply κ A (t.inp k)
      ≤ amax * Real.sqrt κ * (T / N * (2 * dmax + A) + tol / 10 ^ 6) := by
    intro k hk
    obtain ⟨-, h1, h2, h3, h4, h5⟩ := hf k hk
    have hm := hmem k hk
    have hak := ha _ hm
    unfold stepSupply
    rw [h1, h3, h5]
    set ak := a (T / N * (k + 1 : ℕ)) with hakd
    set f := frob (D (T / N * (k + 1 : ℕ))) with hfd
    have e1 : (ak ^ 3) ^ (1 / 3 : ℝ) = ak := by
      rw [← Real.rpow_natCast, ← Real.rpow_mul hak.le]; norm_num
    rw [e1]
    have hf1 : f ≤ dmax := hd _ hm
    have hf0 : 0 ≤ f := Real.sqrt_nonneg _
    have hs := Real.sqrt_nonneg κ
    set x := (t.inp k).tol
    have e2 : T / N * ak * (Real.sqrt κ * (f + x * (A + f + 1 / 10 ^ 6 / (T / N))))
        = ak * Real.sqrt κ * (T / N * (f + x * (A + f)) + x / 10 ^ 6) := by
      field_simp
      ring
    rw [e2]
    have hxA : x * (A + f) ≤ 1 * (A + dmax) :=
      (mul_le_mul_of_nonneg_right (h2.trans htol1) (by positivity)).trans
        (mul_le_mul_of_nonneg_left (by linarith) zero_le_one)
    have h6 : T / N * (f + x * (A + f)) + x / 10 ^ 6 ≤ T / N * (2 * dmax + A) + tol / 10 ^ 6 := by
      have := mul_le_mul_of_nonneg_left (by linarith : f + x * (A + f) ≤ 2 * dmax + A) hdt.le
      have := div_le_div_of_nonneg_right h2 (by positivity : (0:ℝ) ≤ 10 ^ 6)
      linarith
    have h7 : 0 ≤ T / N * (2 * dmax + A) + tol / 10 ^ 6 := by positivity
    calc _ ≤ ak * Real.sqrt κ * (T / N * (2 * dmax + A) + tol / 10 ^ 6) :=
          mul_le_mul_of_nonneg_left h6 (mul_nonneg hak.le hs)
      _ ≤ _ := mul_le_mul_of_nonneg_right (mul_le_mul_of_nonneg_right (ham _ hm) hs) h7
  have hsum : ∑ k ∈ Finset.range (K + 1), stepSupply κ A (t.inp k)
      ≤ amax * Real.sqrt κ * (T * (2 * dmax + A) + 1) := by
    have h1 : ∑ k ∈ Finset.range (K + 1), stepSupply κ A (t.inp k)
        ≤ ∑ _k ∈ Finset.range (K + 1), amax * Real.sqrt κ * (T / N * (2 * dmax + A) + tol / 10 ^ 6) :=
      Finset.sum_le_sum fun k hk => hstep k (by have := Finset.mem_range.1 hk; omega)
    refine h1.trans ?_
    rw [Finset.sum_const, Finset.card_range, nsmul_eq_mul]
    have hq : 0 ≤ amax * Real.sqrt κ * (T / N * (2 * dmax + A) + tol / 10 ^ 6) := by positivity
    have hKN' : ((K + 1 : ℕ) : ℝ) ≤ N := by exact_mod_cast hKN
    refine (mul_le_mul_of_nonneg_right hKN' hq).trans ?_
    have e3 : N * (amax * Real.sqrt κ * (T / N * (2 * dmax + A) + tol / 10 ^ 6))
        = amax * Real.sqrt κ * (T * (2 * dmax + A) + N * tol / 10 ^ 6) := by
      field_simp
    rw [e3]
    refine mul_le_mul_of_nonneg_left ?_ (by positivity)
    have : N * tol / 10 ^ 6 ≤ 1 := (div_le_one (by positivity)).2 hNt
    linarith
  have hmin : 0 < min (c11 - c12) (2 * c44) := lt_min (by linarith [hc.1]) (by linarith [hc.2])
  rw [hel] at hh he
  refine (comp_le_energyNorm hmin (min_le_left _ _) (min_le_right _ _) _ i j).trans ?_
  unfold strainBound
  refine div_le_div_of_nonneg_right ?_ (Real.sqrt_nonneg _)
  linarith

/-- the strength of every update stays near the interval between the first strength and saturation -/
theorem traj_strength (k : Voce) (hk : k.nonlinear = false) (hx : k.xms = 0) (hθ : 0 ≤ k.h0) (S : Solver 1)
    (hS : S.Sound) {geom : SlipGeom n} {el : Elast} {eos : Eos} {N : ℕ}
    (t : Trajectory { geom := geom, kin := k.kin S n, el := el, eos := eos } N)
    (hdt : ∀ k < N, 0 < (t.inp k).dt) {g0 g1 : ℝ} (hg0 : 0 < g0) (hg1 : 1 ≤ g1)
    (hs : g0 ≤ k.taus0 ∧ k.taus0 ≤ g1) (hN : 4 * N * g1 ≤ 10 ^ 10 * g0)
    (h0 : (histOf (t.m 0)).h ∈ strengths g0 g1) (K : ℕ) (hKN : K < N) :
    (histOf (t.m' K)).h ∈ strengths (g0 / 2) (2 * g1) := by
  have hNp : (0:ℝ) < N := by exact_mod_cast (Nat.zero_le K).trans_lt hKN
  have hstep : ∀ j < N, ∀ r : ℝ, 0 ≤ r → r ≤ g0 / 2 →
      (g0 - r ≤ (histOf (t.m j)).h 0 ∧ (histOf (t.m j)).h 0 ≤ g1 + r) →
      g0 - (r + 2 * g1 / 10 ^ 10) ≤ (histOf (t.m' j)).h 0 ∧
        (histOf (t.m' j)).h 0 ≤ g1 + (r + 2 * g1 / 10 ^ 10) := by
    intro j hj r hr0 hr hb
    obtain ⟨s⟩ := getResponseSngl_ok (t.ok j hj)
    obtain ⟨c, hH⟩ : ∃ c, k.updateH S (histOf (t.m j)).h (t.inp j).dt (histOf (t.m j)).gdot
        = .ok ((histOf (t.m' j)).h, c) := by
      have h1 := s.hH
      refine ⟨s.kU, ?_⟩
      rw [OkStep.hist_eq s]
      exact h1
    obtain ⟨z, hz, hzc⟩ := C27_update k hk hθ S hS _ _ (hdt j hj).le _ _ _ hH
    have hsat : voceSat k.taus0 k.gamss0 k.xms (∑ i, |(histOf (t.m j)).gdot i|) = k.taus0 := by
      unfold voceSat; split_ifs <;> simp [hx]
    have hγ : 0 ≤ ∑ i, |(histOf (t.m j)).gdot i| := Finset.sum_nonneg fun i _ => abs_nonneg _
    obtain ⟨b1, b2, -⟩ := (C27_solution k.h0 k.tausi _ _ _ _ hθ hγ (hdt j hj).le).2 z hz
    rw [hsat] at b1 b2
    have hm : max ((histOf (t.m j)).h 0) 1 ≤ 2 * g1 := max_le (by linarith) (by linarith)
    have hz' := abs_le.1 hzc
    have h3 : 1 / 10 ^ 10 * max ((histOf (t.m j)).h 0) 1 ≤ 2 * g1 / 10 ^ 10 := by
      rw [div_mul_eq_mul_div, one_mul]
      exact div_le_div_of_nonneg_right hm (by positivity)
    have b3 : g0 - r ≤ min ((histOf (t.m j)).h 0) k.taus0 := le_min hb.1 (by linarith)
    have b4 : max ((histOf (t.m j)).h 0) k.taus0 ≤ g1 + r := max_le hb.2 (by linarith)
    exact ⟨by linarith, by linarith⟩
  have hind : ∀ j < N, g0 - (j + 1 : ℕ) * (2 * g1 / 10 ^ 10) ≤ (histOf (t.m' j)).h 0 ∧
      (histOf (t.m' j)).h 0 ≤ g1 + (j + 1 : ℕ) * (2 * g1 / 10 ^ 10) := by
    intro j
    induction j with
    | zero =>
      intro hj
      have := hstep 0 hj 0 le_rfl (by linarith) ⟨by linarith [h0.1], by linarith [h0.2]⟩
      simpa using this
    | succ j ih =>
      intro hj
      have h2 : histOf (t.m (j + 1)) = histOf (t.m' j) := by unfold histOf; rw [t.link j hj]
      have h3 := ih (by omega)
      rw [← h2] at h3
      have h4 : ((j + 1 : ℕ) : ℝ) * (2 * g1 / 10 ^ 10) ≤ g0 / 2 := by
        have : ((j + 1 : ℕ) : ℝ) ≤ N := by exact_mod_cast hj.le
        have := mul_le_mul_of_nonneg_right this (by positivity : (0:ℝ) ≤ 2 * g1 / 10 ^ 10)
        refine this.trans ?_
        rw [mul_div_assoc', div_le_iff₀ (by positivity)]
        linarith
      have := hstep (j + 1) hj _ (by positivity) h4 h3
      push_cast at this ⊢
      constructor <;> linarith [this.1, this.2]
  have h4 : ((K + 1 : ℕ) : ℝ) * (2 * g1 / 10 ^ 10) ≤ g0 / 2 := by
    have : ((K + 1 : ℕ) : ℝ) ≤ N := by exact_mod_cast hKN
    have := mul_le_mul_of_nonneg_right this (by positivity : (0:ℝ) ≤ 2 * g1 / 10 ^ 10)
    refine this.trans ?_
    rw [mul_div_assoc', div_le_iff₀ (by positivity)]
    linarith
  have h5 := hind K hKN
  have h6 : g0 ≤ g1 := hs.1.trans hs.2
  exact ⟨by linarith [h5.1], by linarith [h5.2]⟩

end Ecm.Props
