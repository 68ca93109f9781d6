/- Existence of an elastic strain that satisfies the strain equations for a given lattice orientation:
   the equations are the gradient of a potential that grows without bound. -/
import Verif.Lemmas.Stability
import Mathlib.MeasureTheory.Integral.IntervalIntegral.FundThmCalculus
import Mathlib.Analysis.Calculus.LocalExtr.Basic

namespace Ecm
open Filter Topology

/-- antiderivative of a slip law -/
noncomputable def slipPot (h : ℝ → ℝ) (τ : ℝ) : ℝ := ∫ s in (0 : ℝ)..τ, h s

theorem slipPot_deriv {h : ℝ → ℝ} (hc : Continuous h) (τ : ℝ) : HasDerivAt (slipPot h) (h τ) τ :=
  intervalIntegral.integral_hasDerivAt_right (hc.intervalIntegrable _ _)
    (hc.stronglyMeasurableAtFilter _ _) hc.continuousAt

theorem slipPot_nonneg {h : ℝ → ℝ} (hp : ∀ τ, 0 ≤ τ → 0 ≤ h τ) (hn : ∀ τ, τ ≤ 0 → h τ ≤ 0) (τ : ℝ) :
    0 ≤ slipPot h τ := by
  unfold slipPot
  rcases le_total 0 τ with h0 | h0
  · exact intervalIntegral.integral_nonneg h0 fun u hu => hp u hu.1
  · rw [intervalIntegral.integral_symm, ← intervalIntegral.integral_neg]
    exact intervalIntegral.integral_nonneg h0 fun u hu => neg_nonneg.2 (hn u hu.2)

/-- a convex quadratic dominates the absolute value -/
theorem quad_dominates {α : ℝ} (hα : 0 < α) (β n : ℝ) :
    ∃ M : ℝ, ∀ t : ℝ, |t| - M ≤ α * (t - n) ^ 2 - β * t := by
  refine ⟨(|β| + 1) ^ 2 / (4 * α) + (|β| + 1) * |n|, fun t => ?_⟩
  set b := |β| + 1 with hb
  have h1 : |t| ≤ |t - n| + |n| := by
    have := abs_add_le (t - n) n; simpa using this
  have h2 : β * t ≤ |β| * |t| := by rw [← abs_mul]; exact le_abs_self _
  have hb0 : 0 < b := by positivity
  have h3 : b * |t| ≤ b * (|t - n| + |n|) := mul_le_mul_of_nonneg_left h1 hb0.le
  have h4 : 0 ≤ α * (|t - n| - b / (2 * α)) ^ 2 := by positivity
  have h5 : α * (|t - n| - b / (2 * α)) ^ 2 = α * (t - n) ^ 2 - b * |t - n| + b ^ 2 / (4 * α) := by
    rw [← sq_abs (t - n)]; field_simp; ring
  rw [h5] at h4
  have h6 : b * |t| = |β| * |t| + |t| := by rw [hb]; ring
  nlinarith

/-- a system of the form `α_i (e_i - n_i) + Σ_s p_is h_s(Σ_j k_j p_js e_j a + c_s) = d_i` has a solution -/
theorem exists_strain {n : ℕ} {K nn d : Vec 5} {a b : ℝ} (ha : 0 < a) (hb : 0 < b)
    (hK : ∀ i, 0 < K i) (p : Mat 5 n) (c : Vec n) {h : Fin n → ℝ → ℝ} (hc : ∀ s, Continuous (h s))
    (hp : ∀ s τ, 0 ≤ τ → 0 ≤ h s τ) (hn : ∀ s τ, τ ≤ 0 → h s τ ≤ 0) :
    ∃ e : Vec 5, ∀ i, b * (e i - nn i) + ∑ s, p i s * h s (a * (∑ j, K j * e j * p j s) + c s) = d i := by
  let τ : Vec 5 → Fin n → ℝ := fun e s => a * (∑ j, K j * e j * p j s) + c s
  let φ : Vec 5 → ℝ := fun e => (∑ i, (b / 2 * K i * (e i - nn i) ^ 2 - K i * d i * e i))
    + 1 / a * ∑ s, slipPot (h s) (τ e s)
  have hτc : ∀ s, Continuous fun e => τ e s := fun s => by simp only [τ]; fun_prop
  have hφc : Continuous φ := by
    have h1 : ∀ s, Continuous (slipPot (h s)) := fun s =>
      continuous_iff_continuousAt.2 fun x => (slipPot_deriv (hc s) x).continuousAt
    have h2 : ∀ s, Continuous fun e => slipPot (h s) (τ e s) := fun s => (h1 s).comp (hτc s)
    simp only [φ]
    fun_prop
  have hco : Tendsto φ (cocompact (Vec 5)) atTop := by
    choose M hM using fun i => quad_dominates (mul_pos (half_pos hb) (hK i)) (K i * d i) (nn i)
    refine tendsto_atTop_mono (f := fun e => ‖e‖ - ∑ i, M i) (fun e => ?_)
      (tendsto_atTop_add_const_right _ _ (tendsto_norm_cocompact_atTop (E := Vec 5)))
    have h1 : ‖e‖ ≤ ∑ i, |e i| := by
      refine (pi_norm_le_iff_of_nonneg (Finset.sum_nonneg fun i _ => abs_nonneg _)).2 fun i => ?_
      exact Finset.single_le_sum (f := fun i => |e i|) (fun i _ => abs_nonneg _) (Finset.mem_univ i)
    have h2 : ∑ i, (|e i| - M i) ≤ ∑ i, (b / 2 * K i * (e i - nn i) ^ 2 - K i * d i * e i) :=
      Finset.sum_le_sum fun i _ => hM i (e i)
    rw [Finset.sum_sub_distrib] at h2
    have h3 : 0 ≤ 1 / a * ∑ s, slipPot (h s) (τ e s) :=
      mul_nonneg (by positivity) (Finset.sum_nonneg fun s _ => slipPot_nonneg (hp s) (hn s) _)
    show ‖e‖ - ∑ i, M i ≤ φ e
    simp only [φ]
    linarith
  obtain ⟨e, he⟩ := hφc.exists_forall_le hco
  refine ⟨e, fun i => ?_⟩
  have hupd : ∀ j, HasDerivAt (fun t => Function.update e i t j) (if j = i then 1 else 0) (e i) := by
    intro j
    by_cases hj : j = i
    · subst hj; simpa using hasDerivAt_id' (e j)
    · simpa [hj] using hasDerivAt_const (e i) (e j)
  have hup0 : Function.update e i (e i) = e := Function.update_eq_self i e
  have hτd : ∀ s, HasDerivAt (fun t => τ (Function.update e i t) s) (a * (K i * p i s)) (e i) := by
    intro s
    have h1 := HasDerivAt.fun_sum (u := Finset.univ) fun j (_ : j ∈ Finset.univ) =>
      ((hupd j).const_mul (K j)).mul_const (p j s)
    refine ((h1.const_mul a).add_const (c s)).congr_deriv ?_
    simp
  have hφd : HasDerivAt (fun t => φ (Function.update e i t))
      (b * K i * (e i - nn i) - K i * d i
        + 1 / a * ∑ s, h s (τ e s) * (a * (K i * p i s))) (e i) := by
    have h1 := HasDerivAt.fun_sum (u := Finset.univ) fun j (_ : j ∈ Finset.univ) =>
      ((((hupd j).sub_const (nn j)).pow 2).const_mul (b / 2 * K j)).sub
        ((hupd j).const_mul (K j * d j))
    have h2 := HasDerivAt.fun_sum (u := Finset.univ) fun s (_ : s ∈ Finset.univ) =>
      HasDerivAt.comp (e i) (by rw [hup0]; exact slipPot_deriv (hc s) (τ e s)) (hτd s)
    refine (h1.add (h2.const_mul (1 / a))).congr_deriv ?_
    rw [hup0]
    congr 1
    rw [Finset.sum_eq_single i]
    · simp; ring
    · intro j _ hj; simp [hj]
    · simp
  have hmin : IsLocalMin (fun t => φ (Function.update e i t)) (e i) :=
    Eventually.of_forall fun t => by
      show φ (Function.update e i (e i)) ≤ _
      rw [hup0]; exact he _
  have hz := hmin.hasDerivAt_eq_zero hφd
  have e1 : 1 / a * ∑ s, h s (τ e s) * (a * (K i * p i s)) = K i * ∑ s, p i s * h s (τ e s) := by
    rw [Finset.mul_sum, Finset.mul_sum]
    refine Finset.sum_congr rfl fun s _ => ?_
    field_simp
  rw [e1] at hz
  have h3 : K i * (b * (e i - nn i) + ∑ s, p i s * h s (τ e s) - d i) = 0 := by linarith
  rcases mul_eq_zero.1 h3 with h4 | h4
  · exact absurd h4 (hK i).ne'
  · show b * (e i - nn i) + ∑ s, p i s * h s (τ e s) = d i
    linarith

/-- for monotone laws the solution is unique and depends continuously on the right-hand side -/
theorem exists_strain_map {n : ℕ} {K nn : Vec 5} {a b : ℝ} (ha : 0 < a) (hb : 0 < b)
    (hK : ∀ i, 0 < K i) (p : Mat 5 n) (c : Vec n) {h : Fin n → ℝ → ℝ} (hc : ∀ s, Continuous (h s))
    (hm : ∀ s, Monotone (h s)) (h0 : ∀ s, h s 0 = 0) :
    ∃ e : Vec 5 → Vec 5, Continuous e ∧
      ∀ d i, b * (e d i - nn i) + ∑ s, p i s * h s (a * (∑ j, K j * e d j * p j s) + c s) = d i := by
  choose e he using fun d => exists_strain (nn := nn) (d := d) ha hb hK p c hc
    (fun s τ hτ => by rw [← h0 s]; exact hm s hτ) (fun s τ hτ => by rw [← h0 s]; exact hm s hτ)
  have hK' : ∀ i, 0 ≤ K i := fun i => (hK i).le
  refine ⟨e, ?_, he⟩
  have key : ∀ d1 d2, wNorm K (e d1 - e d2) ≤ 1 / b * wNorm K (d1 - d2) := by
    intro d1 d2
    set u := e d1 - e d2 with hu
    let τ : Vec 5 → Fin n → ℝ := fun d s => a * (∑ j, K j * e d j * p j s) + c s
    have hτ : ∀ s, τ d1 s - τ d2 s = a * ∑ j, K j * u j * p j s := by
      intro s
      simp only [τ, hu, Pi.sub_apply]
      rw [add_sub_add_right_eq_sub, ← mul_sub, ← Finset.sum_sub_distrib]
      congr 1
      exact Finset.sum_congr rfl fun j _ => by ring
    have hd : ∀ i, b * u i + ∑ s, p i s * (h s (τ d1 s) - h s (τ d2 s)) = (d1 - d2) i := by
      intro i
      have h1 := he d1 i
      have h2 := he d2 i
      simp only [mul_sub, Finset.sum_sub_distrib, hu, Pi.sub_apply]
      show b * e d1 i - b * e d2 i + (_ - _) = _
      rw [← h1, ← h2]
      ring
    have hpos : 0 ≤ ∑ i, K i * u i * ∑ s, p i s * (h s (τ d1 s) - h s (τ d2 s)) := by
      have e1 : ∑ i, K i * u i * ∑ s, p i s * (h s (τ d1 s) - h s (τ d2 s))
          = 1 / a * ∑ s, (τ d1 s - τ d2 s) * (h s (τ d1 s) - h s (τ d2 s)) := by
        simp only [hτ, Finset.mul_sum, Finset.sum_mul]
        rw [Finset.sum_comm]
        refine Finset.sum_congr rfl fun s _ => Finset.sum_congr rfl fun i _ => ?_
        field_simp
      rw [e1]
      refine mul_nonneg (by positivity) (Finset.sum_nonneg fun s _ => ?_)
      rcases le_total (τ d1 s) (τ d2 s) with hle | hle
      · exact mul_nonneg_of_nonpos_of_nonpos (by linarith) (by linarith [hm s hle])
      · exact mul_nonneg (by linarith) (by linarith [hm s hle])
    have hsq : b * wNorm K u ^ 2 + ∑ i, K i * u i * ∑ s, p i s * (h s (τ d1 s) - h s (τ d2 s))
        = ∑ i, K i * u i * (d1 - d2) i := by
      rw [wNorm_sq hK', Finset.mul_sum, ← Finset.sum_add_distrib]
      refine Finset.sum_congr rfl fun i _ => ?_
      rw [← hd i]; ring
    have h1 := wDot_le hK' u (d1 - d2)
    have hn := wNorm_nonneg K u
    have hn2 := wNorm_nonneg K (d1 - d2)
    rw [one_div, le_inv_mul_iff₀ hb]
    rcases hn.eq_or_lt with hz | hz
    · rw [← hz]; simpa using hn2
    · refine le_of_mul_le_mul_left ?_ hz
      nlinarith
  rw [continuous_iff_continuousAt]
  intro d0
  rw [continuousAt_pi]
  intro i
  have hwc : Continuous fun d => 1 / b * wNorm K (d - d0) := by
    unfold wNorm; fun_prop
  have hb0 : Tendsto (fun d => 1 / b * wNorm K (d - d0) / Real.sqrt (K i)) (𝓝 d0) (𝓝 0) := by
    have := (hwc.div_const (Real.sqrt (K i))).tendsto d0
    simpa [wNorm] using this
  refine tendsto_iff_dist_tendsto_zero.2 (squeeze_zero (fun _ => dist_nonneg) (fun d => ?_) hb0)
  have hs := Real.sqrt_pos.2 (hK i)
  rw [le_div_iff₀ hs, Real.dist_eq]
  refine le_trans ?_ (key d d0)
  unfold wNorm
  rw [← Real.sqrt_sq_eq_abs, ← Real.sqrt_mul (sq_nonneg _)]
  refine Real.sqrt_le_sqrt ?_
  rw [mul_comm]
  exact Finset.single_le_sum (f := fun j => K j * (e d - e d0) j ^ 2)
    (fun j _ => mul_nonneg (hK' j) (sq_nonneg _)) (Finset.mem_univ i)

namespace Updst
variable {n : ℕ} (P : Updst n)

/-- the same problem with other slip laws -/
def withLaw (h : Fin n → ℝ → ℝ) : Updst n :=
  { P with gd := fun s τ => { gdot := h s τ, dtau := 0, dg := 0 } }

theorem edot_eq' (x : Vec 8) (i : Fin 5) : P.edot x i = P.dtRi * (P.eF x i - P.eN i) := by
  simp [edot, eF, vecsVsa, vecsVxa, vecsVapb]; ring

/-- for continuous slip laws that do not oppose the stress, the strain equations have a solution for
    every rotation increment and every step length -/
theorem exists_residE (hK : ∀ k, 0 < P.el.kDiag k) (hdt : 0 < P.dt) (hv : 0 < P.detV)
    {h : Fin n → ℝ → ℝ} (hc : ∀ s, Continuous (h s)) (hp : ∀ s τ, 0 ≤ τ → 0 ≤ h s τ)
    (hn : ∀ s τ, τ ≤ 0 → h s τ ≤ 0) (r : Vec 3) :
    ∃ x : Vec 8, (∀ i, x (iR i) = r i) ∧ (P.withLaw h).residE x = 0 := by
  have ha : 0 < P.aVri := one_div_pos.2 (P.aV_pos hv)
  have hdi : 0 < P.dtRi := one_div_pos.2 hdt
  obtain ⟨e, he⟩ := exists_strain (K := P.el.kDiag) (nn := P.eN)
    (d := vecsVMTa (P.qr5x5 (block8 0 r)) P.dSm) ha (mul_pos ha hdi) hK P.geom.P
    (fun s => ∑ i : Fin 5, P.tConst i.castSucc * P.geom.P i s) hc hp hn
  set x : Vec 8 := block8 (fun i => (e i - P.eN i) / eScale) r with hx
  have hes : eScale ≠ 0 := by unfold eScale; norm_num
  have hxe : P.eF x = e := by
    funext i
    simp only [eF, vecsVapb, vecsVxa, hx, block8_iE]
    field_simp
    ring
  have hxr : P.qr5x5 x = P.qr5x5 (block8 0 r) := by
    have : xiF x = xiF (block8 0 r) := by
      funext i; simp [xiF, vecsVxa, hx]
    simp only [qr5x5, cMatx, cQuat, this]
  have hτ : ∀ s, P.taua x s = P.aVri * (∑ j, P.el.kDiag j * e j * P.geom.P j s)
      + ∑ i : Fin 5, P.tConst i.castSucc * P.geom.P i s := by
    intro s
    unfold taua vecsVaTM
    rw [hxe, Finset.mul_sum, ← Finset.sum_add_distrib]
    refine Finset.sum_congr rfl fun i _ => ?_
    simp only [elastNEtoT_castSucc]
    ring
  refine ⟨x, fun i => by rw [hx, block8_iR], ?_⟩
  funext i
  have h1 := he i
  simp only [← hτ, ← hxr] at h1
  have h2 := P.edot_eq' x i
  rw [hxe] at h2
  show P.aVri * P.edot x i + ∑ s, P.geom.P i s * h s (P.taua x s) - vecsVMTa (P.qr5x5 x) P.dSm i = 0
  rw [h2]
  linarith

/-- elastic strain at which the deviatoric lattice stress vanishes -/
noncomputable def eFree : Vec 5 := fun i => -(P.tConst i.castSucc * P.aV / P.el.kDiag i)

theorem taua_free (hK : ∀ k, 0 < P.el.kDiag k) (hv : 0 < P.detV) (x : Vec 8) (s : Fin n) :
    P.taua x s = P.aVri * ∑ i, P.el.kDiag i * (P.eF x i - P.eFree i) * P.geom.P i s := by
  have ha := P.aV_pos hv
  unfold taua vecsVaTM
  rw [Finset.mul_sum]
  refine Finset.sum_congr rfl fun i _ => ?_
  simp only [elastNEtoT_castSucc, eFree, aVri]
  have := hK i
  field_simp
  ring

/-- the plastic power in a solution of the strain equations is bounded by what was stored and supplied -/
theorem power_le (hK : ∀ k, 0 < P.el.kDiag k)
    {κ : ℝ} (hκ : ∀ k, P.el.kDiag k ≤ κ) (hdt : 0 < P.dt) (hv : 0 < P.detV)
    (x : Vec 8) {D : Vec 5} (hD : vecNorm D = vecNorm P.dSm) {g : Vec n}
    (h0 : ∀ i, P.aVri * P.edot x i + vecsVMa P.geom.P g i = D i) :
    4 * (P.dt * P.aV ^ 2) * ∑ s, P.taua x s * g s
      ≤ (wNorm P.el.kDiag (P.eN - P.eFree) + P.dt * P.aV * (Real.sqrt κ * vecNorm P.dSm)) ^ 2 := by
  have hK' : ∀ k, 0 ≤ P.el.kDiag k := fun k => (hK k).le
  have ha := P.aV_pos hv
  have htf := P.taua_free hK hv x
  set K := P.el.kDiag with hKd
  set e' := P.eF x - P.eFree with he'
  have hpl : ∑ i, K i * e' i * vecsVMa P.geom.P g i = P.aV * ∑ s, P.taua x s * g s := by
    simp only [htf, vecsVMa, Finset.mul_sum, Finset.sum_mul]
    rw [Finset.sum_comm]
    refine Finset.sum_congr rfl fun s _ => Finset.sum_congr rfl fun i _ => ?_
    rw [he', Pi.sub_apply]
    unfold aVri
    field_simp
  have hstep : ∀ i, e' i = (P.eN - P.eFree) i + P.dt * P.aV * (D i - vecsVMa P.geom.P g i) := by
    intro i
    have h1 := h0 i
    rw [P.edot_eq'] at h1
    rw [he', Pi.sub_apply, Pi.sub_apply, ← h1]
    simp only [aVri, dtRi]
    field_simp
    ring
  have hsq : wNorm K e' ^ 2 = ∑ i, K i * e' i * (P.eN - P.eFree) i
      + P.dt * P.aV * (∑ i, K i * e' i * D i)
      - P.dt * P.aV * ∑ i, K i * e' i * vecsVMa P.geom.P g i := by
    rw [wNorm_sq hK', Finset.mul_sum, Finset.mul_sum, ← Finset.sum_add_distrib,
      ← Finset.sum_sub_distrib]
    refine Finset.sum_congr rfl fun i _ => ?_
    calc K i * e' i ^ 2 = K i * e' i * e' i := by ring
      _ = K i * e' i * ((P.eN - P.eFree) i + P.dt * P.aV * (D i - vecsVMa P.geom.P g i)) := by
          rw [← hstep]
      _ = _ := by ring
  have h1 := wDot_le hK' e' (P.eN - P.eFree)
  have h2 := wDot_le hK' e' D
  have h3 : wNorm K D ≤ Real.sqrt κ * vecNorm P.dSm := by rw [← hD]; exact wNorm_le hK' hκ _
  have hda : 0 < P.dt * P.aV := mul_pos hdt ha
  have hn := wNorm_nonneg K e'
  have h4 : wNorm K e' * wNorm K D ≤ wNorm K e' * (Real.sqrt κ * vecNorm P.dSm) :=
    mul_le_mul_of_nonneg_left h3 hn
  have h5 := mul_le_mul_of_nonneg_left (h2.trans h4) hda.le
  rw [hpl] at hsq
  generalize wNorm K (P.eN - P.eFree) = N0 at *
  generalize wNorm K e' = N1 at *
  generalize Real.sqrt κ * vecNorm P.dSm = S at *
  generalize ∑ s, P.taua x s * g s = W at *
  nlinarith [sq_nonneg (N1 - (N0 + P.dt * P.aV * S) / 2)]

/-- one step never adds more elastic energy norm, measured from the stress-free strain, than was supplied,
    whatever the time step -/
theorem wNorm_step_free (hK : ∀ k, 0 < P.el.kDiag k)
    {κ : ℝ} (hκ : ∀ k, P.el.kDiag k ≤ κ) (hdt : 0 < P.dt) (hv : 0 < P.detV) (hcn : qn P.cN = 1)
    (x : Vec 8) (hd : ∀ s, 0 ≤ P.taua x s * P.gdot x s) :
    wNorm P.el.kDiag (P.eF x - P.eFree) ≤ wNorm P.el.kDiag (P.eN - P.eFree)
      + P.dt * P.aV * (Real.sqrt κ * (vecNorm P.dSm + vecNorm (P.residE x))) := by
  have hK' : ∀ k, 0 ≤ P.el.kDiag k := fun k => (hK k).le
  have ha := P.aV_pos hv
  have htf := P.taua_free hK hv x
  set K := P.el.kDiag with hKd
  set D := vecsVMTa (P.qr5x5 x) P.dSm with hD
  set e' := P.eF x - P.eFree with he'
  have hR := isRot_of_unit (P.qn_cQuat hcn x)
  have hDn : vecNorm D = vecNorm P.dSm := vecNorm_vecsVMTa_rot hR.1 _
  have hpl : 0 ≤ ∑ i, K i * e' i * vecsVMa P.geom.P (P.gdot x) i := by
    have : ∑ i, K i * e' i * vecsVMa P.geom.P (P.gdot x) i = P.aV * ∑ s, P.taua x s * P.gdot x s := by
      simp only [htf, vecsVMa, Finset.mul_sum, Finset.sum_mul]
      rw [Finset.sum_comm]
      refine Finset.sum_congr rfl fun s _ => Finset.sum_congr rfl fun i _ => ?_
      rw [he', Pi.sub_apply]
      unfold aVri
      field_simp
    rw [this]
    exact mul_nonneg ha.le (Finset.sum_nonneg fun s _ => hd s)
  have hsq : wNorm K e' ^ 2 = ∑ i, K i * e' i * (P.eN - P.eFree) i
      + P.dt * P.aV * (∑ i, K i * e' i * (D + P.residE x) i)
      - P.dt * P.aV * ∑ i, K i * e' i * vecsVMa P.geom.P (P.gdot x) i := by
    rw [wNorm_sq hK', Finset.mul_sum, Finset.mul_sum, ← Finset.sum_add_distrib,
      ← Finset.sum_sub_distrib]
    refine Finset.sum_congr rfl fun i _ => ?_
    have : e' i = (P.eN - P.eFree) i + P.dt * P.aV * (D i + P.residE x i
            - vecsVMa P.geom.P (P.gdot x) i) := by
      rw [he', Pi.sub_apply, Pi.sub_apply, P.eF_eq hdt hv x i, ← hD]; ring
    calc K i * e' i ^ 2 = K i * e' i * e' i := by ring
      _ = K i * e' i * ((P.eN - P.eFree) i + P.dt * P.aV * (D i + P.residE x i
            - vecsVMa P.geom.P (P.gdot x) i)) := by rw [← this]
      _ = _ := by rw [Pi.add_apply]; ring
  have h1 := wDot_le hK' e' (P.eN - P.eFree)
  have h2 := wDot_le hK' e' (D + P.residE x)
  have h3 : wNorm K (D + P.residE x) ≤ Real.sqrt κ * (vecNorm P.dSm + vecNorm (P.residE x)) := by
    refine (wNorm_le hK' hκ _).trans (mul_le_mul_of_nonneg_left ?_ (Real.sqrt_nonneg _))
    rw [← hDn]; exact vecNorm_add_le _ _
  have hda : 0 < P.dt * P.aV := mul_pos hdt ha
  rcases (wNorm_nonneg K e').eq_or_lt with h0 | h0
  · rw [← h0]
    have := wNorm_nonneg K (P.eN - P.eFree)
    have := vecNorm_nonneg P.dSm
    have := vecNorm_nonneg (P.residE x)
    positivity
  · refine le_of_mul_le_mul_left ?_ h0
    calc wNorm K e' * wNorm K e' = wNorm K e' ^ 2 := by ring
      _ ≤ wNorm K e' * wNorm K (P.eN - P.eFree)
            + P.dt * P.aV * (wNorm K e' * wNorm K (D + P.residE x)) := by
          rw [hsq]
          have := mul_le_mul_of_nonneg_left h2 hda.le
          have := mul_nonneg hda.le hpl
          linarith
      _ = wNorm K e' * (wNorm K (P.eN - P.eFree) + P.dt * P.aV * wNorm K (D + P.residE x)) := by ring
      _ ≤ _ := by
          have := mul_le_mul_of_nonneg_left h3 hda.le
          exact mul_le_mul_of_nonneg_left (by linarith) h0.le

end Updst
end Ecm
