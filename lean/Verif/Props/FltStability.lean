/- Property C91: the elastic strain stays bounded over whole histories computed in floating-point arithmetic. -/
import Verif.Props.ResidRound
import Verif.Props.Stability
import Verif.Lemmas.RotLip

namespace Ecm.Props
open Ecm.Spec Ecm.Flt

variable {n : ℕ} {F : Flt}

/-- a history of `N` updates as the machine computes it (src/ecmech/ECMech_evptn.h:490-510, 1121-1154,
    1219-1227): each update starts from the elastic strain and, up to its sign, from the quaternion that the
    update before has stored, and the solver has accepted the point `x k` because the residual as computed is
    not longer than `tol k`.  Everything else may change from update to update. -/
structure FltHistory (L : Libm F) (n N : ℕ) where
  R : ℕ → Run n
  x : ℕ → Vec 8
  tol : ℕ → ℝ
  strain : ∀ k, k + 1 < N → (R (k + 1)).P.eN = (R k).eF F (x k)
  turn : ∀ k, k + 1 < N → ∃ σ : ℤˣ, (R (k + 1)).q = fun i => ((σ : ℤ) : ℝ) * (R k).cQuat F (x k) i
  found : ∀ k < N, len ((R k).resid L (x k)) ≤ tol k

/-- sizes of the numbers that occur in one update: increment `D` and value `E` of the elastic strain, rotation
    increment `X`, moduli `K`, imposed rate `V` and spin `W`, slip rates `G` computed with an error of at most `δ` -/
structure Sizes where
  (D E X K V W G δ : ℝ)

/-- the numbers of the update have these sizes, the scale of the residual is away from its threshold, the slip rates
    are computed with the stated error and do not oppose the resolved stress, elasticity is cubic with the moduli `el` -/
structure Sizes.Hold (z : Sizes) (L : Libm F) (R : Run n) (x : Vec 8) (el : Elast) : Prop where
  sized : Run.Sized F R x z.D z.E z.X z.K z.V z.W
  clear : Run.Clear R
  rate : ∀ s, |R.P.gdot x s| ≤ z.G
  err : ∀ s, |R.gdot L x s - R.P.gdot x s| ≤ z.δ
  range : Pw (z.G + z.δ) 60
  along : ∀ s, 0 ≤ R.P.taua x s * R.P.gdot x s
  elas : R.P.el = el

/-- what one update can add to the size of the elastic strain apart from errors relative to that strain: the imposed
    rate, the tolerance of the solver, and the rounding errors of the imposed rate and of the slip rates -/
noncomputable def ratePart (F : Flt) (R : Run n) (z : Sizes) (tol : ℝ) : ℝ :=
  R.P.dt * R.P.detV ^ (1 / 3 : ℝ) * (z.V + tol * (R.P.adotsRef + z.V + 1 / 10 ^ 6 / R.P.dt)
    + 2.24 * (F.w * (68 * (n * (z.G + z.δ)) + 1015 * z.V) + n * z.δ))

/-- what one update can add to the size of the elastic strain -/
noncomputable def fltSupply (F : Flt) (κ : ℝ) (R : Run n) (z : Sizes) (tol : ℝ) : ℝ :=
  Real.sqrt κ * (ratePart F R z tol + 68 * F.w * z.D + 6.8 * F.w * (z.D + z.E))

theorem Sizes.Hold.unit {z : Sizes} {L : Libm F} {R : Run n} {x : Vec 8} {el : Elast} (h : z.Hold L R x el) :
    qn R.P.cN = 1 := by
  rw [qn_eq_vecNorm, h.sized.hq]
  have q0 : 0 < vecNorm R.q := lt_of_lt_of_le (by positivity) h.sized.q0
  rw [show (fun i => R.q i * (1 / len R.q)) = fun i => R.q i * (1 / vecNorm R.q) from rfl, Flt.unit_vec _ q0, one_pow]

/-- the strain part of the exact residual, without its scale, at a point that the machine accepts -/
theorem Sizes.Hold.residE {z : Sizes} {L : Libm F} {R : Run n} {x : Vec 8} {el : Elast} (h : z.Hold L R x el)
    {tol : ℝ} (ht : len (R.resid L x) ≤ tol) :
    vecNorm (R.P.residE x) ≤ tol * (R.P.adotsRef + z.V + 1 / 10 ^ 6 / R.P.dt)
      + 2.24 * (F.w * (24 * (z.D / R.P.dt) + 68 * (n * (z.G + z.δ)) + 1015 * z.V) + n * z.δ) := by
  have d0 := h.sized.dt.pos
  have s0 := R.P.epsdotScaleInv_pos d0 h.sized.ref.pos
  set s := R.P.epsdotScaleInv with hs
  set ε := F.w * (24 * (z.D / R.P.dt) + 68 * (n * (z.G + z.δ)) + 1015 * z.V) + n * z.δ with hε
  have hE := C90_strain_residual h.sized h.clear L h.range h.rate h.err
  have eE : strainErr F R z.D z.V z.G z.δ = s * ε := rfl
  rw [eE] at hE
  have ε0 : 0 ≤ ε := by
    have := (abs_nonneg _).trans (hE 0)
    exact nonneg_of_mul_nonneg_right this s0
  have h0 : 0 ≤ tol := (vecNorm_nonneg _).trans ht
  have h1 : vecNorm (R.residE L x) ≤ tol := by
    refine le_trans (Real.sqrt_le_sqrt ?_) ht
    have h8 : ∑ i : Fin 8, R.resid L x i * R.resid L x i
        = (∑ i : Fin 5, R.residE L x i * R.residE L x i) + ∑ i : Fin 3, R.residR L x i * R.residR L x i := by
      simp [Fin.sum_univ_succ, Run.resid, block8]; ring
    have h9 : 0 ≤ ∑ i : Fin 3, R.residR L x i * R.residR L x i := Finset.sum_nonneg fun i _ => mul_self_nonneg _
    simp only [Spec.dot]
    rw [h8]; linarith
  have h2 : vecNorm (fun i => s * R.P.residE x i - R.residE L x i) ≤ 2.24 * (s * ε) := by
    have p0 : 0 ≤ s * ε := mul_nonneg s0.le ε0
    refine Real.sqrt_le_iff.2 ⟨by positivity, ?_⟩
    have hi : ∀ i, (s * R.P.residE x i - R.residE L x i) * (s * R.P.residE x i - R.residE L x i) ≤ (s * ε) ^ 2 := by
      intro i
      have := abs_le.1 (hE i)
      nlinarith [this.1, this.2]
    refine (Finset.sum_le_sum fun i _ => hi i).trans ?_
    simp only [Finset.sum_const, Finset.card_univ, Fintype.card_fin, nsmul_eq_mul]
    push_cast
    nlinarith [sq_nonneg (s * ε)]
  have h3 : s * vecNorm (R.P.residE x) ≤ tol + 2.24 * (s * ε) := by
    have e : s * vecNorm (R.P.residE x) = vecNorm (s • R.P.residE x) := by
      rw [vecNorm_smul, abs_of_pos s0]
    have e2 : s • R.P.residE x = R.residE L x + fun i => s * R.P.residE x i - R.residE L x i := by
      funext i; simp
    rw [e, e2]
    exact (vecNorm_add_le _ _).trans (add_le_add h1 h2)
  have hinv := R.P.inv_epsdotScaleInv_le d0 h.sized.ref.pos
  rw [← hs] at hinv
  have h4 : vecNorm (R.P.residE x) ≤ tol * (1 / s) + 2.24 * ε := by
    have : s * vecNorm (R.P.residE x) ≤ s * (tol * (1 / s) + 2.24 * ε) := by
      rw [show s * (tol * (1 / s) + 2.24 * ε) = tol + 2.24 * (s * ε) by field_simp]
      exact h3
    exact le_of_mul_le_mul_left this s0
  have hV := h.sized.hV
  have h5 := mul_le_mul_of_nonneg_left (hinv.trans (show _ ≤ R.P.adotsRef + z.V + 1 / 10 ^ 6 / R.P.dt by linarith)) h0
  linarith

theorem aV_le (R : Run n) (h : 1 / 2 ≤ R.P.detV ∧ R.P.detV ≤ 2) : R.P.detV ^ (1 / 3 : ℝ) ≤ 1.26 := by
  have h1 : R.P.detV ^ (1 / 3 : ℝ) ≤ (1.26 ^ 3 : ℝ) ^ (1 / 3 : ℝ) :=
    Real.rpow_le_rpow (by linarith [h.1]) (by norm_num; linarith [h.2]) (by norm_num)
  have h2 : ((1.26 : ℝ) ^ 3) ^ (1 / 3 : ℝ) = 1.26 := by
    rw [← Real.rpow_natCast, ← Real.rpow_mul (by norm_num)]; norm_num
  rwa [h2] at h1

/-- exact strain at the accepted point, and the roundoff of the strain that is stored -/
theorem Sizes.Hold.parts (L : Libm F) (c11 c12 c44 : ℝ) (hc : c12 < c11 ∧ 0 < c44) {z : Sizes} {R : Run n} {x : Vec 8}
    (h : z.Hold L R x (.cubic c11 c12 c44)) {tol : ℝ} (ht : len (R.resid L x) ≤ tol) :
    wNorm (Elast.cubic c11 c12 c44).kDiag (R.P.eF x) ≤ wNorm (Elast.cubic c11 c12 c44).kDiag R.P.eN
      + Real.sqrt (max (c11 - c12) (2 * c44)) * (ratePart F R z tol + 68 * F.w * z.D) ∧
    wNorm (Elast.cubic c11 c12 c44).kDiag (R.eF F x) ≤ wNorm (Elast.cubic c11 c12 c44).kDiag (R.P.eF x)
      + Real.sqrt (max (c11 - c12) (2 * c44)) * (6.8 * F.w * (z.D + z.E)) := by
  set κ := max (c11 - c12) (2 * c44) with hκd
  have d0 := h.sized.dt.pos
  have w0 := F.w_pos
  have v0 : 0 < R.P.detV := by linarith [h.sized.det.1]
  have hk0 : ∀ k, 0 < (Elast.cubic c11 c12 c44).kDiag k := ((C47_stability_constants c11 c12 0 0 c44 0).1).2 hc
  have hk1 : ∀ k, (Elast.cubic c11 c12 c44).kDiag k ≤ κ := by
    intro k
    fin_cases k <;> simp [Elast.kDiag, κ]
  have hk0' : ∀ k, 0 ≤ (Elast.cubic c11 c12 c44).kDiag k := fun k => (hk0 k).le
  constructor
  · have hst := R.P.wNorm_step h.elas (by rw [h.elas]; exact hk0) (by rw [h.elas]; exact hk1) d0 v0 h.unit x h.along
    rw [h.elas] at hst
    have hres := h.residE ht
    have hV := h.sized.hV
    refine hst.trans (add_le_add le_rfl ?_)
    have a0 := R.P.aV_pos v0
    have a1 : R.P.aV ≤ 1.26 := aV_le R h.sized.det
    have e : R.P.dt * R.P.aV * (Real.sqrt κ * (vecNorm R.P.dSm + vecNorm (R.P.residE x)))
        = Real.sqrt κ * (R.P.dt * R.P.aV * (vecNorm R.P.dSm + vecNorm (R.P.residE x))) := by ring
    rw [e]
    refine mul_le_mul_of_nonneg_left ?_ (Real.sqrt_nonneg _)
    have m := mul_le_mul_of_nonneg_left (add_le_add hV hres) (mul_pos d0 a0).le
    refine m.trans ?_
    have e2 : ratePart F R z tol = R.P.dt * R.P.aV * (z.V + tol * (R.P.adotsRef + z.V + 1 / 10 ^ 6 / R.P.dt)
        + 2.24 * (F.w * (68 * (n * (z.G + z.δ)) + 1015 * z.V) + n * z.δ)) := rfl
    rw [e2]
    have e3 : R.P.dt * R.P.aV * (2.24 * (F.w * (24 * (z.D / R.P.dt)))) = R.P.aV * (53.76 * (F.w * z.D)) := by
      field_simp; ring
    have D0 := h.sized.D20.pos
    have e4 : R.P.aV * (53.76 * (F.w * z.D)) ≤ 1.26 * (53.76 * (F.w * z.D)) :=
      mul_le_mul_of_nonneg_right a1 (by positivity)
    have : 0 ≤ F.w * z.D := by positivity
    nlinarith
  · have hfin : vecNorm (fun i => R.eF F x i - R.P.eF x i) ≤ 6.8 * F.w * (z.D + z.E) := by
      have s0 : 0 ≤ z.D + z.E := h.sized.N20.pos.le
      refine Real.sqrt_le_iff.2 ⟨by positivity, ?_⟩
      have hi : ∀ i, (R.eF F x i - R.P.eF x i) * (R.eF F x i - R.P.eF x i) ≤ (3.03 * (z.D + z.E) * F.w) ^ 2 := by
        intro i
        have := abs_le.1 (h.sized.er_eF i).2
        nlinarith [this.1, this.2]
      have hs : ∑ i : Fin 5, (R.eF F x i - R.P.eF x i) * (R.eF F x i - R.P.eF x i)
          ≤ ∑ _i : Fin 5, (3.03 * (z.D + z.E) * F.w) ^ 2 := Finset.sum_le_sum fun i _ => hi i
      refine hs.trans ?_
      simp only [Finset.sum_const, Finset.card_univ, Fintype.card_fin, nsmul_eq_mul]
      have : 0 ≤ ((z.D + z.E) * F.w) ^ 2 := sq_nonneg _
      push_cast
      nlinarith
    have htri : wNorm (Elast.cubic c11 c12 c44).kDiag (R.eF F x)
        ≤ wNorm (Elast.cubic c11 c12 c44).kDiag (R.P.eF x)
          + wNorm (Elast.cubic c11 c12 c44).kDiag (fun i => R.eF F x i - R.P.eF x i) := by
      rw [wNorm_eq hk0', wNorm_eq hk0', wNorm_eq hk0']
      refine le_trans (le_of_eq ?_) (vecNorm_add_le _ _)
      congr 1
      funext i
      simp only [Pi.add_apply]
      ring
    have hlast := (wNorm_le hk0' hk1 (fun i => R.eF F x i - R.P.eF x i)).trans
      (mul_le_mul_of_nonneg_left hfin (Real.sqrt_nonneg _))
    linarith

/-- **C91, one update.** In floating-point arithmetic the size of the stored elastic strain grows in one update by no
    more than the imposed rate, the tolerance of the solver and a number of roundoffs supply, for any time step. -/
theorem C91_step (L : Libm F) (c11 c12 c44 : ℝ) (hc : c12 < c11 ∧ 0 < c44) {z : Sizes} {R : Run n} {x : Vec 8}
    (h : z.Hold L R x (.cubic c11 c12 c44)) {tol : ℝ} (ht : len (R.resid L x) ≤ tol) :
    energyNorm (.cubic c11 c12 c44) (vecdToSymm (R.eF F x))
      ≤ energyNorm (.cubic c11 c12 c44) (vecdToSymm R.P.eN)
        + fltSupply F (max (c11 - c12) (2 * c44)) R z tol := by
  obtain ⟨h1, h2⟩ := h.parts L c11 c12 c44 hc ht
  rw [energyNorm_eq, energyNorm_eq]
  unfold fltSupply
  rw [mul_add]
  linarith

/-- **C91, history.** After any number of updates computed in floating-point arithmetic the size of the stored elastic
    strain is below its first value plus what the updates supplied: rounding errors add up at most linearly, they are
    never amplified. -/
theorem C91_history {L : Libm F} {N : ℕ} (t : FltHistory L n N) (c11 c12 c44 : ℝ) (hc : c12 < c11 ∧ 0 < c44)
    (z : ℕ → Sizes) (h : ∀ k < N, (z k).Hold L (t.R k) (t.x k) (.cubic c11 c12 c44)) (K : ℕ) (hK : K < N) :
    energyNorm (.cubic c11 c12 c44) (vecdToSymm ((t.R K).eF F (t.x K)))
      ≤ energyNorm (.cubic c11 c12 c44) (vecdToSymm (t.R 0).P.eN)
        + ∑ k ∈ Finset.range (K + 1), fltSupply F (max (c11 - c12) (2 * c44)) (t.R k) (z k) (t.tol k) := by
  have hs := fun k (hk : k < N) => C91_step L c11 c12 c44 hc (h k hk) (t.found k hk)
  induction K with
  | zero => simpa using hs 0 hK
  | succ K ih =>
    have h1 := hs _ hK
    rw [t.strain K hK] at h1
    rw [Finset.sum_range_succ]
    have := ih (by omega)
    linarith

/-- **C91, orientation.** Along such a history the stored quaternion keeps its length to 46 roundoffs, and it is within
    57 roundoffs of what exact arithmetic makes of the quaternion before. -/
theorem C91_orientation {L : Libm F} {N : ℕ} (t : FltHistory L n N) (el : Elast)
    (z : ℕ → Sizes) (h : ∀ k < N, (z k).Hold L (t.R k) (t.x k) el) (k : ℕ) (hk : k + 1 < N) :
    |len (t.R (k + 1)).q - 1| ≤ 46 * F.u ∧ ∃ σ : ℤˣ,
      len (fun i => (t.R (k + 1)).q i - ((σ : ℤ) : ℝ) * (t.R k).P.cQuat (t.x k) i) ≤ 57 * F.w := by
  obtain ⟨σ, hσ⟩ := t.turn k hk
  obtain ⟨h1, h2, -⟩ := (h k (by omega)).sized.quat
  have e : len (t.R (k + 1)).q = len ((t.R k).cQuat F (t.x k)) := by rw [hσ]; exact vecNorm_sign _ _
  refine ⟨by rw [e]; exact h2, σ, ?_⟩
  rw [hσ]
  refine le_trans (le_of_eq ?_) h1
  have := vecNorm_sign σ (fun i => (t.R k).cQuat F (t.x k) i - (t.R k).P.cQuat (t.x k) i)
  refine Eq.trans ?_ this
  show vecNorm _ = vecNorm _
  congr 1
  funext i
  ring

theorem sqrt_mul_abs_le_wNorm {K : Vec 5} {c : ℝ} (hc : 0 ≤ c) (hK : ∀ k, c ≤ K k) (v : Vec 5) (i : Fin 5) :
    Real.sqrt c * |v i| ≤ wNorm K v := by
  rw [← Real.sqrt_sq_eq_abs, ← Real.sqrt_mul hc]
  refine Real.sqrt_le_sqrt ?_
  refine (mul_le_mul_of_nonneg_right (hK i) (sq_nonneg _)).trans ?_
  exact Finset.single_le_sum (f := fun k => K k * v k ^ 2)
    (fun k _ => mul_nonneg (hc.trans (hK k)) (sq_nonneg _)) (Finset.mem_univ i)

/-- ratio of the largest and the smallest wave speed of shear, the square root of the anisotropy -/
noncomputable def shearRatio (c11 c12 c44 : ℝ) : ℝ := Real.sqrt (max (c11 - c12) (2 * c44)) / Real.sqrt (min (c11 - c12) (2 * c44))

/-- **C91, one update, closed.** The same with errors relative to the elastic strain itself: nothing needs to be known
    about the size of the strain or of its increment beyond what the machine can represent. -/
theorem C91_step_closed (L : Libm F) (c11 c12 c44 : ℝ) (hc : c12 < c11 ∧ 0 < c44) {z : Sizes} {R : Run n} {x : Vec 8}
    (h : z.Hold L R x (.cubic c11 c12 c44)) {tol : ℝ} (ht : len (R.resid L x) ≤ tol)
    (hθ : F.w * shearRatio c11 c12 c44 ≤ 1 / 10 ^ 4) :
    energyNorm (.cubic c11 c12 c44) (vecdToSymm (R.eF F x))
      ≤ (1 + 165 * (F.w * shearRatio c11 c12 c44)) * energyNorm (.cubic c11 c12 c44) (vecdToSymm R.P.eN)
        + Real.sqrt (max (c11 - c12) (2 * c44)) * (1.02 * ratePart F R z tol + F.w / 10 ^ 18) := by
  set κ := max (c11 - c12) (2 * c44) with hκ
  set c := min (c11 - c12) (2 * c44) with hcd
  have c0 : 0 < c := lt_min (by linarith [hc.1]) (by linarith [hc.2])
  have rc0 : 0 < Real.sqrt c := Real.sqrt_pos.2 c0
  have κ0 : 0 < κ := lt_of_lt_of_le (by linarith [hc.1]) (le_max_left _ _)
  have rκ0 : 0 < Real.sqrt κ := Real.sqrt_pos.2 κ0
  have w0 := F.w_pos
  have hcK : ∀ k, c ≤ (Elast.cubic c11 c12 c44).kDiag k := by
    intro k
    fin_cases k <;> simp [Elast.kDiag, c]
  rw [energyNorm_eq, energyNorm_eq]
  set K := (Elast.cubic c11 c12 c44).kDiag with hK
  set s := wNorm K R.P.eN with hs
  set s' := wNorm K (R.P.eF x) with hs'
  have s0 : 0 ≤ s := wNorm_nonneg _ _
  have s0' : 0 ≤ s' := wNorm_nonneg _ _
  have aN : ∀ i, |R.P.eN i| ≤ s / Real.sqrt c := fun i => by
    rw [le_div_iff₀ rc0, mul_comm]; exact sqrt_mul_abs_le_wNorm c0.le hcK _ i
  have aF : ∀ i, |R.P.eF x i| ≤ s' / Real.sqrt c := fun i => by
    rw [le_div_iff₀ rc0, mul_comm]; exact sqrt_mul_abs_le_wNorm c0.le hcK _ i
  have hD : ∀ i, |Ecm.eScale * x (iE i)| ≤ s / Real.sqrt c + s' / Real.sqrt c := fun i => by
    have e : Ecm.eScale * x (iE i) = R.P.eF x i - R.P.eN i := by
      simp [Updst.eF, vecsVapb, vecsVxa]
    rw [e]
    exact (abs_sub _ _).trans (by linarith [aN i, aF i])
  set D' := min z.D (1 / 10 ^ 20 + (s / Real.sqrt c + s' / Real.sqrt c)) with hD'
  set E' := min z.E (s / Real.sqrt c) with hE'
  have h' : ({ z with D := D', E := E' } : Sizes).Hold L R x (.cubic c11 c12 c44) :=
    { h with
      sized := { h.sized with
        D20 := ⟨le_min h.sized.D20.1 (by
            have : 0 ≤ s / Real.sqrt c + s' / Real.sqrt c := by positivity
            linarith), (min_le_left _ _).trans h.sized.D20.2⟩
        hD := fun i => le_min (h.sized.hD i) (by
            have : (0:ℝ) < 1 / 10 ^ 20 := by positivity
            linarith [hD i])
        E0 := le_min h.sized.E0 (by positivity)
        E20 := (min_le_left _ _).trans h.sized.E20
        hE := fun i => le_min (h.sized.hE i) (aN i) } }
  obtain ⟨h1, h2⟩ := h'.parts L c11 c12 c44 hc ht
  rw [show ratePart F R { z with D := D', E := E' } tol = ratePart F R z tol from rfl] at h1
  rw [← hκ] at h1 h2
  rw [← hK, ← hs, ← hs'] at h1
  rw [← hK, ← hs'] at h2
  set P := ratePart F R z tol
  change s' ≤ s + Real.sqrt κ * (P + 68 * F.w * D') at h1
  change wNorm K (R.eF F x) ≤ s' + Real.sqrt κ * (6.8 * F.w * (D' + E')) at h2
  have θe : shearRatio c11 c12 c44 = Real.sqrt κ / Real.sqrt c := rfl
  set φ := F.w * shearRatio c11 c12 c44 with hφ
  have φ0 : 0 < φ := by rw [hφ, θe]; positivity
  have eD : Real.sqrt κ * (F.w * D') ≤ Real.sqrt κ * (F.w / 10 ^ 20) + φ * (s + s') := by
    have : D' ≤ 1 / 10 ^ 20 + (s / Real.sqrt c + s' / Real.sqrt c) := min_le_right _ _
    have m := mul_le_mul_of_nonneg_left this (mul_pos rκ0 w0).le
    have e : Real.sqrt κ * F.w * (1 / 10 ^ 20 + (s / Real.sqrt c + s' / Real.sqrt c))
        = Real.sqrt κ * (F.w / 10 ^ 20) + φ * (s + s') := by rw [hφ, θe]; field_simp
    linarith
  have eE : Real.sqrt κ * (F.w * E') ≤ φ * s := by
    have : E' ≤ s / Real.sqrt c := min_le_right _ _
    have m := mul_le_mul_of_nonneg_left this (mul_pos rκ0 w0).le
    have e : Real.sqrt κ * F.w * (s / Real.sqrt c) = φ * s := by rw [hφ, θe]; field_simp
    linarith
  have Q0 : 0 ≤ Real.sqrt κ * P := by
    have hV : 0 ≤ z.V := h.sized.V20.pos.le
    have htol : 0 ≤ tol := (vecNorm_nonneg _).trans ht
    have d0 := h.sized.dt.pos
    have r0 := h.sized.ref.pos
    have gd := h.range.pos
    have hδ : 0 ≤ (n : ℝ) * z.δ := by
      rcases Nat.eq_zero_or_pos n with rfl | hn
      · simp
      · exact mul_nonneg (by positivity) ((abs_nonneg _).trans (h.err ⟨0, hn⟩))
    refine mul_nonneg rκ0.le ?_
    show 0 ≤ R.P.dt * R.P.detV ^ (1 / 3 : ℝ) * (z.V + tol * (R.P.adotsRef + z.V + 1 / 10 ^ 6 / R.P.dt)
      + 2.24 * (F.w * (68 * (n * (z.G + z.δ)) + 1015 * z.V) + n * z.δ))
    have : 0 ≤ R.P.detV ^ (1 / 3 : ℝ) := Real.rpow_nonneg (by linarith [h.sized.det.1]) _
    positivity
  set q := Real.sqrt κ * P
  set η := Real.sqrt κ * (F.w / 10 ^ 20)
  have η0 : 0 ≤ η := by positivity
  have g1 : s' ≤ s + q + 68 * (η + φ * (s + s')) := by
    have : Real.sqrt κ * (P + 68 * F.w * D') = q + 68 * (Real.sqrt κ * (F.w * D')) := by ring
    linarith
  have g2 : wNorm K (R.eF F x) ≤ s' + 6.8 * (η + φ * (s + s') + φ * s) := by
    have : Real.sqrt κ * (6.8 * F.w * (D' + E'))
      = 6.8 * (Real.sqrt κ * (F.w * D') + Real.sqrt κ * (F.w * E')) := by ring
    linarith
  have eR : Real.sqrt κ * (1.02 * P + F.w / 10 ^ 18) = 1.02 * q + 100 * η := by
    simp only [q, η]; ring
  rw [eR]
  -- solve the first inequality for the exact strain
  have f1 : φ * s' ≤ 1 / 10 ^ 4 * s' := mul_le_mul_of_nonneg_right hθ s0'
  have g3 : s' ≤ 1.02 * (s + q + 68 * η) := by
    have f2 : φ * s ≤ 1 / 10 ^ 4 * s := mul_le_mul_of_nonneg_right hθ s0
    have a : s' * (1 - 68 / 10 ^ 4) ≤ s * (1 + 68 / 10 ^ 4) + q + 68 * η := by linarith
    linarith
  have f3 : φ * s' ≤ φ * (1.02 * (s + q + 68 * η)) := mul_le_mul_of_nonneg_left g3 φ0.le
  have f4 : φ * q ≤ 1 / 10 ^ 4 * q := mul_le_mul_of_nonneg_right hθ Q0
  have f5 : φ * η ≤ 1 / 10 ^ 4 * η := mul_le_mul_of_nonneg_right hθ η0
  have f6 : 0 ≤ φ * s := by positivity
  linarith

/-- **C91, history, closed.** Over `K` updates the size of the stored elastic strain is at most `(1 + 165 ε) ^ K` times
    its first value plus what was supplied from outside, where `ε` is the roundoff times the anisotropy. -/
theorem C91_history_closed {L : Libm F} {N : ℕ} (t : FltHistory L n N) (c11 c12 c44 : ℝ) (hc : c12 < c11 ∧ 0 < c44)
    (z : ℕ → Sizes) (h : ∀ k < N, (z k).Hold L (t.R k) (t.x k) (.cubic c11 c12 c44))
    (hθ : F.w * shearRatio c11 c12 c44 ≤ 1 / 10 ^ 4) (K : ℕ) (hK : K < N) :
    energyNorm (.cubic c11 c12 c44) (vecdToSymm ((t.R K).eF F (t.x K)))
      ≤ (1 + 165 * (F.w * shearRatio c11 c12 c44)) ^ (K + 1)
        * (energyNorm (.cubic c11 c12 c44) (vecdToSymm (t.R 0).P.eN)
          + ∑ k ∈ Finset.range (K + 1), Real.sqrt (max (c11 - c12) (2 * c44))
            * (1.02 * ratePart F (t.R k) (z k) (t.tol k) + F.w / 10 ^ 18)) := by
  have hs := fun k (hk : k < N) => C91_step_closed L c11 c12 c44 hc (h k hk) (t.found k hk) hθ
  set a := 1 + 165 * (F.w * shearRatio c11 c12 c44) with ha
  have w0 := F.w_pos
  have a1 : 1 ≤ a := by
    have : 0 ≤ shearRatio c11 c12 c44 := div_nonneg (Real.sqrt_nonneg _) (Real.sqrt_nonneg _)
    have := mul_nonneg w0.le this
    linarith
  set b : ℕ → ℝ := fun k => Real.sqrt (max (c11 - c12) (2 * c44))
    * (1.02 * ratePart F (t.R k) (z k) (t.tol k) + F.w / 10 ^ 18) with hb
  have b0 : ∀ k < N, 0 ≤ b k := fun k hk => by
    have hh := h k hk
    have hV : 0 ≤ (z k).V := hh.sized.V20.pos.le
    have htol : 0 ≤ t.tol k := (vecNorm_nonneg _).trans (t.found k hk)
    have d0 := hh.sized.dt.pos
    have r0 := hh.sized.ref.pos
    have gd := hh.range.pos
    have hδ : 0 ≤ (n : ℝ) * (z k).δ := by
      rcases Nat.eq_zero_or_pos n with rfl | hn
      · simp
      · exact mul_nonneg (by positivity) ((abs_nonneg _).trans (hh.err ⟨0, hn⟩))
    have : 0 ≤ (t.R k).P.detV ^ (1 / 3 : ℝ) := Real.rpow_nonneg (by linarith [hh.sized.det.1]) _
    refine mul_nonneg (Real.sqrt_nonneg _) (add_nonneg (mul_nonneg (by norm_num) ?_) (by positivity))
    show 0 ≤ (t.R k).P.dt * (t.R k).P.detV ^ (1 / 3 : ℝ) * ((z k).V
      + t.tol k * ((t.R k).P.adotsRef + (z k).V + 1 / 10 ^ 6 / (t.R k).P.dt)
      + 2.24 * (F.w * (68 * (n * ((z k).G + (z k).δ)) + 1015 * (z k).V) + n * (z k).δ))
    positivity
  have pw : ∀ m : ℕ, 1 ≤ a ^ m := fun m => one_le_pow₀ a1
  change _ ≤ a ^ (K + 1) * (_ + ∑ k ∈ Finset.range (K + 1), b k)
  induction K with
  | zero =>
    have h1 : _ ≤ _ + b 0 := hs 0 hK
    have := b0 0 hK
    simp only [zero_add, pow_one, Finset.sum_range_one]
    nlinarith
  | succ K ih =>
    have h1 : _ ≤ _ + b (K + 1) := hs _ hK
    rw [t.strain K hK] at h1
    have h2 := mul_le_mul_of_nonneg_left (ih (by omega)) (zero_le_one.trans a1)
    have h3 := b0 (K + 1) hK
    have h4 := mul_le_mul_of_nonneg_right (pw (K + 1 + 1)) h3
    rw [Finset.sum_range_succ _ (K + 1), ← add_assoc, mul_add, pow_succ a (K + 1)]
    rw [pow_succ a (K + 1)] at h4
    nlinarith

/-- **C91, double precision.** For a billion updates in double precision of a cubic crystal whose stiffest and softest
    shear differ by a factor of at most a hundred, rounding errors relative to the elastic strain add less than a
    thousandth to the bound. -/
theorem C91_double {L : Libm dbl} {N : ℕ} (t : FltHistory L n N) (c11 c12 c44 : ℝ) (hc : c12 < c11 ∧ 0 < c44)
    (ha : max (c11 - c12) (2 * c44) ≤ 100 * min (c11 - c12) (2 * c44))
    (z : ℕ → Sizes) (h : ∀ k < N, (z k).Hold L (t.R k) (t.x k) (.cubic c11 c12 c44)) (K : ℕ) (hK : K < N)
    (hN : N ≤ 10 ^ 9) :
    energyNorm (.cubic c11 c12 c44) (vecdToSymm ((t.R K).eF dbl (t.x K)))
      ≤ 1.001 * (energyNorm (.cubic c11 c12 c44) (vecdToSymm (t.R 0).P.eN)
          + ∑ k ∈ Finset.range (K + 1), Real.sqrt (max (c11 - c12) (2 * c44))
            * (1.02 * ratePart dbl (t.R k) (z k) (t.tol k) + 1 / 10 ^ 33)) := by
  have c0 : 0 < min (c11 - c12) (2 * c44) := lt_min (by linarith [hc.1]) (by linarith [hc.2])
  have θ0 : 0 ≤ shearRatio c11 c12 c44 := div_nonneg (Real.sqrt_nonneg _) (Real.sqrt_nonneg _)
  have θ1 : shearRatio c11 c12 c44 ≤ 10 := by
    unfold shearRatio
    rw [div_le_iff₀ (Real.sqrt_pos.2 c0)]
    refine (Real.sqrt_le_sqrt ha).trans (le_of_eq ?_)
    rw [Real.sqrt_mul (by norm_num), show (100:ℝ) = 10 ^ 2 by norm_num, Real.sqrt_sq (by norm_num)]
  have w0 := dbl.w_pos; have w1 := dbl_w
  have hφ : dbl.w * shearRatio c11 c12 c44 ≤ 1.12 / 10 ^ 15 := by
    refine (mul_le_mul w1 θ1 θ0 (by norm_num)).trans (by norm_num)
  have φ0 : 0 ≤ dbl.w * shearRatio c11 c12 c44 := mul_nonneg w0.le θ0
  have hh := C91_history_closed t c11 c12 c44 hc z h (hφ.trans (by norm_num)) K hK
  set φ := dbl.w * shearRatio c11 c12 c44
  have hp : (1 + 165 * φ) ^ (K + 1) ≤ 1.001 := by
    have e1 : (1 + 165 * φ) ≤ Real.exp (165 * φ) := by linarith [Real.add_one_le_exp (165 * φ)]
    have e2 : (1 + 165 * φ) ^ (K + 1) ≤ Real.exp (165 * φ) ^ (K + 1) := pow_le_pow_left₀ (by linarith) e1 _
    rw [← Real.exp_nat_mul] at e2
    have k1 : ((K + 1 : ℕ) : ℝ) ≤ 10 ^ 9 := by exact_mod_cast (show K + 1 ≤ 10 ^ 9 by omega)
    have e3 : ((K + 1 : ℕ) : ℝ) * (165 * φ) ≤ 2 / 10 ^ 4 := by
      have := mul_le_mul k1 (show 165 * φ ≤ 165 * (1.12 / 10 ^ 15) by linarith) (by linarith) (by norm_num)
      refine this.trans (by norm_num)
    have e4 : Real.exp (((K + 1 : ℕ) : ℝ) * (165 * φ)) ≤ Real.exp (2 / 10 ^ 4) := Real.exp_le_exp.2 e3
    have e5 : Real.exp (2 / 10 ^ 4) ≤ 1.001 := by
      have := Real.abs_exp_sub_one_le (x := 2 / 10 ^ 4) (by rw [abs_of_pos (by norm_num)]; norm_num)
      rw [abs_of_pos (show (0:ℝ) < 2 / 10 ^ 4 by norm_num)] at this
      have := (abs_le.1 this).2
      norm_num at this ⊢
      linarith
    linarith
  have hb : ∀ k ∈ Finset.range (K + 1), Real.sqrt (max (c11 - c12) (2 * c44))
        * (1.02 * ratePart dbl (t.R k) (z k) (t.tol k) + dbl.w / 10 ^ 18)
      ≤ Real.sqrt (max (c11 - c12) (2 * c44)) * (1.02 * ratePart dbl (t.R k) (z k) (t.tol k) + 1 / 10 ^ 33) := fun k _ => by
    refine mul_le_mul_of_nonneg_left (add_le_add le_rfl ?_) (Real.sqrt_nonneg _)
    rw [div_le_iff₀ (by norm_num)]
    refine w1.trans (by norm_num)
  have hsum := Finset.sum_le_sum hb
  have s0 : 0 ≤ energyNorm (.cubic c11 c12 c44) (vecdToSymm (t.R 0).P.eN) := Real.sqrt_nonneg _
  have q0 : 0 ≤ energyNorm (.cubic c11 c12 c44) (vecdToSymm ((t.R K).eF dbl (t.x K))) := Real.sqrt_nonneg _
  have p0 : 0 < (1 + 165 * φ) ^ (K + 1) := by positivity
  set S := energyNorm (.cubic c11 c12 c44) (vecdToSymm (t.R 0).P.eN)
    + ∑ k ∈ Finset.range (K + 1), Real.sqrt (max (c11 - c12) (2 * c44))
      * (1.02 * ratePart dbl (t.R k) (z k) (t.tol k) + dbl.w / 10 ^ 18)
  have S0 : 0 ≤ S := nonneg_of_mul_nonneg_right (q0.trans hh) p0
  have m := mul_le_mul_of_nonneg_right hp S0
  have m2 : S ≤ energyNorm (.cubic c11 c12 c44) (vecdToSymm (t.R 0).P.eN)
    + ∑ k ∈ Finset.range (K + 1), Real.sqrt (max (c11 - c12) (2 * c44))
      * (1.02 * ratePart dbl (t.R k) (z k) (t.tol k) + 1 / 10 ^ 33) := add_le_add le_rfl hsum
  have m3 := mul_le_mul_of_nonneg_left m2 (show (0:ℝ) ≤ 1.001 by norm_num)
  linarith

/-- first update of the example: the crystal of `roundEx` with a small elastic strain -/
noncomputable def course0 : Run 12 := { roundEx with P := { roundEx.P with eN := ![1 / 10 ^ 6, 0, -(1 / 10 ^ 6), 0, 0] } }
/-- trial point at which both updates of the example end -/
noncomputable def courseX : Vec 8 := fun _ => 1 / 100
/-- second update of the example: strain and quaternion as the first one stores them -/
noncomputable def course1 : Run 12 := { course0 with
  P := { course0.P with
    eN := course0.eF dbl courseX
    cN := fun i => course0.cQuat dbl courseX i * (1 / len (course0.cQuat dbl courseX)) }
  q := course0.cQuat dbl courseX }

theorem course0_sized : Run.Sized dbl course0 courseX (5 / 10 ^ 6) (1 / 10 ^ 5) (1 / 100) 151 1 1 :=
  { n30 := roundEx_sized.n30, cubic := roundEx_sized.cubic, dt := roundEx_sized.dt, ref := roundEx_sized.ref,
    det := roundEx_sized.det, D20 := roundEx_sized.D20, hD := roundEx_sized.hD, E0 := roundEx_sized.E0,
    E20 := roundEx_sized.E20
    hE := fun i => by fin_cases i <;> simp [course0] <;> norm_num
    X20 := roundEx_sized.X20, X1 := roundEx_sized.X1, hX := roundEx_sized.hX, K20 := roundEx_sized.K20,
    hK := roundEx_sized.hK, V20 := roundEx_sized.V20, hV := roundEx_sized.hV, W20 := roundEx_sized.W20,
    hW := roundEx_sized.hW, q0 := roundEx_sized.q0, q1 := roundEx_sized.q1, hq := roundEx_sized.hq,
    pT := roundEx_sized.pT, qT := roundEx_sized.qT }

theorem course1_sized : Run.Sized dbl course1 courseX (5 / 10 ^ 6) (1 / 10 ^ 5) (1 / 100) 151 1 1 := by
  have w0 := dbl.w_pos; have w1 := dbl_w
  have hl := course0_sized.quat.2.1
  have u1 := dbl_u
  have ha := abs_le.1 hl
  exact
  { n30 := roundEx_sized.n30, cubic := roundEx_sized.cubic, dt := roundEx_sized.dt, ref := roundEx_sized.ref,
    det := roundEx_sized.det, D20 := roundEx_sized.D20, hD := roundEx_sized.hD, E0 := roundEx_sized.E0,
    E20 := roundEx_sized.E20
    hE := fun i => by
      show |course0.eF dbl courseX i| ≤ _
      have h1 := (course0_sized.er_eF i).2
      have h2 : |course0.P.eF courseX i| ≤ 6 / 10 ^ 6 := by
        fin_cases i <;> simp only [Updst.eF, vecsVapb, vecsVxa, course0, courseX, Ecm.eScale] <;>
          rw [abs_le] <;> constructor <;> norm_num
      have h3 : 3.03 * (5 / 10 ^ 6 + 1 / 10 ^ 5) * dbl.w ≤ 1 / 10 ^ 6 := by
        refine (mul_le_mul_of_nonneg_left w1 (by norm_num)).trans (by norm_num)
      have := abs_add_le (course0.eF dbl courseX i - course0.P.eF courseX i) (course0.P.eF courseX i)
      rw [sub_add_cancel] at this
      refine this.trans ?_
      have h4 : (1 / 10 ^ 6 + 6 / 10 ^ 6 : ℝ) ≤ 1 / 10 ^ 5 := by norm_num
      linarith
    X20 := roundEx_sized.X20, X1 := roundEx_sized.X1, hX := roundEx_sized.hX, K20 := roundEx_sized.K20,
    hK := roundEx_sized.hK, V20 := roundEx_sized.V20, hV := roundEx_sized.hV, W20 := roundEx_sized.W20,
    hW := roundEx_sized.hW
    q0 := by
      show _ ≤ len (course0.cQuat dbl courseX)
      have : (1 / 10 ^ 91 : ℝ) ≤ 1 / 2 := by norm_num
      have : (46 * (1.12 / 10 ^ 16) : ℝ) ≤ 1 / 2 := by norm_num
      linarith [ha.1]
    q1 := by
      show len (course0.cQuat dbl courseX) ≤ _
      have : (2 : ℝ) ≤ 10 ^ 100 := by norm_num
      have : (46 * (1.12 / 10 ^ 16) : ℝ) ≤ 1 / 2 := by norm_num
      linarith [ha.2]
    hq := rfl, pT := roundEx_sized.pT, qT := roundEx_sized.qT }

/-- sizes of the example -/
noncomputable def courseZ : Sizes := ⟨5 / 10 ^ 6, 1 / 10 ^ 5, 1 / 100, 151, 1, 1, 1, 2.8 / 10 ^ 13⟩

theorem course_hold {R : Run 12} (hs : Run.Sized dbl R courseX (5 / 10 ^ 6) (1 / 10 ^ 5) (1 / 100) 151 1 1)
    (hd : R.P.dSm = roundEx.P.dSm) (ha : R.P.adotsRef = roundEx.P.adotsRef)
    (hel : R.P.el = .cubic 168.4 121.4 75.2) (hl : ∀ s, R.law s = voceLaw dblLibm copperVoce 17e-3)
    (hP : ∀ s, R.P.gd s = copperVoce.evalGdot 17e-3) :
    courseZ.Hold dblLibm R courseX (.cubic 168.4 121.4 75.2) := by
  obtain ⟨h1, h2⟩ := copper_rates hs dblLibm le_rfl (by norm_num) hl hP
  refine ⟨hs, Or.inr ?_, h2, h1, Pw.of_num 60 (by norm_num [courseZ]) (by norm_num [courseZ]), fun s => ?_, hel⟩
  · rw [hd, ha, show vecNorm roundEx.P.dSm = 1 from roundEx_d, show epsdotSclNzeff = 1 / 10 ^ 8 from rfl]
    norm_num [roundEx, probEx]
  · unfold Updst.gdot
    rw [hP s]
    exact (C24_sign copperVoce (by norm_num [copperVoce]) (by norm_num [copperVoce]) _ _ (by norm_num)).2.2

/-- two updates in double precision, each ending at a point whose residual has not been rounded away -/
noncomputable def course : FltHistory dblLibm 12 2 where
  R := fun k => if k = 0 then course0 else course1
  x := fun _ => courseX
  tol := fun k => len ((if k = 0 then course0 else course1).resid dblLibm courseX)
  strain := fun k hk => by
    obtain rfl : k = 0 := by omega
    rfl
  turn := fun k hk => by
    obtain rfl : k = 0 := by omega
    exact ⟨1, by funext i; simp [course1]⟩
  found := fun k _ => le_rfl

/-- hypotheses of the theorems of this file -/
example : (∀ k < 2, courseZ.Hold dblLibm (course.R k) (course.x k) (.cubic 168.4 121.4 75.2)) ∧
    max (168.4 - 121.4) (2 * 75.2) ≤ 100 * min (168.4 - 121.4) (2 * (75.2 : ℝ)) := by
  refine ⟨fun k hk => ?_, by norm_num⟩
  interval_cases k
  · exact course_hold course0_sized rfl rfl rfl (fun _ => rfl) (fun _ => rfl)
  · exact course_hold course1_sized rfl rfl rfl (fun _ => rfl) (fun _ => rfl)

end Ecm.Props
