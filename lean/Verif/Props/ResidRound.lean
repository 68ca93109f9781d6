/- Property C90: rounding of the residual that is handed to the nonlinear solver. -/
import Verif.Lemmas.ResidScale
import Verif.Lemmas.LawRound
import Verif.Lemmas.TableRound
import Verif.Props.Runs

namespace Ecm.Props
open Ecm.Spec Ecm.Flt

variable {n : ℕ} {F : Flt} {R : Run n} {x : Vec 8} {D E X K V W : ℝ}

/-- bound for the error of each of the first five components when the slip rates, at most `G`, are computed with
    an error of at most `δ` -/
noncomputable def strainErr (F : Flt) (R : Run n) (D V G δ : ℝ) : ℝ :=
  R.P.epsdotScaleInv * (F.w * (24 * (D / R.P.dt) + 68 * (n * (G + δ)) + 1015 * V) + n * δ)

/-- bound for the error of each of the last three components -/
noncomputable def rotationErr (F : Flt) (R : Run n) (D E X W G δ : ℝ) : ℝ :=
  R.P.epsdotScaleInv * (F.w * (13 * (X / R.P.dt) + 1300 * W + 70 * (n * (G + δ))
    + 240 * ((D + E) * (D / R.P.dt))) + n * δ)

theorem rates_le {L : Libm F} {G δ : ℝ} (hg : ∀ s, |R.P.gdot x s| ≤ G)
    (hδ : ∀ s, |R.gdot L x s - R.P.gdot x s| ≤ δ) (s : Fin n) : |R.gdot L x s| ≤ G + δ := by
  have := abs_add_le (R.gdot L x s - R.P.gdot x s) (R.P.gdot x s)
  rw [sub_add_cancel] at this
  linarith [hg s, hδ s]

/-- **C90, strain part.** Every component of the first block of the residual as the machine computes it is right
    up to a number of roundoffs times the sizes of its terms, plus the errors of the slip rates. -/
theorem C90_strain_residual (h : Run.Sized F R x D E X K V W) (hc : Run.Clear R) (L : Libm F) {G δ : ℝ}
    (hG : Pw (G + δ) 60) (hg : ∀ s, |R.P.gdot x s| ≤ G) (hδ : ∀ s, |R.gdot L x s - R.P.gdot x s| ≤ δ) (i : Fin 5) :
    |R.residE L x i - R.P.epsdotScaleInv * R.P.residE x i| ≤ strainErr F R D V G δ := by
  have h1 := h.er_residE hc L hG (rates_le hg hδ) i
  have s0 := (h.rel_sE hc).2.pos
  have h2 : |R.P.epsdotScaleInv * Run.exactE R x (R.gdot L x) i - R.P.epsdotScaleInv * R.P.residE x i|
      ≤ R.P.epsdotScaleInv * (n * δ) := by
    rw [← mul_sub, abs_mul, abs_of_pos s0]
    refine mul_le_mul_of_nonneg_left ?_ s0.le
    have e : Run.exactE R x (R.gdot L x) i - R.P.residE x i
        = vecsVMa R.P.geom.P (R.gdot L x) i - vecsVMa R.P.geom.P (R.P.gdot x) i := by
      unfold Run.exactE Updst.residE; ring
    rw [e]
    exact Run.table_diff (fun i s => (h.pT i s).1) hδ i
  have h3 := abs_sub_le (R.residE L x i) (R.P.epsdotScaleInv * Run.exactE R x (R.gdot L x) i)
    (R.P.epsdotScaleInv * R.P.residE x i)
  unfold strainErr
  rw [mul_add]
  linarith

/-- **C90, rotation part.** The same for the second block. -/
theorem C90_rotation_residual (h : Run.Sized F R x D E X K V W) (hc : Run.Clear R) (L : Libm F) {G δ : ℝ}
    (hG : Pw (G + δ) 60) (hg : ∀ s, |R.P.gdot x s| ≤ G) (hδ : ∀ s, |R.gdot L x s - R.P.gdot x s| ≤ δ) (i : Fin 3) :
    |R.residR L x i - R.P.rotincrScaleInv * R.P.residR x i| ≤ rotationErr F R D E X W G δ := by
  have h1 := h.er_residR hc L hG (rates_le hg hδ) i
  have s0 := (h.rel_sE hc).2.pos
  have d0 := h.dt.pos
  have e0 : R.P.rotincrScaleInv * R.P.dt = R.P.epsdotScaleInv := by
    unfold Updst.rotincrScaleInv Updst.dtRi; field_simp
  have h2 : |R.P.rotincrScaleInv * Run.exactR R x (R.gdot L x) i - R.P.rotincrScaleInv * R.P.residR x i|
      ≤ R.P.epsdotScaleInv * (n * δ) := by
    have e : R.P.rotincrScaleInv * Run.exactR R x (R.gdot L x) i - R.P.rotincrScaleInv * R.P.residR x i
        = R.P.rotincrScaleInv * R.P.dt *
          (vecsVMa R.P.geom.Q (R.gdot L x) i - vecsVMa R.P.geom.Q (R.P.gdot x) i) := by
      unfold Run.exactR Updst.residR; ring
    rw [e, e0, abs_mul, abs_of_pos s0]
    exact mul_le_mul_of_nonneg_left (Run.table_diff (fun i s => (h.qT i s).1) hδ i) s0.le
  have h3 := abs_sub_le (R.residR L x i) (R.P.rotincrScaleInv * Run.exactR R x (R.gdot L x) i)
    (R.P.rotincrScaleInv * R.P.residR x i)
  unfold rotationErr
  rw [mul_add]
  linarith

/-- **C90, solver.** A residual that the machine finds to be below the tolerance is in exact arithmetic below the
    tolerance plus the rounding errors. -/
theorem C90_solver (h : Run.Sized F R x D E X K V W) (hc : Run.Clear R) (L : Libm F) {G δ : ℝ}
    (hG : Pw (G + δ) 60) (hg : ∀ s, |R.P.gdot x s| ≤ G) (hδ : ∀ s, |R.gdot L x s - R.P.gdot x s| ≤ δ) {tol : ℝ}
    (ht : len (R.resid L x) ≤ tol) :
    len (R.P.resid x) ≤ tol
      + Real.sqrt (5 * strainErr F R D V G δ ^ 2 + 3 * rotationErr F R D E X W G δ ^ 2) := by
  have hE := C90_strain_residual h hc L hG hg hδ
  have hR := C90_rotation_residual h hc L hG hg hδ
  have hd : len (fun i => R.P.resid x i - R.resid L x i)
      ≤ Real.sqrt (5 * strainErr F R D V G δ ^ 2 + 3 * rotationErr F R D E X W G δ ^ 2) := by
    have sq : ∀ {a b c : ℝ}, |a - b| ≤ c → (b - a) * (b - a) ≤ c ^ 2 := fun {a b c} hh => by
      have := sq_le_sq' (a := b - a) (b := c) (by linarith [(abs_le.1 hh).2]) (by linarith [(abs_le.1 hh).1])
      linarith [sq (b - a)]
    refine Real.sqrt_le_sqrt ?_
    simp only [Spec.dot, Fin.sum_univ_eight]
    have e0 := sq (hE 0); have e1 := sq (hE 1); have e2 := sq (hE 2); have e3 := sq (hE 3); have e4 := sq (hE 4)
    have r0 := sq (hR 0); have r1 := sq (hR 1); have r2 := sq (hR 2)
    have t : ∀ a b c d e f g k : ℝ, a ≤ strainErr F R D V G δ ^ 2 → b ≤ strainErr F R D V G δ ^ 2 →
        c ≤ strainErr F R D V G δ ^ 2 → d ≤ strainErr F R D V G δ ^ 2 → e ≤ strainErr F R D V G δ ^ 2 →
        f ≤ rotationErr F R D E X W G δ ^ 2 → g ≤ rotationErr F R D E X W G δ ^ 2 →
        k ≤ rotationErr F R D E X W G δ ^ 2 →
        a + b + c + d + e + f + g + k ≤ 5 * strainErr F R D V G δ ^ 2 + 3 * rotationErr F R D E X W G δ ^ 2 := by
      intros; linarith
    exact t _ _ _ _ _ _ _ _ e0 e1 e2 e3 e4 r0 r1 r2
  have : len (R.resid L x + fun i => R.P.resid x i - R.resid L x i)
      ≤ len (R.resid L x) + len (fun i => R.P.resid x i - R.resid L x i) := vecNorm_add_le _ _
  have e : (R.resid L x + fun i => R.P.resid x i - R.resid L x i) = R.P.resid x := by
    funext i; simp
  rw [e] at this
  linarith

/-- **C90, slip rates of the power law.** The error of the resolved stresses, 240 roundoffs of elastic modulus times
    elastic strain, is amplified by the inverse of the rate sensitivity; the library functions add an error that
    is relative to the rate. -/
theorem C90_slip_rate (h : Run.Sized F R x D E X K V W) (L : Libm F) (k : Voce) {g T : ℝ} (s : Fin n)
    (hl : R.law s = voceLaw L k g) (hP : R.P.gd s = k.evalGdot g) (hm : 1 / 1000 ≤ k.xm) (hm1 : k.xm ≤ 1)
    (hγ : 1 / 10 ^ 100 ≤ k.gamW) (hγ1 : k.gamW ≤ 10 ^ 100) (hg : 1 / 10 ^ 100 ≤ g) (hg1 : g ≤ 10 ^ 40)
    (ht : |R.P.taua x s| ≤ T)
    (hT : T + 240 * F.w * (K * (D + E)) ≤ 0.99 * ((10 ^ 60 : ℝ) ^ k.xm * g)) :
    |R.gdot L x s - R.P.gdot x s|
      ≤ k.gamW * ((710 + 2.1 / k.xm) * F.u * ((T + 240 * F.w * (K * (D + E))) / g) ^ (1 / k.xm)
        + 1.01 / k.xm * ((T + 240 * F.w * (K * (D + E))) / g) ^ (1 / k.xm - 1)
          * (240 * F.w * (K * (D + E)) / g) + 3 / 10 ^ 60) := by
  have e1 : R.gdot L x s = voceLaw L k g (R.taua L x s) := by unfold Run.gdot; rw [hl]
  have e2 : R.P.gdot x s = (k.evalGdot g (R.P.taua x s)).gdot := by unfold Updst.gdot; rw [hP]
  rw [e1, e2]
  refine voceLaw_err L k hm hm1 hγ hγ1 hg hg1 ht ?_ hT
  have := (h.er_taua L s).2
  linarith

/-- **C90, tables.** The tables of the twelve slip systems of face centred cubic crystals, and of the twelve of body
    centred cubic ones, are right up to 20 roundoffs. -/
theorem C90_tables (F : Flt) :
    ((∀ k a, F.Er (F.tableP (fun i => F.stored (fccM i)) (fun i => F.stored (fccS i)) k a)
        ((slipPQ fccM fccS).P k a) 20 1) ∧
     (∀ k a, F.Er (F.tableQ (fun i => F.stored (fccM i)) (fun i => F.stored (fccS i)) k a)
        ((slipPQ fccM fccS).Q k a) 20 1)) ∧
    ((∀ k a, F.Er (F.tableP (fun i => F.stored (bccM12 i)) (fun i => F.stored (bccS12 i)) k a)
        ((slipPQ bccM12 bccS12).P k a) 20 1) ∧
     (∀ k a, F.Er (F.tableQ (fun i => F.stored (bccM12 i)) (fun i => F.stored (bccS12 i)) k a)
        ((slipPQ bccM12 bccS12).Q k a) 20 1)) := by
  refine ⟨table_err (fun a => near_stored fun i => ?_) (fun a => near_stored fun i => ?_),
    table_err (fun a => near_stored fun i => ?_) (fun a => near_stored fun i => ?_)⟩ <;>
  · fin_cases a <;> fin_cases i <;> simp [fccM, fccS, bccM12, bccS12, bccBaseM, bccBaseS]

theorem dbl_w : dbl.w ≤ 1.12 / 10 ^ 16 := by
  have : dbl.u = 2⁻¹ ^ 53 := rfl
  unfold Flt.w
  rw [this]
  norm_num

theorem dbl_u : dbl.u ≤ 1.12 / 10 ^ 16 := by
  have : dbl.u = 2⁻¹ ^ 53 := rfl
  rw [this]
  norm_num

theorem voce_rate_le_ref (k : Voce) (hm : 0 < k.xm) (hw : 0 < k.gamW) {g : ℝ} (hg : 0 < g) {τ : ℝ} (h : |τ| ≤ g) :
    |(k.evalGdot g τ).gdot| ≤ k.gamW := by
  have e2 : k.tMax = (10 ^ 60 : ℝ) ^ k.xm := by unfold Voce.tMax gamRatioOvf; norm_num
  have hs : |(if 0 < τ then (1 : ℝ) else -1)| = 1 := by split_ifs <;> simp
  have h1 : |τ| / g ≤ 1 := (div_le_one hg).2 h
  rcases le_or_gt (|τ| / g) k.tMin with h2 | h2
  · rw [k.evalGdot_low hg h2]
    simpa using hw.le
  · have h' : |τ| / g ≤ k.tMax := by
      rw [e2]; exact h1.trans (Real.one_le_rpow (by norm_num) hm.le)
    rw [k.gdot_mid hg h2 h', abs_mul, hs, one_mul]
    have h0 : 0 ≤ |τ| / g := by positivity
    have := Real.rpow_le_one h0 h1 (k.xnn_pos hm).le
    rw [abs_of_nonneg (mul_nonneg hw.le (Real.rpow_nonneg h0 _))]
    nlinarith

/-- the slip rates of copper in double precision when the resolved stress does not exceed the strength -/
theorem copper_rates {R : Run 12} (h : Run.Sized dbl R x (5 / 10 ^ 6) (1 / 10 ^ 5) (1 / 100) 151 1 1) (L : Libm dbl)
    {g : ℝ} (hg : 17e-3 ≤ g) (hg1 : g ≤ 122.4e-3) (hl : ∀ s, R.law s = voceLaw L copperVoce g)
    (hP : ∀ s, R.P.gd s = copperVoce.evalGdot g) :
    (∀ s, |R.gdot L x s - R.P.gdot x s| ≤ 2.8 / 10 ^ 13) ∧ ∀ s, |R.P.gdot x s| ≤ 1 := by
  have w0 := dbl.w_pos; have w1 := dbl_w; have u0 := dbl.u_nonneg; have u1 := dbl_u
  have exm : copperVoce.xm = 0.02 := rfl
  have egw : copperVoce.gamW = 1 := rfl
  have g0 : 0 < g := by linarith
  have ht : ∀ s, |R.P.taua x s| ≤ 0.01473 := fun s => by
    refine ((h.er_taua L s).1).trans ?_
    norm_num
  have hε : 240 * dbl.w * (151 * (5 / 10 ^ 6 + 1 / 10 ^ 5)) ≤ 6.1 / 10 ^ 17 := by
    have : (240 * (1.12 / 10 ^ 16) * (151 * (5 / 10 ^ 6 + 1 / 10 ^ 5)) : ℝ) ≤ 6.1 / 10 ^ 17 := by norm_num
    linarith
  have hε0 : 0 ≤ 240 * dbl.w * (151 * (5 / 10 ^ 6 + 1 / 10 ^ 5)) := by positivity
  set ε := 240 * dbl.w * (151 * (5 / 10 ^ 6 + 1 / 10 ^ 5)) with hεd
  have hr : (0.01473 + ε) / g ≤ 1 := by
    rw [div_le_one g0]
    have : (6.1 / 10 ^ 17 : ℝ) ≤ 0.001 := by norm_num
    linarith
  have hr0 : 0 ≤ (0.01473 + ε) / g := by positivity
  have hδ : ∀ s, |R.gdot L x s - R.P.gdot x s| ≤ 2.8 / 10 ^ 13 := fun s => by
    have := C90_slip_rate h L copperVoce s (hl s) (hP s) (by rw [exm]; norm_num) (by rw [exm]; norm_num)
      (by rw [egw]; norm_num) (by rw [egw]; norm_num) (by refine le_trans ?_ hg; norm_num)
      (by refine le_trans hg1 ?_; norm_num) (ht s) (by
        rw [← hεd]
        have a1 : (1:ℝ) ≤ (10 ^ 60 : ℝ) ^ copperVoce.xm := Real.one_le_rpow (by norm_num) (by rw [exm]; norm_num)
        have a2 := mul_le_mul_of_nonneg_right a1 g0.le
        have : (6.1 / 10 ^ 17 : ℝ) ≤ 0.001 := by norm_num
        have a3 : ε ≤ 0.001 := hε.trans this
        rw [one_mul] at a2
        have a4 : 0.99 * g ≤ 0.99 * ((10 ^ 60 : ℝ) ^ copperVoce.xm * g) := mul_le_mul_of_nonneg_left a2 (by norm_num)
        refine le_trans ?_ a4
        linarith)
    refine this.trans ?_
    rw [← hεd, egw, exm, one_mul]
    have p1 : ((0.01473 + ε) / g) ^ (1 / (0.02:ℝ)) ≤ 1 := Real.rpow_le_one hr0 hr (by norm_num)
    have p2 : ((0.01473 + ε) / g) ^ (1 / (0.02:ℝ) - 1) ≤ 1 := Real.rpow_le_one hr0 hr (by norm_num)
    have q1 := Real.rpow_nonneg hr0 (1 / (0.02:ℝ))
    have q2 := Real.rpow_nonneg hr0 (1 / (0.02:ℝ) - 1)
    set A := ((0.01473 + ε) / g) ^ (1 / (0.02:ℝ))
    set B := ((0.01473 + ε) / g) ^ (1 / (0.02:ℝ) - 1)
    have e1 : ε / g ≤ 3.6 / 10 ^ 15 := by
      rw [div_le_iff₀ g0]
      have : (3.6 / 10 ^ 15 * 17e-3 : ℝ) ≤ 3.6 / 10 ^ 15 * g := mul_le_mul_of_nonneg_left hg (by norm_num)
      refine hε.trans (le_trans ?_ this)
      norm_num
    have e0 : 0 ≤ ε / g := by positivity
    have t1 : (710 + 2.1 / (0.02:ℝ)) * dbl.u * A ≤ (710 + 2.1 / (0.02:ℝ)) * (1.12 / 10 ^ 16) * 1 := by
      refine mul_le_mul ?_ p1 q1 (by norm_num)
      exact mul_le_mul_of_nonneg_left u1 (by norm_num)
    have t2 : 1.01 / (0.02:ℝ) * B * (ε / g) ≤ 1.01 / (0.02:ℝ) * 1 * (3.6 / 10 ^ 15) := by
      refine mul_le_mul ?_ e1 e0 (by norm_num)
      exact mul_le_mul_of_nonneg_left p2 (by norm_num)
    have t3 : ((710 + 2.1 / (0.02:ℝ)) * (1.12 / 10 ^ 16) * 1 + 1.01 / (0.02:ℝ) * 1 * (3.6 / 10 ^ 15) + 3 / 10 ^ 60)
        ≤ 2.8 / 10 ^ 13 := by norm_num
    linarith
  have hG : ∀ s, |R.P.gdot x s| ≤ 1 := fun s => by
    unfold Updst.gdot
    rw [hP s]
    exact voce_rate_le_ref copperVoce (by rw [exm]; norm_num) (by rw [egw]; norm_num) g0 ((ht s).trans (by linarith))
  exact ⟨hδ, hG⟩

/-- **C90, double precision.** With the copper parameters of the repository, twelve slip systems and a resolved
    stress that does not exceed the strength, every component of the residual is computed in double precision with
    an error below 1e-11. -/
theorem C90_double {R : Run 12} (h : Run.Sized dbl R x (5 / 10 ^ 6) (1 / 10 ^ 5) (1 / 100) 151 1 1)
    (hd : 1 / 2 ≤ len R.P.dSm) (hdt : 1 / 1000 ≤ R.P.dt) (hA : R.P.adotsRef = 1) (L : Libm dbl) {g : ℝ}
    (hg : 17e-3 ≤ g) (hg1 : g ≤ 122.4e-3) (hl : ∀ s, R.law s = voceLaw L copperVoce g)
    (hP : ∀ s, R.P.gd s = copperVoce.evalGdot g) (i : Fin 8) :
    |R.resid L x i - R.P.resid x i| ≤ 1 / 10 ^ 11 := by
  have w0 := dbl.w_pos; have w1 := dbl_w
  have hV : len R.P.dSm ≤ 1 := h.hV
  have hθ : epsdotSclNzeff * R.P.adotsRef = 1 / 10 ^ 8 := by rw [hA, show epsdotSclNzeff = 1 / 10 ^ 8 from rfl, mul_one]
  have hc : Run.Clear R := Or.inr (by
    rw [hθ]
    refine le_trans ?_ hd
    norm_num)
  have hs : R.P.epsdotScaleInv ≤ 2 := by
    have e : R.P.epsdotScaleInv = min (1 / vecNorm R.P.dSm) (10 ^ 6 * R.P.dt) := by
      simp only [Updst.epsdotScaleInv]
      have hd' : 1 / 2 ≤ vecNorm R.P.dSm := hd
      rw [hθ, if_neg (by norm_num; linarith), if_neg (by linarith)]
    rw [e]
    refine (min_le_left _ _).trans ?_
    have hd' : 1 / 2 ≤ vecNorm R.P.dSm := hd
    rw [div_le_iff₀ (lt_of_lt_of_le (by norm_num) hd')]
    linarith
  have s0 := (h.rel_sE hc).2.pos
  obtain ⟨hδ, hG⟩ := copper_rates h L hg hg1 hl hP
  have pG : Pw (1 + 2.8 / 10 ^ 13 : ℝ) 60 := Pw.of_num 60 (by norm_num) (by norm_num)
  have cE := C90_strain_residual h hc L pG hG hδ
  have cR := C90_rotation_residual h hc L pG hG hδ
  have ri : 1 / R.P.dt ≤ 1000 := by
    rw [div_le_iff₀ (by linarith)]; linarith
  have ri0 : 0 < 1 / R.P.dt := one_div_pos.2 (by linarith)
  have bE : strainErr dbl R (5 / 10 ^ 6) 1 1 (2.8 / 10 ^ 13) ≤ 1 / 10 ^ 11 := by
    unfold strainErr
    have a : 24 * (5 / 10 ^ 6 / R.P.dt) + 68 * (((12 : ℕ) : ℝ) * (1 + 2.8 / 10 ^ 13)) + 1015 * 1 ≤ 1900 := by
      rw [show (5 / 10 ^ 6 / R.P.dt : ℝ) = 5 / 10 ^ 6 * (1 / R.P.dt) by ring]
      push_cast; linarith
    have a0 : 0 ≤ 24 * (5 / 10 ^ 6 / R.P.dt) + 68 * (((12 : ℕ) : ℝ) * (1 + 2.8 / 10 ^ 13)) + 1015 * 1 := by
      rw [show (5 / 10 ^ 6 / R.P.dt : ℝ) = 5 / 10 ^ 6 * (1 / R.P.dt) by ring]
      push_cast; positivity
    have b := mul_le_mul w1 a a0 (by norm_num)
    have c : (1.12 / 10 ^ 16 * 1900 + ((12 : ℕ) : ℝ) * (2.8 / 10 ^ 13) : ℝ) ≤ 5 / 10 ^ 12 := by norm_num
    have d := mul_le_mul hs (le_trans (add_le_add_left b (((12 : ℕ) : ℝ) * (2.8 / 10 ^ 13))) c)
      (add_nonneg (mul_nonneg w0.le a0) (by norm_num)) (by norm_num)
    refine d.trans ?_
    norm_num
  have bR : rotationErr dbl R (5 / 10 ^ 6) (1 / 10 ^ 5) (1 / 100) 1 1 (2.8 / 10 ^ 13) ≤ 1 / 10 ^ 11 := by
    unfold rotationErr
    have a : 13 * (1 / 100 / R.P.dt) + 1300 * 1 + 70 * (((12 : ℕ) : ℝ) * (1 + 2.8 / 10 ^ 13))
        + 240 * ((5 / 10 ^ 6 + 1 / 10 ^ 5) * (5 / 10 ^ 6 / R.P.dt)) ≤ 2400 := by
      rw [show (5 / 10 ^ 6 / R.P.dt : ℝ) = 5 / 10 ^ 6 * (1 / R.P.dt) by ring,
        show (1 / 100 / R.P.dt : ℝ) = 1 / 100 * (1 / R.P.dt) by ring]
      push_cast; linarith
    have a0 : 0 ≤ 13 * (1 / 100 / R.P.dt) + 1300 * 1 + 70 * (((12 : ℕ) : ℝ) * (1 + 2.8 / 10 ^ 13))
        + 240 * ((5 / 10 ^ 6 + 1 / 10 ^ 5) * (5 / 10 ^ 6 / R.P.dt)) := by
      rw [show (5 / 10 ^ 6 / R.P.dt : ℝ) = 5 / 10 ^ 6 * (1 / R.P.dt) by ring,
        show (1 / 100 / R.P.dt : ℝ) = 1 / 100 * (1 / R.P.dt) by ring]
      push_cast; positivity
    have b := mul_le_mul w1 a a0 (by norm_num)
    have c : (1.12 / 10 ^ 16 * 2400 + ((12 : ℕ) : ℝ) * (2.8 / 10 ^ 13) : ℝ) ≤ 5 / 10 ^ 12 := by norm_num
    have d := mul_le_mul hs (le_trans (add_le_add_left b (((12 : ℕ) : ℝ) * (2.8 / 10 ^ 13))) c)
      (add_nonneg (mul_nonneg w0.le a0) (by norm_num)) (by norm_num)
    refine d.trans ?_
    norm_num
  fin_cases i
  · exact (cE 0).trans bE
  · exact (cE 1).trans bE
  · exact (cE 2).trans bE
  · exact (cE 3).trans bE
  · exact (cE 4).trans bE
  · exact (cR 0).trans bR
  · exact (cR 1).trans bR
  · exact (cR 2).trans bR

/-- a crystal of copper in double precision: tables computed, quaternion stored without being of unit length -/
noncomputable def roundEx : Run 12 where
  P := { probEx with
    el := .cubic 168.4 121.4 75.2
    gd := fun _ => copperVoce.evalGdot 17e-3
    detV := 1
    eN := ![1 / 10 ^ 5, 0, -(1 / 10 ^ 6), 0, 0]
    dSm := ![3 / 5, 0, 4 / 5, 0, 0]
    wSm := ![0, 1 / 2, 1 / 2] }
  q := ![6 / 5, 0, 8 / 5, 0]
  pT := dbl.tableP (fun i => dbl.stored (fccM i)) (fun i => dbl.stored (fccS i))
  qT := dbl.tableQ (fun i => dbl.stored (fccM i)) (fun i => dbl.stored (fccS i))
  law := fun _ => voceLaw dblLibm copperVoce 17e-3

theorem roundEx_d : len roundEx.P.dSm = 1 := by
  have : dot roundEx.P.dSm roundEx.P.dSm = 1 := by
    simp [roundEx, Spec.dot, Fin.sum_univ_five]; norm_num
  show Real.sqrt _ = 1
  rw [this, Real.sqrt_one]

theorem roundEx_sized : Run.Sized dbl roundEx (fun _ => 1 / 100) (5 / 10 ^ 6) (1 / 10 ^ 5) (1 / 100) 151 1 1 where
  n30 := by norm_num
  cubic := ⟨_, _, _, rfl⟩
  dt := Pw.of_num 20 (by norm_num [roundEx, probEx]) (by norm_num [roundEx, probEx])
  ref := Pw.of_num 20 (by norm_num [roundEx, probEx]) (by norm_num [roundEx, probEx])
  det := by norm_num [roundEx]
  D20 := Pw.of_num 20 (by norm_num) (by norm_num)
  hD := fun i => by rw [abs_of_pos (by norm_num [Ecm.eScale])]; norm_num [Ecm.eScale]
  E0 := by norm_num
  E20 := by norm_num
  hE := fun i => by
    fin_cases i <;> simp [roundEx] <;> norm_num
  X20 := Pw.of_num 20 (by norm_num) (by norm_num)
  X1 := by norm_num
  hX := fun i => by
    simp only [Updst.xiF, vecsVxa, Ecm.rScale]
    rw [abs_of_pos (by norm_num)]; norm_num
  K20 := Pw.of_num 20 (by norm_num) (by norm_num)
  hK := fun i => by
    fin_cases i <;> simp [roundEx, Elast.kDiag] <;> norm_num [abs_of_pos]
  V20 := Pw.of_num 20 (by norm_num) (by norm_num)
  hV := le_of_eq roundEx_d
  W20 := Pw.of_num 20 (by norm_num) (by norm_num)
  hW := by
    refine Real.sqrt_le_iff.2 ⟨by norm_num, ?_⟩
    simp [roundEx, Fin.sum_univ_three]; norm_num
  q0 := by
    rw [show len roundEx.q = 2 from ?_]
    · norm_num
    · show Real.sqrt _ = 2
      rw [show Spec.dot roundEx.q roundEx.q = 2 ^ 2 by simp [roundEx, Spec.dot, Fin.sum_univ_four]; norm_num]
      exact Real.sqrt_sq (by norm_num)
  q1 := by
    rw [show len roundEx.q = 2 from ?_]
    · norm_num
    · show Real.sqrt _ = 2
      rw [show Spec.dot roundEx.q roundEx.q = 2 ^ 2 by simp [roundEx, Spec.dot, Fin.sum_univ_four]; norm_num]
      exact Real.sqrt_sq (by norm_num)
  hq := by
    have e : len roundEx.q = 2 := by
      show Real.sqrt _ = 2
      rw [show Spec.dot roundEx.q roundEx.q = 2 ^ 2 by simp [roundEx, Spec.dot, Fin.sum_univ_four]; norm_num]
      exact Real.sqrt_sq (by norm_num)
    rw [e]
    funext i
    fin_cases i <;> simp [roundEx, probEx] <;> norm_num
  pT := (C90_tables dbl).1.1
  qT := (C90_tables dbl).1.2

/-- hypotheses of the theorems of this file: all of them hold for the crystal above -/
example (i : Fin 8) : |roundEx.resid dblLibm (fun _ => 1 / 100) i - roundEx.P.resid (fun _ => 1 / 100) i| ≤ 1 / 10 ^ 11 :=
  C90_double roundEx_sized (by rw [roundEx_d]; norm_num) (by norm_num [roundEx, probEx]) rfl dblLibm
    (g := 17e-3) le_rfl (by norm_num) (fun _ => rfl) (fun _ => rfl) i

end Ecm.Props
