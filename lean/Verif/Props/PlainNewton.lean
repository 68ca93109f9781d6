/- Property theorems C96: in short steps the residual and the Jacobian of the code are good enough for plain Newton
   iteration: from the code's starting point it reaches the tolerance, with steps inside the trust radius and in a
   number of evaluations that can be computed beforehand (src/ecmech/ECMech_evptn.h, computeRJ and getResponseSngl). -/
import Verif.Lemmas.NewtonRun
import Verif.Props.NewtonMatrix
import Verif.Props.Runs
import Verif.Props.ConvergeVoce

namespace Ecm.Props
open Ecm Spec Matrix

variable {n nH : ℕ}

/-- what plain Newton iteration claims is true -/
theorem newtonSolver_sound (δ : ℝ) (n : ℕ) : (newtonSolver δ n).Sound := by
  intro F tol maxIter x0
  have h : ∀ k c x, (newtonRun δ F tol k c x).converged = true →
      (∃ r J, F (newtonRun δ F tol k c x).x = some (r, J) ∧ vecNorm r ≤ tol) ∧
      (newtonRun δ F tol k c x).xLast = (newtonRun δ F tol k c x).x := by
    intro k
    induction k with
    | zero => intro c x hc; simp [newtonRun] at hc
    | succ k ih =>
      intro c x hc
      unfold newtonRun at hc ⊢
      cases hF : F x with
      | none => simp [hF] at hc
      | some a =>
        obtain ⟨r, J⟩ := a
        simp only [hF] at hc ⊢
        split_ifs at hc ⊢ with h1 h2
        · exact ⟨⟨r, J, hF, h1⟩, rfl⟩
        · exact ih _ _ hc
  exact h _ _ _


/-- At temperature `T` and hardening state `h` the kinetics report a reference rate of at least `A`, no slip without
    stress, and for stresses up to `S` rates that vary by no more than `Λ` times the change of the stress, up to jumps
    `ε`, and slopes of at most `Λ`. -/
def GentleAt (K : Kin n nH) (T : ℝ) (h : Vec nH) (S Λ ε A : ℝ) : Prop :=
  ∀ p v sc, K.getVals p T h = .ok (v, sc) → A ≤ K.fixedRefRate v ∧ ∀ i, (K.evalGdot v i 0).gdot = 0 ∧
    (∀ τ τ', |τ| ≤ S → |τ'| ≤ S → |(K.evalGdot v i τ).gdot - (K.evalGdot v i τ').gdot| ≤ Λ * |τ - τ'| + ε) ∧
    ∀ τ, |τ| ≤ S → |(K.evalGdot v i τ).dtau| ≤ Λ

/-- slope of the power law with strength `g` at the stress `S` -/
noncomputable def powSlope (k : Voce) (g S : ℝ) : ℝ := k.gamW * k.xnn * (S / g) ^ (k.xnn - 1) / g

/-- C96 the power-law kinetics are gentle below the stress at which the code cuts the rates off. -/
theorem C96_voce (k : Voce) (hm : 0 < k.xm) (hm1 : k.xm ≤ 1) (hw : 0 < k.gamW) (X : Solver 1) (T : ℝ) (h : Vec 1)
    (S : ℝ) (hS0 : 0 ≤ S) (hS : S ≤ (10 ^ 60 : ℝ) ^ k.xm * h 0) :
    GentleAt (k.kin X n) T h S (powSlope k (h 0) S) (2 / 10 ^ 60 * k.gamW) k.gamW := by
  intro p v sc hv
  simp only [Voce.kin] at hv
  split_ifs at hv with hg
  cases hv
  have hx : 1 ≤ k.xnn := by unfold Voce.xnn; rw [le_div_iff₀ hm]; linarith
  have htm : k.tMax = (10 ^ 60 : ℝ) ^ k.xm := by unfold Voce.tMax gamRatioOvf; norm_num
  have hcap : ∀ τ, |τ| ≤ S → |τ| / h 0 ≤ k.tMax := fun τ hτ => by
    rw [htm, div_le_iff₀ hg]; exact hτ.trans hS
  have hxn : k.xn = k.xnn - 1 := rfl
  refine ⟨le_rfl, fun i => ⟨?_, fun τ τ' h1 h2 => ?_, fun τ h1 => ?_⟩⟩
  · show (k.evalGdot (h 0) 0).gdot = 0
    rw [k.evalGdot_low hg (by simpa using k.tMin_pos.le)]
  · show |(k.evalGdot (h 0) τ).gdot - (k.evalGdot (h 0) τ').gdot| ≤ _
    have c1 := k.powLaw_close hm hw hg (hcap τ h1)
    have c2 := k.powLaw_close hm hw hg (hcap τ' h2)
    have c3 : |k.powLaw (h 0) τ - k.powLaw (h 0) τ'| ≤ powSlope k (h 0) S * |τ - τ'| := by
      rw [powLaw_eq_signPow k hg, powLaw_eq_signPow k hg, ← mul_sub, abs_mul, abs_of_pos hw]
      have := signPow_lip (M := S / h 0) hx (x := τ / h 0) (y := τ' / h 0)
        (by rw [abs_div, abs_of_pos hg]; exact div_le_div_of_nonneg_right h1 hg.le)
        (by rw [abs_div, abs_of_pos hg]; exact div_le_div_of_nonneg_right h2 hg.le)
      refine (mul_le_mul_of_nonneg_left this hw.le).trans (le_of_eq ?_)
      rw [← sub_div, abs_div, abs_of_pos hg, powSlope]
      ring
    rw [abs_le] at c1 c2 c3 ⊢
    constructor <;> linarith [c1.1, c1.2, c2.1, c2.2, c3.1, c3.2]
  · show |(k.evalGdot (h 0) τ).dtau| ≤ _
    have h0 : 0 ≤ powSlope k (h 0) S := by
      unfold powSlope
      have := Real.rpow_nonneg (div_nonneg hS0 hg.le) (k.xnn - 1)
      positivity
    rcases lt_or_ge k.tMin (|τ| / h 0) with a | a
    · rw [k.evalGdot_mid hg a (hcap τ h1)]
      have b1 : (|τ| / h 0) ^ k.xn ≤ (S / h 0) ^ (k.xnn - 1) := by
        rw [hxn]
        exact Real.rpow_le_rpow (by positivity) (div_le_div_of_nonneg_right h1 hg.le) (by linarith)
      have b0 : 0 ≤ (|τ| / h 0) ^ k.xn := Real.rpow_nonneg (by positivity) _
      have hx0 : 0 < k.xnn := by linarith
      show |k.gamW * (|τ| / h 0) ^ k.xn * k.xnn / h 0| ≤ powSlope k (h 0) S
      rw [abs_of_nonneg (by positivity)]
      unfold powSlope
      refine div_le_div_of_nonneg_right ?_ hg.le
      have := mul_le_mul_of_nonneg_left b1 (mul_nonneg hw.le hx0.le)
      linarith
    · rw [k.evalGdot_low hg a]
      simpa using h0

/-- a successful update, from the outcome of the solver -/
theorem update_of_solve {X : Ext} {M : Material n nH} {inp : Inputs} {m : Mem nH n} {hU : Vec nH} {P : Updst n}
    {x : Vec 8} {c : ℕ} {G : ℝ} {Y : Mat 5 8} (hset : Step.setup M inp m = .ok (hU, P))
    (hsol : Step.solve X inp P = { converged := true, x := x, xLast := x, nFEvals := c })
    (hY : X.lup (P.jacU x) (P.pfracRhsT x) = some Y) (hG : M.el.getGmod = .ok G) :
    ∃ m', getResponseSngl X M inp m = .ok m' ∧
      (histOf m').nFEval = (c + (if m.mtan.isSome then X.evalCost else 0) : ℕ) := by
  unfold getResponseSngl
  rw [hset]
  cases hmt : m.mtan with
  | none =>
    simp only [Step.run, hsol, hG, hmt, Step.tangent]
    refine ⟨_, rfl, ?_⟩
    simp only [histOf, Hist.ofArray_toArray]
    rfl
  | some t =>
    simp only [Step.run, hsol, hG, hmt, Step.tangent, Updst.mtan, hY]
    refine ⟨_, rfl, ?_⟩
    simp only [histOf, Hist.ofArray_toArray]
    rfl

/-- **C96.** With plain Newton iteration as its solver, the update of a crystal succeeds for every state, input and
    gentle slip law, if the step is short: `σ` bounds the imposed strain, the imposed rotation and the elastic
    stiffness of the slip law over the step.  It needs at most `j + 1` evaluations, where `2 ^ j` is the number of
    times by which what is missing at the start exceeds half the tolerance; no Newton step is longer than the trust radius that the code
    sets. -/
theorem C96_step (lup : LUP) (hL : LupComplete lup) (cost : ℕ) (M : Material n nH)
    (mS sS : Fin n → V3) (hgeom : M.geom = slipPQ mS sS) (hsys : ∀ i, IsSlipSystem (mS i) (sS i))
    (c11 c12 c44 : ℝ) (hel : M.el = .cubic c11 c12 c44) (κ : ℝ)
    (h0 : ∀ E, IsDev E → E ≠ 0 → 0 < ddot E (refStress M.el E))
    (h1 : ∀ E, IsDev E → ddot E (refStress M.el E) ≤ κ * ddot E E)
    (inp : Inputs) (hdt : 0 < inp.dt) (hvr : 0 < inp.vr 1) (hd : IsDev (devOfSvecP inp.d)) (htol : 0 ≤ inp.tol)
    (m : Mem nH n) (hq : (histOf m).q ≠ 0) (hcv : M.eos.cvav ≠ 0) (hU : Vec nH) (c : ℕ)
    (hH : M.kin.updateH (histOf m).h inp.dt (histOf m).gdot = .ok (hU, c)) (v : M.kin.Vals) (sc : ℝ)
    (hV : M.kin.getVals (Step.eosUpdate M inp m).press (Step.tK M inp m) hU = .ok (v, sc))
    (e : ℝ) (he : len (histOf m).e ≤ e * (inp.vr 1) ^ (1 / 3 : ℝ)) (he4 : e ≤ 1 / 4)
    (Λ ε σ r A : ℝ) (hΛ : 0 ≤ Λ) (hε : 0 ≤ ε) (hA : 0 < A)
    (hlaw : GentleAt M.kin (Step.tK M inp m) hU (κ * (e + r)) Λ ε A)
    (hslip : n * (Λ * κ) * inp.dt ≤ σ) (hrate : inp.dt * frob (devOfSvecP inp.d) ≤ σ) (hspin : inp.dt * len inp.w ≤ σ)
    (hσ : σ ≤ 1 / 32) (start θ : ℝ)
    (hstart : inp.dt * (3 / 2 * n * (Λ * (κ * e) + ε) + frob (devOfSvecP inp.d) + len inp.w) ≤ start)
    (hθ : θ = inp.tol * inp.dt * max (frob (devOfSvecP inp.d)) (A / 10 ^ 8)) (hfl : newtonFloor n inp.dt ε σ ≤ θ / 4)
    (j : ℕ) (hj : j < 200) (hcount : start ≤ 2 ^ j * θ / 2) (hr : 3 * start + 3 * newtonFloor n inp.dt ε σ * j ≤ r)
    (hrad : r ≤ 1 / 1000) (hrad' : r * (inp.vr 1) ^ (1 / 3 : ℝ) ≤ 1 / 1000) :
    ∃ m', getResponseSngl { solver := newtonSolver 1 8, lup := lup, evalCost := cost } M inp m = .ok m' ∧
      (histOf m').nFEval ≤ j + 1 + (if m.mtan.isSome then cost else 0 : ℕ) := by
  set X : Ext := { solver := newtonSolver 1 8, lup := lup, evalCost := cost } with hX
  have hset := Step.setup_eq_ok (M := M) (inp := inp) (m := m) hq hcv hdt.ne' hvr hH hV
  set P : Updst n := { geom := M.geom, el := M.el, gd := M.kin.evalGdot v, adotsRef := M.kin.fixedRefRate v
                       hdnScale := sc, dt := inp.dt, detV := inp.vr 1
                       eVref := (Step.eosUpdate M inp m).eNew, pEos := (Step.eosUpdate M inp m).press
                       tK := Step.tK M inp m, eN := (Hist.ofArray m.hist).e, cN := Step.quatN m
                       dSm := svecToVecd inp.d, wSm := inp.w } with hP
  have hPel : P.el = M.el := rfl
  have hcn : qn P.cN = 1 := qn_quatN hq
  obtain ⟨hAr, hlaw'⟩ := hlaw _ _ _ hV
  have hdD : frob (devOfSvecP inp.d) = vecNorm P.dSm := frob_eq hd
  have ha : 0 < P.aV := P.aV_pos hvr
  have haV : P.aV = (inp.vr 1) ^ (1 / 3 : ℝ) := rfl
  have hK0 := (C47_positive_definite M.el).1 h0
  have hK : ∀ k, |P.el.kDiag k| ≤ κ := fun k => by
    rw [hPel, abs_of_pos (hK0 k)]; exact kDiag_le h1 k
  have hκ : 0 ≤ κ := (abs_nonneg _).trans (hK 0)
  have hcol := slip_columns hsys
  have hPe : vecNorm P.eN / P.aV ≤ e := by rw [div_le_iff₀ ha]; exact he
  have hcP : ∀ i, vecNorm (fun k => P.geom.P k i) ≤ 1 := fun i => by
    show vecNorm (fun k => M.geom.P k i) ≤ 1
    rw [hgeom]; exact (hcol i).1
  have hcQ : ∀ i, vecNorm (fun k => P.geom.Q k i) ≤ 1 / 2 := fun i => by
    show vecNorm (fun k => M.geom.Q k i) ≤ 1 / 2
    rw [hgeom]; exact (hcol i).2
  -- stresses at the start
  have hτ0 : ∀ s, |P.taua 0 s| ≤ κ * e := by
    intro s
    rw [P.taua_cubic hel, P.eF_zero]
    have h2 := P.stress_change_le hvr hK hcP P.eN s
    have h3 : P.aVri * ∑ i, P.el.kDiag i * P.eN i * P.geom.P i s = P.aVri * ∑ i, P.el.kDiag i * P.eN i * P.geom.P i s := rfl
    exact h2.trans (mul_le_mul_of_nonneg_left hPe hκ)
  have hfl0 : 0 ≤ newtonFloor n inp.dt ε σ := by
    have hσ0 : 0 ≤ σ := (mul_nonneg hdt.le (frob_nonneg _)).trans hrate
    unfold newtonFloor; positivity
  have hD0 := frob_nonneg (devOfSvecP inp.d)
  have hw0 : 0 ≤ len inp.w := vecNorm_nonneg _
  have hst0 : P.defect 0 ≤ start := by
    refine (P.defect_zero hdt hcn hcP hcQ).trans (le_trans ?_ hstart)
    refine mul_le_mul_of_nonneg_left ?_ hdt.le
    have hg : ∀ s, |P.gdot 0 s| ≤ Λ * (κ * e) + ε := fun s => by
      obtain ⟨a1, a2, -⟩ := hlaw' s
      have hr0 : 0 ≤ r := by
        have : 0 ≤ P.defect 0 := P.defect_nonneg hdt 0
        have hs0 : 0 ≤ start := by
          refine le_trans (mul_nonneg hdt.le ?_) hstart
          have he0 : 0 ≤ e := (div_nonneg (vecNorm_nonneg _) ha.le).trans hPe
          positivity
        have : 0 ≤ 3 * newtonFloor n inp.dt ε σ * (j : ℝ) := by positivity
        linarith
      have hS : κ * e ≤ κ * (e + r) := mul_le_mul_of_nonneg_left (by linarith) hκ
      have h5 := a2 (P.taua 0 s) 0 ((hτ0 s).trans hS) (by
        rw [abs_zero]; exact (abs_nonneg _).trans ((hτ0 s).trans hS))
      rw [a1, sub_zero, sub_zero] at h5
      have := mul_le_mul_of_nonneg_left (hτ0 s) hΛ
      show |(M.kin.evalGdot v s (P.taua 0 s)).gdot| ≤ _
      linarith
    have h2 : ∑ s, |P.gdot 0 s| ≤ n * (Λ * (κ * e) + ε) := by
      refine (Finset.sum_le_sum fun s _ => hg s).trans (le_of_eq ?_)
      rw [Finset.sum_const, Finset.card_univ, Fintype.card_fin, nsmul_eq_mul]
    have h3 : vecNorm P.wSm = len inp.w := rfl
    rw [hdD, h3]
    linarith
  have hS : P.Short κ (κ * (e + r)) Λ ε σ r :=
    { dt := hdt, vol := hvr, quat := hcn, ref := lt_of_lt_of_le hA hAr, el := hK, colP := hcP, colQ := hcQ
      pos := hΛ, jump := hε
      law := ⟨fun s => (hlaw' s).2.1, fun s => (hlaw' s).2.2⟩
      slip := hslip, rate := by rw [← hdD]; exact hrate, spin := hspin, small := hσ, strain := hPe.trans he4
      reach := fun s => by have := hτ0 s; linarith }
  -- the tolerance
  have hscale : P.epsdotScaleInv * max (frob (devOfSvecP inp.d)) (A / 10 ^ 8) ≤ 1 := by
    rw [hdD]
    have hAr' : A ≤ P.adotsRef := hAr
    have hAp : 0 < P.adotsRef := hS.ref
    unfold Updst.epsdotScaleInv
    have hz : epsdotSclNzeff = 1 / 10 ^ 8 := by simp only [epsdotSclNzeff, idpEpsSqrt]
    dsimp only
    rw [hz]
    split_ifs with c1 c2
    · rw [one_div, inv_mul_le_iff₀ hAp, mul_one]
      refine max_le ?_ ?_ <;> linarith
    · rw [c2] at c1
      exact absurd (by positivity) c1
    · have hp : 0 < vecNorm P.dSm := lt_of_le_of_ne (vecNorm_nonneg _) (Ne.symm c2)
      have hmx : max (vecNorm P.dSm) (A / 10 ^ 8) = vecNorm P.dSm := max_eq_left (by
        push Not at c1; linarith)
      rw [hmx]
      have := mul_le_mul_of_nonneg_right (min_le_left (1 / vecNorm P.dSm) (10 ^ 6 * P.dt)) hp.le
      refine this.trans (le_of_eq ?_)
      field_simp
  have hthr : ∀ x, P.defect x ≤ θ → vecNorm (P.resid x) ≤ inp.tol := by
    intro x hx
    refine (P.resid_of_defect hdt hS.ref x).trans ?_
    have hp := P.epsdotScaleInv_pos hdt hS.ref
    have hPdt : P.dt = inp.dt := rfl
    have h2 := mul_le_mul_of_nonneg_left hx (show 0 ≤ P.epsdotScaleInv / P.dt by positivity)
    refine h2.trans ?_
    rw [hθ, hPdt]
    have e2 : P.epsdotScaleInv / inp.dt * (inp.tol * inp.dt * max (frob (devOfSvecP inp.d)) (A / 10 ^ 8))
        = inp.tol * (P.epsdotScaleInv * max (frob (devOfSvecP inp.d)) (A / 10 ^ 8)) := by field_simp
    rw [e2]
    exact (mul_le_mul_of_nonneg_left hscale htol).trans (by rw [mul_one])
  have hθ0 : 0 ≤ θ := by linarith
  obtain ⟨y, k, hrun, hk, hy⟩ := hS.run (tol := inp.tol) (θ := θ) (δ := 1) (by linarith)
    (by rw [haV]; linarith) hthr hfl j 200 0 0 hj
    (by
      rw [P.eF_zero, sub_self, vecNorm_zero, zero_div, zero_add]
      have : P.dt = inp.dt := rfl
      rw [this]; linarith)
    (by linarith)
  have hsol : Step.solve X inp P = { converged := true, x := y, xLast := y, nFEvals := k } := by
    have : Step.solve X inp P = newtonRun 1 P.problem inp.tol 200 0 0 := rfl
    rw [this, hrun, zero_add]
  obtain ⟨Y, hY⟩ : ∃ Y, X.lup (P.jacU y) (P.pfracRhsT y) = some Y := hL _ _ (hS.det hy)
  obtain ⟨m', e1, e2⟩ := update_of_solve hset hsol hY (getGmod_of_stable hK0)
  refine ⟨m', e1, ?_⟩
  rw [e2]
  have : k + (if m.mtan.isSome then cost else 0) ≤ j + 1 + (if m.mtan.isSome then cost else 0) := by omega
  exact_mod_cast this

/-- one full Newton step for an affine equation in one unknown -/
theorem newtonRun_affine {F : Problem 1} {b J tol δ : ℝ} {A : Mat 1 1} (hF : ∀ x, F x = some (fun _ => J * x 0 - b, A))
    (hA : A = Matrix.of fun _ _ => J) (hJ : 1 ≤ J) (hb : J⁻¹ * |b| ≤ δ) (htol : 0 ≤ tol) (k : ℕ) :
    ∃ x c, newtonRun δ F tol (k + 2) 0 (fun _ => 0) = { converged := true, x := x, xLast := x, nFEvals := c } ∧ c ≤ 2 ∧
      (x 0 = 0 ∨ x 0 = J⁻¹ * b) := by
  have hJ0 : J ≠ 0 := by linarith
  have hinv : A⁻¹ = Matrix.of fun _ _ => J⁻¹ := by
    apply Matrix.inv_eq_left_inv
    ext i j
    fin_cases i; fin_cases j
    simp [Matrix.mul_apply, hJ0, hA]
  have hl : ∀ a : ℝ, len (fun _ : Fin 1 => a) = |a| := fun a => by
    simp [len, dot, Real.sqrt_mul_self_eq_abs]
  have hv : A⁻¹.mulVec (fun _ => -b) = fun _ => -(J⁻¹ * b) := by
    rw [hinv]; ext i; simp [Matrix.mulVec, dotProduct]
  rw [newtonRun, hF]
  simp only [mul_zero, zero_sub]
  split_ifs with h1 h2
  · exact ⟨_, _, rfl, by norm_num, Or.inl rfl⟩
  · exfalso
    rcases h2 with h2 | h2
    · rw [Matrix.det_fin_one, hA] at h2; exact hJ0 h2
    · rw [hv, hl, abs_neg, abs_mul, abs_inv, abs_of_pos (by linarith : 0 < J)] at h2
      linarith
  · have e : (fun _ => 0 : Vec 1) - A⁻¹.mulVec (fun _ => -b) = fun _ => J⁻¹ * b := by
      rw [hv]; ext i; simp
    rw [newtonRun, hF, e]
    have h3 : len (fun _ : Fin 1 => J * (J⁻¹ * b) - b) ≤ tol := by
      rw [hl, ← mul_assoc, mul_inv_cancel₀ hJ0, one_mul, sub_self, abs_zero]; exact htol
    simp only [h3, if_true]
    exact ⟨_, _, rfl, by norm_num, Or.inr rfl⟩

/-- **C96, the hardening.** Plain Newton iteration solves the equation of linear saturation hardening in at most two
    evaluations, whatever the slip rates, as long as either the explicit step or the way to the saturation strength is
    not longer than the strength (or one, if the strength is less); and the new strength lies between the old one and
    the saturation strength, without the allowance of the tolerance that other solvers need. -/
theorem C96_hardening_between (k : Voce) (hk : k.nonlinear = false) (hg : 0 < k.gamss0) (h0 : 0 ≤ k.h0) (hO : Vec 1)
    (dt : ℝ) (hdt : 0 ≤ dt) (gdot : Vec n) {sat : ℝ}
    (hsat : sat = voceSat k.taus0 k.gamss0 k.xms (∑ i, |gdot i|))
    (hsmall : dt * |voceRate k.h0 k.tausi sat (∑ i, |gdot i|) (hO 0)| ≤ max (hO 0) 1 ∨ |sat - hO 0| ≤ max (hO 0) 1) :
    ∃ h' c, k.updateH (newtonSolver 1 1) hO dt gdot = .ok (h', c) ∧ c ≤ 2 ∧
      min (hO 0) sat ≤ h' 0 ∧ h' 0 ≤ max (hO 0) sat := by
  have hx : (0 : ℝ) < max (hO 0) 1 := lt_of_lt_of_le one_pos (le_max_right _ _)
  set γ := ∑ i, |gdot i| with hγ
  have hγ0 : 0 ≤ γ := Finset.sum_nonneg fun i _ => abs_nonneg _
  obtain ⟨t, ht0, hlaw⟩ : ∃ t : ℝ, 0 ≤ t ∧ ∀ h, k.getSdot1 (k.getEvolVals gdot) h
      = some (k.h0 * ((sat - h) * t) * γ, -k.h0 * t * γ) := by
    refine ⟨if sat ≤ k.tausi then 0 else 1 / (sat - k.tausi), ?_, fun h => ?_⟩
    · split_ifs with hc
      · exact le_rfl
      · push Not at hc; exact div_nonneg zero_le_one (by linarith)
    · have e : (k.getEvolVals gdot) = (γ, sat) := by rw [hsat]; rfl
      rw [e]
      simp only [Voce.getSdot1, hk, Bool.false_eq_true, if_false]
  have hrate : voceRate k.h0 k.tausi sat γ (hO 0) = k.h0 * ((sat - hO 0) * t) * γ := by
    have h1 := C27_law k hk gdot (hO 0)
    rw [hlaw, ← hsat] at h1
    simpa using h1.symm
  rw [hrate] at hsmall
  set P : H1Problem := { law := k.getSdot1 (k.getEvolVals gdot), hO := hO 0, dt := dt } with hP
  have hPx : P.xScale = max (hO 0) 1 := rfl
  set J : ℝ := 1 + k.h0 * t * γ * dt with hJ
  set b : ℝ := k.h0 * ((sat - hO 0) * t) * γ * dt / max (hO 0) 1 with hb
  have hF : ∀ x, P.problem x = some (fun _ => J * x 0 - b, fun _ _ => J) := by
    intro x
    have h1 : P.computeRJ (x 0) = some (J * x 0 - b, J) := by
      unfold H1Problem.computeRJ
      have h2 : P.law (P.hO + x 0 * P.xScale) = some (k.h0 * ((sat - (P.hO + x 0 * P.xScale)) * t) * γ, -k.h0 * t * γ) :=
        hlaw _
      simp only [h2]
      congr 2
      · unfold H1Problem.resScale
        rw [hPx, hJ, hb]
        show (x 0 * max (hO 0) 1 - k.h0 * ((sat - (hO 0 + x 0 * max (hO 0) 1)) * t) * γ * dt) * (1 / max (hO 0) 1) = _
        field_simp
        ring
      · show 1 - -k.h0 * t * γ * dt = J
        rw [hJ]; ring
    unfold H1Problem.problem
    rw [h1]
    rfl
  have hμ : 0 ≤ k.h0 * t * γ * dt := mul_nonneg (mul_nonneg (mul_nonneg h0 ht0) hγ0) hdt
  have hJ1 : 1 ≤ J := by rw [hJ]; linarith
  have hJ0 : 0 < J := by linarith
  have eb : J⁻¹ * b * max (hO 0) 1 = (1 - J⁻¹) * (sat - hO 0) := by
    rw [hb, hJ]
    rw [hJ] at hJ0
    field_simp
    ring
  have hJi : 0 < J⁻¹ ∧ J⁻¹ ≤ 1 := ⟨inv_pos.2 hJ0, inv_le_one_of_one_le₀ hJ1⟩
  have hbs : J⁻¹ * |b| ≤ 1 := by
    rcases hsmall with hsmall | hsmall
    · have : |b| ≤ 1 := by
        rw [hb, abs_div, abs_of_pos hx, div_le_one hx, abs_mul, abs_of_nonneg hdt]
        linarith
      calc J⁻¹ * |b| ≤ 1 * 1 := mul_le_mul hJi.2 this (abs_nonneg _) zero_le_one
        _ = 1 := one_mul 1
    · have h1 : J⁻¹ * |b| * max (hO 0) 1 = (1 - J⁻¹) * |sat - hO 0| := by
        have := congrArg abs eb
        rwa [abs_mul, abs_mul, abs_mul, abs_of_pos hJi.1, abs_of_pos hx, abs_of_nonneg (sub_nonneg.2 hJi.2)] at this
      refine le_of_mul_le_mul_right ?_ hx
      rw [h1, one_mul]
      refine le_trans ?_ hsmall
      have := mul_nonneg hJi.1.le (abs_nonneg (sat - hO 0))
      linarith
  obtain ⟨x, c, hrun, hc, hx0⟩ := newtonRun_affine hF rfl hJ1 hbs (by norm_num : (0 : ℝ) ≤ 1 / 10 ^ 10) 98
  have hS : newtonSolver 1 1 P.problem (1 / 10 ^ 10) 100 (fun _ => 0)
      = { converged := true, x := x, xLast := x, nFEvals := c } := hrun
  have hbet : min (hO 0) sat ≤ P.getHn (x 0) ∧ P.getHn (x 0) ≤ max (hO 0) sat := by
    have e : P.getHn (x 0) = hO 0 + x 0 * max (hO 0) 1 := rfl
    rw [e]
    rcases hx0 with hx0 | hx0
    · rw [hx0, zero_mul, add_zero]; exact ⟨min_le_left _ _, le_max_left _ _⟩
    · rw [hx0, eb]
      rcases le_total (hO 0) sat with h | h
      · rw [min_eq_left h, max_eq_right h]
        have := mul_nonneg hJi.1.le (sub_nonneg.2 h)
        have := mul_nonneg (sub_nonneg.2 hJi.2) (sub_nonneg.2 h)
        constructor <;> linarith
      · rw [min_eq_right h, max_eq_left h]
        have := mul_nonneg hJi.1.le (sub_nonneg.2 h)
        have := mul_nonneg (sub_nonneg.2 hJi.2) (sub_nonneg.2 h)
        constructor <;> linarith
  refine ⟨fun _ => P.getHn (x 0), c, ?_, hc, hbet⟩
  unfold Voce.updateH
  rw [if_neg (not_le.2 hg)]
  unfold updateH1
  simp only [← hP, hS, if_true, Out.bind]

theorem C96_hardening (k : Voce) (hk : k.nonlinear = false) (hg : 0 < k.gamss0) (h0 : 0 ≤ k.h0) (hO : Vec 1)
    (dt : ℝ) (hdt : 0 ≤ dt) (gdot : Vec n) (hsmall : dt * |voceRate k.h0 k.tausi
      (voceSat k.taus0 k.gamss0 k.xms (∑ i, |gdot i|)) (∑ i, |gdot i|) (hO 0)| ≤ max (hO 0) 1) :
    ∃ h' c, k.updateH (newtonSolver 1 1) hO dt gdot = .ok (h', c) ∧ c ≤ 2 := by
  obtain ⟨h', c, e, hc, -⟩ := C96_hardening_between k hk hg h0 hO dt hdt gdot rfl (Or.inl hsmall)
  exact ⟨h', c, e, hc⟩

/-- **C96, one step.** In a short step the Newton matrix is regular at every point in reach, and a full Newton step
    multiplies what is missing in the two equations by at most `16 σ`, hence at most one half, up to an amount that no
    tolerance in use comes near. -/
theorem C96_contract (P : Updst n) {κ S Λ ε σ r : ℝ} (h : P.Short κ S Λ ε σ r) (x : Vec 8)
    (hx : vecNorm (P.eF x - P.eN) / P.aV + 3 / 2 * P.defect x ≤ r) :
    (P.jac x).det ≠ 0 ∧
    P.defect (x - (P.jac x)⁻¹.mulVec (P.resid x)) ≤ 16 * σ * P.defect x + newtonFloor n P.dt ε σ := by
  have ha := P.aV_pos h.vol
  have hd := P.defect_nonneg h.dt x
  have hx' : vecNorm (P.eF x - P.eN) / P.aV ≤ r := by linarith
  have hdet := P.jac_det h.dt h.ref x (h.det hx')
  refine ⟨hdet, ?_⟩
  set d : Vec 8 := -((P.jac x)⁻¹.mulVec (P.resid x)) with hdd
  have hJd : (P.jac x).mulVec d = -P.resid x := by
    rw [hdd, Matrix.mulVec_neg, Matrix.mulVec_mulVec, Matrix.mul_nonsing_inv _ (isUnit_iff_ne_zero.2 hdet),
      Matrix.one_mulVec]
  obtain ⟨zE, zR⟩ := P.newton_unscale h.dt h.ref hJd
  have e : x - (P.jac x)⁻¹.mulVec (P.resid x) = x + d := by rw [hdd, sub_eq_add_neg]
  have hsz : vecNorm (fun i => xScale (iE i) * d (iE i)) / P.aV + vecNorm (fun i => xScale (iR i) * d (iR i))
      ≤ 3 / 2 * P.defect x := P.newton_size h.dt h.vol h.quat h.el h.colP h.colQ h.law h.slip h.rate h.spin h.small
    h.strain (h.inRange hx') zE zR
  have hy : vecNorm (P.eF (x + d) - P.eN) / P.aV ≤ r := by
    have e1 : P.eF (x + d) - P.eN = (P.eF x - P.eN) + fun i => xScale (iE i) * d (iE i) := by rw [P.eF_add x d]; abel
    have h2 := div_le_div_of_nonneg_right (vecNorm_add_le (P.eF x - P.eN) fun i => xScale (iE i) * d (iE i)) ha.le
    rw [← e1, add_div] at h2
    have : 0 ≤ vecNorm (fun i => xScale (iR i) * d (iR i)) := vecNorm_nonneg _
    linarith
  rw [e]
  exact P.newton_step h.dt h.vol h.quat h.el h.pos h.colP h.colQ h.law h.slip h.rate h.spin h.small h.strain
    (h.inRange hx') (h.inRange hy) (P.eF_add x d) (Updst.xiF_add x d) zE zR

/-! ### Concrete cases -/

/-- one step from rest with a linear law -/
noncomputable def restProb : Updst 12 where
  geom := slipPQ fccM fccS
  el := exEl
  gd := fun _ τ => voceExample.evalGdot 1 τ
  adotsRef := 1
  hdnScale := 1
  dt := 1 / 1000
  detV := 1
  eVref := 0
  pEos := 0
  tK := 300
  eN := 0
  cN := ![1, 0, 0, 0]
  dSm := ![1, 0, 0, 0, 0]
  wSm := 0

/-- the hypotheses of the statement about one step -/
example : restProb.Short 2 (1 / 50) 1 (2 / 10 ^ 60) (1 / 32) (1 / 100) ∧
    vecNorm (restProb.eF 0 - restProb.eN) / restProb.aV + 3 / 2 * restProb.defect 0 ≤ 1 / 100 := by
  have hcol := slip_columns fcc_slip
  have hg : voceExample.gamW = 1 := rfl
  have hlaw := C96_voce (n := 12) voceExample (by norm_num [voceExample]) (by norm_num [voceExample])
    (by norm_num [voceExample]) (probe 1) 300 (fun _ => 1) (1 / 50) (by norm_num) (by
      have : (1 : ℝ) ≤ (10 ^ 60 : ℝ) ^ voceExample.xm := Real.one_le_rpow (by norm_num) (by norm_num [voceExample])
      rw [mul_one]
      exact le_trans (by norm_num) this) 0 (1 : ℝ) 1 (by
      show (if (0 : ℝ) < 1 then Out.ok ((1 : ℝ), (1 : ℝ)) else .undef "assert(vals[0] > zero)") = _
      exact if_pos one_pos)
  have hp : powSlope voceExample 1 (1 / 50) = 1 := by
    have hx : voceExample.xnn = 1 := by norm_num [Voce.xnn, voceExample]
    unfold powSlope
    rw [hx, hg]
    norm_num
  obtain ⟨-, hlaw⟩ := hlaw
  have hp' : powSlope voceExample ((fun _ : Fin 1 => (1 : ℝ)) 0) (1 / 50) = 1 := hp
  rw [hp', hg, mul_one] at hlaw
  have ha : restProb.aV = 1 := Real.one_rpow _
  have hw0 : vecNorm restProb.wSm = 0 := vecNorm_zero
  have hd1 : vecNorm restProb.dSm = 1 := by simp [vecNorm, restProb, Fin.sum_univ_five]
  have hdt : restProb.dt = 1 / 1000 := rfl
  have hτ : ∀ s, restProb.taua 0 s = 0 := fun s => by
    have hel : restProb.el = .cubic 3 1 1 := rfl
    rw [restProb.taua_cubic hel, restProb.eF_zero]
    simp [restProb]
  have hP : ∀ i, vecNorm (fun k => restProb.geom.P k i) ≤ 1 := fun i => (hcol i).1
  have hQ : ∀ i, vecNorm (fun k => restProb.geom.Q k i) ≤ 1 / 2 := fun i => (hcol i).2
  have hq : qn restProb.cN = 1 := by simp [qn, restProb]
  have hgd : ∀ s, restProb.gdot 0 s = 0 := fun s => by
    show (voceExample.evalGdot 1 (restProb.taua 0 s)).gdot = 0
    rw [hτ s]
    exact (hlaw s).1
  constructor
  · exact
      { dt := by rw [hdt]; norm_num
        vol := one_pos, quat := hq, ref := one_pos
        el := fun k => by
          show |exEl.kDiag k| ≤ 2
          fin_cases k <;> norm_num [exEl, Elast.kDiag, abs_le]
        colP := hP, colQ := hQ, pos := zero_le_one, jump := by norm_num
        law := ⟨fun s => (hlaw s).2.1, fun s => (hlaw s).2.2⟩
        slip := by rw [hdt]; norm_num
        rate := by rw [hdt, hd1]; norm_num
        spin := by rw [hw0]; norm_num
        small := le_rfl
        strain := by
          have : vecNorm restProb.eN = 0 := vecNorm_zero
          rw [this]; norm_num
        reach := fun s => by rw [hτ s]; norm_num }
  · have h1 := restProb.defect_zero (by rw [hdt]; norm_num) hq hP hQ
    rw [restProb.eF_zero, sub_self, vecNorm_zero, zero_div, zero_add]
    simp only [hgd, abs_zero, Finset.sum_const_zero, mul_zero, zero_add, hd1, hw0, hdt] at h1
    linarith

/-- the copper of the parameter files, with plain Newton iteration also for the hardening -/
noncomputable def newtonCopper : Material 12 1 where
  geom := slipPQ fccM fccS
  kin := copperVoce.kin (newtonSolver 1 1) 12
  el := .cubic 168.4 121.4 75.2
  eos := ⟨false, 8.92e-6, 137, 0.003435984, 1.7, -1.0307952⟩

/-- a nanosecond at deformation rate `d` with spin `w` -/
noncomputable def nanoInp (d : Vec 7) (w : V3) : Inputs where
  dt := 1 / 10 ^ 9
  tol := 1 / 10 ^ 10
  d := d
  w := w
  vr := ![1, 1, 0, 0]

/-- history of a copper crystal with elastic strain `e` -/
noncomputable def nanoHist (e : Vec 5) : Hist 1 12 where
  shrateEff := 0
  shrEff := 0
  flowStr := 0
  nFEval := 0
  e := e
  q := ![1, 0, 0, 0]
  h := fun _ => 17e-3
  gdot := 0

/-- a copper crystal under stress -/
noncomputable def nanoMem (e : Vec 5) (t : Option (Mat 6 6)) : Mem 1 12 where
  eInt := 0
  stress := 0
  hist := (nanoHist e).toArray
  tkelv := 300
  sdd := 0
  mtan := t

theorem nano_hist (e : Vec 5) (t : Option (Mat 6 6)) : histOf (nanoMem e t) = nanoHist e := by
  unfold histOf nanoMem
  rw [Hist.ofArray_toArray]

theorem copper_ddot (E : T3) (hE : IsDev E) : 47 * ddot E E ≤ ddot E (refStress (.cubic 168.4 121.4 75.2) E) ∧
    ddot E (refStress (.cubic 168.4 121.4 75.2) E) ≤ 151 * ddot E E := by
  have e := vecdToSymm_symmToVecd E hE
  rw [← e]
  generalize symmToVecd E = v
  have e1 : ddot (vecdToSymm v) (refStress (.cubic 168.4 121.4 75.2) (vecdToSymm v))
      = 47 * (v 0 ^ 2 + v 1 ^ 2) + 150.4 * (v 2 ^ 2 + v 3 ^ 2 + v 4 ^ 2) := by
    simp only [ddot, Fin.sum_univ_three, refStress, cubicStress, vecdToSymm, ofSvecP,
      vecdsToSvecP, Matrix.of_apply, Matrix.cons_val]
    sqr_ring
  have e2 : ddot (vecdToSymm v) (vecdToSymm v) = v 0 ^ 2 + v 1 ^ 2 + v 2 ^ 2 + v 3 ^ 2 + v 4 ^ 2 := by
    simp only [ddot, Fin.sum_univ_three, vecdToSymm, ofSvecP, vecdsToSvecP, Matrix.of_apply, Matrix.cons_val]
    sqr_ring
  rw [e1, e2]
  constructor <;> nlinarith [sq_nonneg (v 0), sq_nonneg (v 1), sq_nonneg (v 2), sq_nonneg (v 3), sq_nonneg (v 4)]

/-- the hypotheses of C96 for the copper: at most 42 evaluations, with or without the tangent -/
theorem nano_step (d : Vec 7) (hd : IsDev (devOfSvecP d)) (f1 : 1 ≤ frob (devOfSvecP d)) (f2 : frob (devOfSvecP d) ≤ 2)
    (w : V3) (hw : len w ≤ 1) (e : Vec 5) (he : len e ≤ 1 / 10 ^ 5) (t : Option (Mat 6 6)) : ∃ m', getResponseSngl ⟨newtonSolver 1 8, idealLup, 1⟩ newtonCopper (nanoInp d w) (nanoMem e t)
    = .ok m' ∧ (histOf m').nFEval ≤ 43 := by
  have hh := nano_hist e t
  have hS0 : (0 : ℝ) ≤ 151 * (1 / 10 ^ 5 + 1 / 10 ^ 6) := by norm_num
  have hcap : (1 : ℝ) ≤ (10 ^ 60 : ℝ) ^ copperVoce.xm :=
    Real.one_le_rpow (by norm_num) (by norm_num [copperVoce])
  have hlaw := C96_voce (n := 12) copperVoce (by norm_num [copperVoce]) (by norm_num [copperVoce])
    (by norm_num [copperVoce]) (newtonSolver 1 1) (Step.tK newtonCopper (nanoInp d w) (nanoMem e t)) (fun _ => 17e-3)
    (151 * (1 / 10 ^ 5 + 1 / 10 ^ 6)) hS0 (by
      refine le_trans ?_ (mul_le_mul_of_nonneg_right hcap (by norm_num))
      norm_num)
  have hΛ : 0 ≤ powSlope copperVoce 17e-3 (151 * (1 / 10 ^ 5 + 1 / 10 ^ 6)) ∧
      powSlope copperVoce 17e-3 (151 * (1 / 10 ^ 5 + 1 / 10 ^ 6)) ≤ 2942 := by
    have hx : copperVoce.xnn = 50 := by norm_num [Voce.xnn, copperVoce]
    have b0 : (0 : ℝ) ≤ (151 * (1 / 10 ^ 5 + 1 / 10 ^ 6) / 17e-3) ^ ((50 : ℝ) - 1) := Real.rpow_nonneg (by norm_num) _
    have b1 : (151 * (1 / 10 ^ 5 + 1 / 10 ^ 6) / 17e-3 : ℝ) ^ ((50 : ℝ) - 1) ≤ 1 :=
      Real.rpow_le_one (by norm_num) (by norm_num) (by norm_num)
    have hw : copperVoce.gamW = 1 := rfl
    unfold powSlope
    rw [hx, hw]
    generalize (151 * (1 / 10 ^ 5 + 1 / 10 ^ 6) / 17e-3 : ℝ) ^ ((50 : ℝ) - 1) = z at b0 b1
    constructor
    · positivity
    · rw [div_le_iff₀ (by norm_num)]; linarith
  generalize hLam : powSlope copperVoce ((fun _ : Fin 1 => (17e-3 : ℝ)) 0) (151 * (1 / 10 ^ 5 + 1 / 10 ^ 6)) = Λ at hlaw
  have hLam' : powSlope copperVoce 17e-3 (151 * (1 / 10 ^ 5 + 1 / 10 ^ 6)) = Λ := hLam
  rw [hLam'] at hΛ
  obtain ⟨hΛ0, hΛ1⟩ := hΛ
  have f1 : 1 ≤ frob (devOfSvecP (nanoInp d w).d) := f1
  have f2 : frob (devOfSvecP (nanoInp d w).d) ≤ 2 := f2
  have hw : len (nanoInp d w).w ≤ 1 := hw
  have hdt : (nanoInp d w).dt = 1 / 10 ^ 9 := rfl
  have htol : (nanoInp d w).tol = 1 / 10 ^ 10 := rfl
  have hvr : ((nanoInp d w).vr 1) ^ (1 / 3 : ℝ) = 1 := by
    have : (nanoInp d w).vr 1 = 1 := rfl
    rw [this, Real.one_rpow]
  have hgW : copperVoce.gamW = 1 := rfl
  rw [hgW] at hlaw
  have hH : newtonCopper.kin.updateH (histOf (nanoMem e t)).h (nanoInp d w).dt (histOf (nanoMem e t)).gdot
      = .ok (fun _ => (17e-3 : ℝ), 1) := by
    rw [hh]
    show copperVoce.updateH (newtonSolver 1 1) (fun _ => 17e-3) (nanoInp d w).dt (0 : Vec 12) = _
    have h0 : vecsssumabs (0 : Vec 12) = 0 := by simp [vecsssumabs]
    have hF : ∃ J, ({ law := copperVoce.getSdot1 (copperVoce.getEvolVals (0 : Vec 12)), hO := 17e-3, dt := (nanoInp d w).dt } :
        H1Problem).problem (fun _ => 0) = some (fun _ => 0, J) := by
      simp only [H1Problem.problem, H1Problem.computeRJ, Voce.getSdot1, Voce.getEvolVals, h0, copperVoce,
        Bool.false_eq_true, if_false, mul_zero, zero_mul, sub_self, Option.map_some]
      exact ⟨_, rfl⟩
    obtain ⟨J, hF⟩ := hF
    have hrun : newtonSolver 1 1 ({ law := copperVoce.getSdot1 (copperVoce.getEvolVals (0 : Vec 12)), hO := 17e-3
                                    dt := (nanoInp d w).dt } : H1Problem).problem (1 / 10 ^ 10) 100 (fun _ => 0)
        = { converged := true, x := fun _ => 0, xLast := fun _ => 0, nFEvals := 1 } := by
      unfold newtonSolver
      rw [newtonRun, hF]
      exact if_pos (by simp [len, dot])
    unfold Voce.updateH
    rw [if_neg (by norm_num [copperVoce])]
    unfold updateH1
    simp only [hrun, if_true, Out.bind, H1Problem.getHn, zero_mul, add_zero]
  obtain ⟨m', h1, h2⟩ := C96_step idealLup idealLup_complete 1 newtonCopper fccM fccS rfl fcc_slip 168.4 121.4 75.2 rfl 151
    ((C47_positive_definite (.cubic 168.4 121.4 75.2)).2 (((C47_stability_constants 168.4 121.4 0 0 75.2 0).1).2 (by norm_num))) (fun E hE => (copper_ddot E hE).2) (nanoInp d w) (by rw [hdt]; norm_num)
    (by show (0 : ℝ) < 1; norm_num) hd (by rw [htol]; norm_num) (nanoMem e t)
    (by rw [hh]; intro h0; simpa [nanoHist] using congrFun h0 0) (by norm_num [newtonCopper]) (fun _ => 17e-3) 1 hH (17e-3 : ℝ) 17e-3
    (by
      show (if (0 : ℝ) < 17e-3 then Out.ok ((17e-3 : ℝ), (17e-3 : ℝ)) else .undef "assert(vals[0] > zero)") = _
      exact if_pos (by norm_num)) (1 / 10 ^ 5) (by
      rw [hvr, hh, mul_one]
      exact he) (by norm_num) Λ (2 / 10 ^ 60 * 1) (1 / 32) (1 / 10 ^ 6) 1 hΛ0 (by norm_num)
    one_pos hlaw (by rw [hdt]; push_cast; linarith) (by rw [hdt]; linarith) (by rw [hdt]; linarith) le_rfl
    (1 / 10 ^ 7) _ (by rw [hdt]; push_cast; linarith) rfl (by
      rw [max_eq_left (by linarith), hdt, htol]
      unfold newtonFloor
      norm_num
      linarith) 41 (by norm_num) (by
      rw [max_eq_left (by linarith), hdt, htol]
      norm_num
      linarith) (by rw [hdt]; unfold newtonFloor; norm_num) (by norm_num) (by rw [hvr]; norm_num)
  refine ⟨m', h1, h2.trans ?_⟩
  cases (nanoMem e t).mtan.isSome <;> norm_num

/-- an extension rate of one per second at constant volume -/
noncomputable def pullD : Vec 7 := ![1, -1 / 2, -1 / 2, 0, 0, 0, 0]

theorem pullD_dev : IsDev (devOfSvecP pullD) := by
  rw [isDev_iff]
  simp [devOfSvecP, pullD]
  norm_num

theorem pullD_frob : 1 ≤ frob (devOfSvecP pullD) ∧ frob (devOfSvecP pullD) ≤ 2 := by
  have e : ddot (devOfSvecP pullD) (devOfSvecP pullD) = 3 / 2 := by
    simp [ddot, devOfSvecP, pullD, Fin.sum_univ_three]
    norm_num
  unfold frob
  rw [e]
  constructor
  · rw [Real.le_sqrt (by norm_num) (by norm_num)]; norm_num
  · rw [Real.sqrt_le_left (by norm_num)]; norm_num

example (t : Option (Mat 6 6)) : ∃ m', getResponseSngl ⟨newtonSolver 1 8, idealLup, 1⟩ newtonCopper
    (nanoInp pullD ![0, 0, 1]) (nanoMem ![1 / 10 ^ 5, 0, 0, 0, 0] t) = .ok m' ∧ (histOf m').nFEval ≤ 43 :=
  nano_step _ pullD_dev pullD_frob.1 pullD_frob.2 _ (by simp [len, dot, Fin.sum_univ_three]) _
    (by simp [len, dot, Fin.sum_univ_five]) t

/-- the hardening of the copper in a microsecond of slip at a rate of one per second -/
example : ∃ h' c, copperVoce.updateH (newtonSolver 1 1) (fun _ => 17e-3) (1 / 10 ^ 6) (fun _ : Fin 12 => (1 : ℝ)) = .ok (h', c) ∧
    c ≤ 2 := by
  refine C96_hardening copperVoce rfl (by norm_num [copperVoce]) (by norm_num [copperVoce]) _ _ (by norm_num) _ ?_
  have hs : voceSat copperVoce.taus0 copperVoce.gamss0 copperVoce.xms (∑ i : Fin 12, |(1 : ℝ)|) = 122.4e-3 := by
    unfold voceSat
    have e : copperVoce.xms = 0 := rfl
    rw [e, Real.rpow_zero, mul_one, ite_self]
    rfl
  rw [hs]
  refine le_trans ?_ (le_max_right _ _)
  unfold voceRate
  rw [if_neg (by norm_num [copperVoce])]
  simp only [abs_one, Finset.sum_const, Finset.card_univ, Fintype.card_fin, copperVoce]
  norm_num [abs_le]

end Ecm.Props
