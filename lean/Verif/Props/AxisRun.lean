/- Property theorems C98, continued: whole histories of a cubic crystal that is pulled along a cube axis. -/
import Verif.Props.AxisFlow

namespace Ecm.Props
open Ecm Spec Matrix

/-! ### Every step can be taken -/

/-- the strength of a step comes from the update of the power law -/
theorem AxialCrystal.strength {M : Material 12 1} {k : Voce} {S : Solver 1} {c11 c12 c44 : ℝ}
    (hM : AxialCrystal M k S c11 c12 c44) {X : Ext} {inp : Inputs} {dt tol D J : ℝ} (hi : Pull dt tol D J inp)
    {m m' : Mem 1 12} (U : OkStep X M inp m m') :
    k.updateH S (histOf m).h dt (histOf m).gdot = .ok (U.hU, U.kU) := by
  have h1 := U.hH
  rw [hi.dt] at h1
  have h2 := hM.kin
  obtain ⟨geom, kin, el, eos⟩ := M
  simp only at h2
  subst h2
  exact h1

/-- **C98, existence.** A step from an axial state succeeds, however long it is, if the hardening equation is solved, the
    elastic stress before it is below the stress at which the code cuts the rates off, the rate is not above 1e60
    reference rates and the tolerance not below 1e-59 of them. -/
theorem C98_exists {M : Material 12 1} {k : Voce} {S : Solver 1} {c11 c12 c44 : ℝ}
    (hM : AxialCrystal M k S c11 c12 c44) (hcv : M.eos.cvav ≠ 0) {X : Ext} (hX : AxisFinder X.solver) {inp : Inputs}
    {dt tol D J : ℝ} (hdt : 0 < dt) (hJ : 0 < J) (hi : Pull dt tol D J inp) {m : Mem 1 12} {E c s : ℝ}
    (hs : AxialState E c s (histOf m)) (hL : m.mtan = none ∨ ∀ A B, (X.lup A B).isSome) {hU : Vec 1} {kU : ℕ}
    (hH : k.updateH S (histOf m).h dt (histOf m).gdot = .ok (hU, kU)) (hU0 : 0 < hU 0)
    (hr : |Real.sqrt (3 / 2) * D| ≤ 4 * (10 ^ 60 * k.gamW)) (htol : 4 / 10 ^ 60 * k.gamW ≤ pullTol k dt tol D)
    (hτ : |axialTau c11 c12 J E| ≤ (10 ^ 60 : ℝ) ^ k.xm * hU 0) :
    ∃ m', getResponseSngl X M inp m = .ok m' ∧ (histOf m').h = hU := by
  have hq : (histOf m).q ≠ 0 := by
    rw [hs.q]
    intro h0
    have h1 : c = 0 := by simpa using congrFun h0 0
    have h2 : s = 0 := by simpa using congrFun h0 3
    have := hs.unit
    rw [h1, h2] at this
    norm_num at this
  have hset : ∃ P, Step.setup M inp m = .ok (hU, P) := by
    obtain ⟨geom, kin, el, eos⟩ := M
    have hk := hM.kin
    simp only at hk
    subst hk
    refine ⟨_, Step.setup_eq_ok (kU := kU) (v := hU 0) (scale := hU 0) hq hcv (by rw [hi.dt]; exact hdt.ne')
      (by rw [hi.vol]; exact hJ) ?_ ?_⟩
    · rw [hi.dt]; exact hH
    · exact if_pos hU0
  obtain ⟨P, hset⟩ := hset
  obtain ⟨hA, hg', hPdt, hPv, -, hra⟩ := axialProblem hM hi hs hset
  have hκ : 0 < c11 - c12 := sub_pos.2 hM.stable.1
  have ha : 0 < J ^ (1 / 3 : ℝ) := Real.rpow_pos_of_pos hJ _
  have haV : P.aVri = 1 / J ^ (1 / 3 : ℝ) := by unfold Updst.aVri Updst.aV; rw [hPv]
  have hC : 0 < (c11 - c12) / 2 * dt := by positivity
  have etm : k.tMax = (10 ^ 60 : ℝ) ^ k.xm := by unfold Voce.tMax gamRatioOvf; norm_num
  obtain ⟨T', ρ, hT', hρ⟩ := k.step_exists hM.xm hM.gamW (g := hU 0) (T := axialTau c11 c12 J E)
    (d := Real.sqrt (3 / 2) * D) hU0 hC rfl (by
      have := hM.gamW
      rw [div_le_iff₀ (by positivity)]; linarith) (by
      rw [etm]; exact hτ)
  -- the unknown that belongs to the stress
  set y := T' * (2 * J ^ (1 / 3 : ℝ)) / (c11 - c12) - E with hy
  have hτ' : (c11 - c12) * (P.aVri * (E + y)) / 2 = T' := by
    rw [haV, hy]; field_simp; ring
  have hsc : 0 < P.epsdotScaleInv := P.epsdotScaleInv_pos (by rw [hPdt]; exact hdt) (by rw [hra]; exact hM.gamW)
  have hres : vecNorm (P.resid (axisX y 0)) ≤ inp.tol := by
    have e3 := inv_epsdotScaleInv_eq P (by rw [hPdt]; exact hdt) (by rw [hra]; exact hM.gamW)
    rw [hA.dSm, vecNorm_axial, hra, hPdt] at e3
    rw [hA.resid_norm, hτ', hPdt, abs_mul, abs_of_pos hsc, hi.tol]
    have e1 : P.aVri * (y / dt) + 4 * (k.evalGdot (hU 0) T').gdot - Real.sqrt (3 / 2) * D = ρ := by
      have e2 : T' - axialTau c11 c12 J E = (c11 - c12) / 2 * dt * (P.aVri * (y / dt)) := by
        rw [haV, hy]; unfold axialTau; field_simp
      have e4 : (c11 - c12) / 2 * dt * (P.aVri * (y / dt))
          = (c11 - c12) / 2 * dt * (Real.sqrt (3 / 2) * D + ρ - 4 * (k.evalGdot (hU 0) T').gdot) := by
        rw [← e2]; linarith
      have := mul_left_cancel₀ hC.ne' e4
      linarith
    rw [e1]
    have h2 := hρ.trans htol
    unfold pullTol at h2
    rw [← e3, mul_one_div, le_div_iff₀ hsc, mul_comm] at h2
    exact h2
  have hconv : (Step.solve X inp P).converged = true :=
    hX.finds _ _ _ (AxialProblem.kept hA) ⟨axisX y 0, _, _, onAxis_axisX y, rfl, hres⟩
  have ht : ∃ t, Step.tangent X (Step.eosUpdate M inp m).bulkNew P (Step.solve X inp P).x m.mtan.isSome = some t := by
    unfold Step.tangent
    rcases hL with hL | hL
    · rw [hL]; exact ⟨none, rfl⟩
    · split_ifs
      · unfold Updst.mtan
        obtain ⟨y, hy⟩ := Option.isSome_iff_exists.1 (hL (P.jacU (Step.solve X inp P).x)
          (P.pfracRhsT (Step.solve X inp P).x))
        rw [hy]
        exact ⟨_, rfl⟩
      · exact ⟨none, rfl⟩
  obtain ⟨t, ht⟩ := ht
  have hK : ∀ i, 0 < M.el.kDiag i := by
    rw [hM.el]
    have := hM.stable.2
    intro i
    fin_cases i <;> simp [Elast.kDiag] <;> linarith [hM.stable.1]
  have hrun : ∃ m', getResponseSngl X M inp m = .ok m' := by
    unfold getResponseSngl
    rw [hset]
    simp only [Step.run, hconv, ht, getGmod_of_stable hK]
    exact ⟨_, rfl⟩
  obtain ⟨m', hm'⟩ := hrun
  refine ⟨m', hm', ?_⟩
  obtain ⟨U⟩ := getResponseSngl_ok hm'
  rw [AxialCrystal.strength hM hi U] at hH
  rw [OkStep.hist_eq U]
  exact (Prod.mk.inj (Out.ok.inj hH)).1

/-! ### Whole histories -/

/-- an endless history of steps of the same length at the same rate, at constant volume, from an axial state -/
structure AxialRun (M : Material 12 1) (dt tol D c s : ℝ) where
  X : ℕ → Ext
  inp : ℕ → Inputs
  m : ℕ → Mem 1 12
  m' : ℕ → Mem 1 12
  solver : ∀ j, AxisSolver (X j).solver
  pull : ∀ j, Pull dt tol D 1 (inp j)
  ok : ∀ j, getResponseSngl (X j) M (inp j) (m j) = .ok (m' j)
  link : ∀ j, (m (j + 1)).hist = (m' j).hist
  start : ∃ E, AxialState E c s (histOf (m 0))

namespace AxialRun
variable {M : Material 12 1} {dt tol D c s : ℝ} (R : AxialRun M dt tol D c s)

/-- strength at the beginning of a step -/
noncomputable def g (j : ℕ) : ℝ := (histOf (R.m j)).h 0
/-- axial minus lateral stress at the end of a step -/
noncomputable def stress (j : ℕ) : ℝ := (R.m' j).stress 2 - (R.m' j).stress 0
/-- resolved stress on the active systems at the beginning of a step -/
noncomputable def tau (c11 c12 : ℝ) (j : ℕ) : ℝ := axialTau c11 c12 1 ((histOf (R.m j)).e 1)

theorem hist_succ (j : ℕ) : histOf (R.m (j + 1)) = histOf (R.m' j) := by
  unfold histOf; rw [R.link]

variable {k : Voce} {S : Solver 1} {c11 c12 c44 : ℝ} (hM : AxialCrystal M k S c11 c12 c44) (hdt : 0 < dt)
include hM hdt

/-- **C98, orientation.** However long it is pulled, the crystal does not turn and is strained along the axis only. -/
theorem C98_orientation (j : ℕ) : ∃ E, AxialState E c s (histOf (R.m j)) := by
  induction j with
  | zero => exact R.start
  | succ j ih =>
    obtain ⟨E, hE⟩ := ih
    obtain ⟨E', -, h, -⟩ := C98_step hM (R.solver j) hdt (R.pull j) hE (R.ok j)
    exact ⟨E', by rw [R.hist_succ]; exact h⟩

theorem step (j : ℕ) : (∃ ρ, |ρ| ≤ pullTol k dt tol D ∧
      R.tau c11 c12 (j + 1) = R.tau c11 c12 j + (c11 - c12) / 2 * dt * (Real.sqrt (3 / 2) * D + ρ
        - 4 * (k.evalGdot (R.g (j + 1)) (R.tau c11 c12 (j + 1))).gdot)) ∧
    ∑ i, |(histOf (R.m (j + 1))).gdot i| = 8 * |(k.evalGdot (R.g (j + 1)) (R.tau c11 c12 (j + 1))).gdot| ∧
    R.stress j = Real.sqrt 6 * R.tau c11 c12 (j + 1) := by
  obtain ⟨E, hE⟩ := R.C98_orientation hM hdt j
  obtain ⟨E', ρ, h1, -, hρ, he, hsum, hstr, -⟩ := C98_step hM (R.solver j) hdt (R.pull j) hE (R.ok j)
  have e0 : R.tau c11 c12 j = axialTau c11 c12 1 E := by unfold tau; rw [hE.e]; rfl
  have e1 : R.tau c11 c12 (j + 1) = axialTau c11 c12 1 E' := by unfold tau; rw [R.hist_succ, h1.e]; rfl
  have eg : R.g (j + 1) = (histOf (R.m' j)).h 0 := by unfold g; rw [R.hist_succ]
  rw [e0, e1, eg]
  refine ⟨⟨ρ, hρ, he⟩, ?_, ?_⟩
  · rw [R.hist_succ]; exact hsum
  · unfold stress; rw [hstr, div_one]

/-- **C98, flow stress.** If the strength stays between two positive bounds, the stress comes as close as one likes to
    the range between the flow stresses of the two bounds, where the rate is uncertain by the tolerance of the solver. -/
theorem C98_limit {g1 g2 : ℝ} (hg1 : 0 < g1) (hg : ∀ j, g1 ≤ R.g j ∧ R.g j ≤ g2)
    (hθ : pullTol k dt tol D < Real.sqrt (3 / 2) * D)
    (hr : 1 / 10 ^ 60 < (Real.sqrt (3 / 2) * D + pullTol k dt tol D) / (4 * k.gamW))
    (hov : Real.sqrt (3 / 2) * D + pullTol k dt tol D < 4 * (10 ^ 45 * k.gamW))
    (h0 : |R.tau c11 c12 0| ≤ (10 ^ 60 : ℝ) ^ k.xm * g1)
    (hcap : g2 * ((Real.sqrt (3 / 2) * D + pullTol k dt tol D) / (4 * k.gamW)) ^ k.xm ≤ (10 ^ 60 : ℝ) ^ k.xm * g1)
    {l u : ℝ} {K0 : ℕ} (hl : 0 < l) (hlu : ∀ j, K0 ≤ j → l ≤ R.g j ∧ R.g j ≤ u)
    {ε : ℝ} (hε : 0 < ε) (hεd : pullTol k dt tol D + ε ≤ Real.sqrt (3 / 2) * D) :
    ∃ K, ∀ j, K ≤ j →
      Real.sqrt 6 * (l * ((Real.sqrt (3 / 2) * D - pullTol k dt tol D - ε) / (4 * k.gamW)) ^ k.xm) < R.stress j ∧
      R.stress j < Real.sqrt 6 * (u * ((Real.sqrt (3 / 2) * D + pullTol k dt tol D + ε) / (4 * k.gamW)) ^ k.xm) := by
  have hw := hM.gamW
  have hκ : 0 < c11 - c12 := sub_pos.2 hM.stable.1
  have hC : 0 < (c11 - c12) / 2 * dt := by positivity
  have etm : k.tMax = (10 ^ 60 : ℝ) ^ k.xm := by unfold Voce.tMax gamRatioOvf; norm_num
  rw [← etm] at h0 hcap
  have hst := fun j => (R.step hM hdt j).1
  have hθ0 : 0 ≤ pullTol k dt tol D := by
    obtain ⟨ρ, hρ, -⟩ := hst 0
    exact (abs_nonneg ρ).trans hρ
  have hb := flow_bound k hM.xm hw hC (hθ0.trans hθ.le) hg1 (fun j => hg (j + 1)) hr hov h0 hcap hst
  have hR : ∀ j, R.tau c11 c12 j ≤ k.tMax * R.g j := fun j =>
    (le_abs_self _).trans ((hb j).trans ((max_le h0 hcap).trans
      (mul_le_mul_of_nonneg_left (hg j).1 k.tMax_pos.le)))
  obtain ⟨K, hK⟩ := flow_limit k hM.xm hw hC hl hlu hb (fun j _ => hR j) hst hε hεd
    (hr.trans_le (div_le_div_of_nonneg_right (by linarith) (by positivity)))
  refine ⟨K, fun j hj => ?_⟩
  obtain ⟨h1, h2⟩ := hK (j + 1) (by omega)
  rw [(R.step hM hdt j).2.2]
  have h6 : 0 < Real.sqrt 6 := Real.sqrt_pos.2 (by norm_num)
  exact ⟨mul_lt_mul_of_pos_left h1 h6, mul_lt_mul_of_pos_left h2 h6⟩

/-- **C98, range.** With plain Newton iteration for the strength, this never leaves the range between its first value and
    the saturation strength, so that the bounds that the other theorems ask for are met. -/
theorem C98_range (hk : k.nonlinear = false) (hS : S = newtonSolver 1 1) (hh0 : 0 ≤ k.h0) (hγ : 0 < k.gamss0)
    (hxs : k.xms = 0) (hsmall : |k.taus0 - R.g 0| ≤ 1) (j : ℕ) :
    min (R.g 0) k.taus0 ≤ R.g j ∧ R.g j ≤ max (R.g 0) k.taus0 := by
  induction j with
  | zero => exact ⟨min_le_left _ _, le_max_left _ _⟩
  | succ j ih =>
    obtain ⟨U⟩ := getResponseSngl_ok (R.ok j)
    have hup := hM.strength (R.pull j) U
    have hgn : R.g (j + 1) = U.hU 0 := by
      unfold g
      rw [R.hist_succ, OkStep.hist_eq U]
      rfl
    have hsat : k.taus0 = voceSat k.taus0 k.gamss0 k.xms (∑ i, |(histOf (R.m j)).gdot i|) := by
      unfold voceSat
      rw [hxs, Real.rpow_zero, mul_one, ite_self]
    have hnear : |k.taus0 - R.g j| ≤ 1 := by
      refine le_trans ?_ hsmall
      rcases le_total (R.g 0) k.taus0 with h | h
      · rw [min_eq_left h, max_eq_right h] at ih
        rw [abs_of_nonneg (by linarith), abs_of_nonneg (by linarith)]
        linarith
      · rw [min_eq_right h, max_eq_left h] at ih
        rw [abs_of_nonpos (by linarith), abs_of_nonpos (by linarith)]
        linarith
    obtain ⟨h', cc, e, -, h1, h2⟩ := C96_hardening_between k hk hγ hh0 (histOf (R.m j)).h dt hdt.le
      (histOf (R.m j)).gdot hsat (Or.inr (hnear.trans (le_max_right _ _)))
    rw [hS, e] at hup
    have e1 : h' = U.hU := (Prod.mk.inj (Out.ok.inj hup)).1
    rw [hgn, ← e1]
    have e2 : (histOf (R.m j)).h 0 = R.g j := rfl
    rw [e2] at h1 h2
    exact ⟨(le_min ih.1 (min_le_right _ _)).trans h1, h2.trans (max_le ih.2 (le_max_right _ _))⟩

/-- slip over `W` steps, as a multiple of what moves the strength to its saturation -/
noncomputable def slipDose (k : Voce) (c11 c12 dt tol D B : ℝ) (W : ℕ) : ℝ :=
  2 * (dt * k.h0 / (k.taus0 - k.tausi)) *
    (W * (Real.sqrt (3 / 2) * D - pullTol k dt tol D) - 2 * B / ((c11 - c12) / 2 * dt))

/-- **C98, saturation.** With Voce hardening to a fixed saturation strength, the strength ends up as near to that as the
    tolerance of its own solver allows. -/
theorem C98_strength (hk : k.nonlinear = false) (hS : S.Sound) (hh0 : 0 ≤ k.h0) (hxs : k.xms = 0)
    (hsat : k.tausi < k.taus0) {g1 g2 : ℝ} (hg1 : 0 < g1) (hg : ∀ j, g1 ≤ R.g j ∧ R.g j ≤ g2)
    (hθ : pullTol k dt tol D < Real.sqrt (3 / 2) * D)
    (hr : 1 / 10 ^ 60 < (Real.sqrt (3 / 2) * D + pullTol k dt tol D) / (4 * k.gamW))
    (hov : Real.sqrt (3 / 2) * D + pullTol k dt tol D < 4 * (10 ^ 45 * k.gamW))
    {B : ℝ} (h0 : |R.tau c11 c12 0| ≤ B)
    (hcap : g2 * ((Real.sqrt (3 / 2) * D + pullTol k dt tol D) / (4 * k.gamW)) ^ k.xm ≤ B)
    (hB : B ≤ (10 ^ 60 : ℝ) ^ k.xm * g1) {W : ℕ} (hW : 0 < slipDose k c11 c12 dt tol D B W) {ε : ℝ} (hε : 0 < ε) :
    ∃ K, ∀ j, K ≤ j → |R.g j - k.taus0| ≤ W * (1 / 10 ^ 10 * max g2 1) *
      (1 + slipDose k c11 c12 dt tol D B W) / slipDose k c11 c12 dt tol D B W + ε := by
  have hw := hM.gamW
  have hκ : 0 < c11 - c12 := sub_pos.2 hM.stable.1
  have hC : 0 < (c11 - c12) / 2 * dt := by positivity
  have etm : k.tMax = (10 ^ 60 : ℝ) ^ k.xm := by unfold Voce.tMax gamRatioOvf; norm_num
  rw [← etm] at hB
  have hst := fun j => (R.step hM hdt j).1
  have hθ0 : 0 ≤ pullTol k dt tol D := by
    obtain ⟨ρ, hρ, -⟩ := hst 0
    exact (abs_nonneg ρ).trans hρ
  have hb' := flow_bound k hM.xm hw hC (hθ0.trans hθ.le) hg1 (fun j => hg (j + 1)) hr hov (h0.trans hB) (hcap.trans hB) hst
  have hb : ∀ j, |R.tau c11 c12 j| ≤ B := fun j => (hb' j).trans (max_le h0 hcap)
  set A := dt * k.h0 / (k.taus0 - k.tausi) with hA
  have hA0 : 0 ≤ A := div_nonneg (mul_nonneg hdt.le hh0) (sub_pos.2 hsat).le
  set d := Real.sqrt (3 / 2) * D with hd
  set θ := pullTol k dt tol D with hθd
  set C := (c11 - c12) / 2 * dt with hCd
  set f : ℕ → ℝ := fun j => (k.evalGdot (R.g j) (R.tau c11 c12 j)).gdot with hf
  -- the slip of `W` steps
  have hwin : ∀ (V i : ℕ), C * (V * (d - θ)) - 2 * B ≤ C * (4 * ∑ j ∈ Finset.range V, f (i + j + 1)) := by
    intro V i
    have h1 : C * (V * (d - θ)) - (R.tau c11 c12 (i + V) - R.tau c11 c12 i)
        ≤ C * (4 * ∑ j ∈ Finset.range V, f (i + j + 1)) := by
      induction V with
      | zero => simp
      | succ V ih =>
        obtain ⟨ρ, hρ, he⟩ := hst (i + V)
        rw [Finset.sum_range_succ]
        have h2 := mul_le_mul_of_nonneg_left (abs_le.1 hρ).1 hC.le
        have e : f (i + V + 1) = (k.evalGdot (R.g (i + V + 1)) (R.tau c11 c12 (i + V + 1))).gdot := rfl
        rw [← e] at he
        rw [show i + (V + 1) = i + V + 1 by ring]
        push_cast
        linarith
    have h2 := abs_le.1 (hb (i + V))
    have h3 := abs_le.1 (hb i)
    linarith
  obtain ⟨K, hK⟩ := eventually_small (e := fun j => |R.g (j + 1) - k.taus0|)
    (μ := fun j => A * (8 * |f (j + 1)|)) (δ := 1 / 10 ^ 10 * max g2 1) (M := slipDose k c11 c12 dt tol D B W)
    (C := |g1| + |g2| + |k.taus0|) (W := W) (by positivity) hW (fun j => by positivity) (fun j => abs_nonneg _)
    (fun j => by
      obtain ⟨h1, h2⟩ := hg (j + 1)
      have := abs_sub (R.g (j + 1)) k.taus0
      have h3 : |R.g (j + 1)| ≤ |g1| + |g2| := by
        rw [abs_of_pos (hg1.trans_le h1)]
        have := le_abs_self g2; have := abs_nonneg g1
        linarith
      linarith)
    (by
      intro j
      obtain ⟨U⟩ := getResponseSngl_ok (R.ok (j + 1))
      have hup := hM.strength (R.pull (j + 1)) U
      obtain ⟨z, hz, hzn⟩ := C27_update k hk hh0 S hS _ dt hdt.le _ _ _ hup
      have hsat' : voceSat k.taus0 k.gamss0 k.xms (∑ i, |(histOf (R.m (j + 1))).gdot i|) = k.taus0 := by
        unfold voceSat
        rw [hxs, Real.rpow_zero, mul_one, ite_self]
      have hgn : R.g (j + 1 + 1) = U.hU 0 := by
        unfold g
        rw [R.hist_succ, OkStep.hist_eq U]
        rfl
      rw [hsat', (R.step hM hdt j).2.1] at hz
      unfold voceRate at hz
      rw [if_neg (not_le.2 hsat)] at hz
      have eg : (histOf (R.m (j + 1))).h 0 = R.g (j + 1) := rfl
      rw [eg] at hz hzn
      have ef : (k.evalGdot (R.g (j + 1)) (R.tau c11 c12 (j + 1))).gdot = f (j + 1) := rfl
      rw [ef] at hz
      have hd0 : k.taus0 - k.tausi ≠ 0 := (sub_pos.2 hsat).ne'
      have hz2 : z - R.g (j + 1) = A * (8 * |f (j + 1)|) * (k.taus0 - z) := by
        rw [hz, hA]; field_simp
      have hμ : 0 ≤ A * (8 * |f (j + 1)|) := by positivity
      generalize A * (8 * |f (j + 1)|) = μ at hz2 hμ
      have e1 : z - k.taus0 = (R.g (j + 1) - k.taus0) / (1 + μ) := by
        rw [eq_div_iff (by linarith)]; linarith
      rw [hgn]
      have e2 : |z - k.taus0| = |R.g (j + 1) - k.taus0| / (1 + μ) := by
        rw [e1, abs_div, abs_of_pos (by linarith : 0 < 1 + μ)]
      rw [← e2]
      have h3 := abs_sub_le (U.hU 0) z k.taus0
      have h4 : max (R.g (j + 1)) 1 ≤ max g2 1 := max_le_max_right _ (hg (j + 1)).2
      have h5 : (1 : ℝ) / 10 ^ 10 * max (R.g (j + 1)) 1 ≤ 1 / 10 ^ 10 * max g2 1 :=
        mul_le_mul_of_nonneg_left h4 (by norm_num)
      linarith)
    (by
      intro i
      have h1 := hwin W i
      have h2 : ∑ j ∈ Finset.range W, f (i + j + 1) ≤ ∑ j ∈ Finset.range W, |f (i + j + 1)| :=
        Finset.sum_le_sum fun j _ => le_abs_self _
      unfold slipDose
      rw [← Finset.mul_sum, ← Finset.mul_sum]
      have h3 : W * (d - θ) - 2 * B / C ≤ 4 * ∑ j ∈ Finset.range W, |f (i + j + 1)| := by
        have h4 : W * (d - θ) - 2 * B / C ≤ 4 * ∑ j ∈ Finset.range W, f (i + j + 1) := by
          refine le_of_mul_le_mul_left ?_ hC
          rw [mul_sub, mul_div_cancel₀ _ hC.ne']
          exact h1
        linarith
      calc 2 * A * (W * (d - θ) - 2 * B / C) ≤ 2 * A * (4 * ∑ j ∈ Finset.range W, |f (i + j + 1)|) :=
            mul_le_mul_of_nonneg_left h3 (by positivity)
        _ = A * (8 * ∑ j ∈ Finset.range W, |f (i + j + 1)|) := by ring)
    hε
  refine ⟨K + 1, fun j hj => ?_⟩
  obtain ⟨i, rfl⟩ := Nat.exists_eq_add_of_le' (show 1 ≤ j by omega)
  exact hK i (by omega)

/-- **C98, flow stress at saturation.** The axial stress ends up as near as one likes to `√6` times the saturation
    strength times the power `m` of a quarter of the resolved rate in reference rates, up to the two tolerances. -/
theorem C98_flow (hk : k.nonlinear = false) (hS : S.Sound) (hh0 : 0 ≤ k.h0) (hxs : k.xms = 0)
    (hsat : k.tausi < k.taus0) {g1 g2 : ℝ} (hg1 : 0 < g1) (hg : ∀ j, g1 ≤ R.g j ∧ R.g j ≤ g2)
    (hθ : pullTol k dt tol D < Real.sqrt (3 / 2) * D)
    (hr : 1 / 10 ^ 60 < (Real.sqrt (3 / 2) * D + pullTol k dt tol D) / (4 * k.gamW))
    (hov : Real.sqrt (3 / 2) * D + pullTol k dt tol D < 4 * (10 ^ 45 * k.gamW))
    {B : ℝ} (h0 : |R.tau c11 c12 0| ≤ B)
    (hcap : g2 * ((Real.sqrt (3 / 2) * D + pullTol k dt tol D) / (4 * k.gamW)) ^ k.xm ≤ B)
    (hB : B ≤ (10 ^ 60 : ℝ) ^ k.xm * g1) {W : ℕ} (hW : 0 < slipDose k c11 c12 dt tol D B W) {ε : ℝ} (hε : 0 < ε)
    (hεd : pullTol k dt tol D + ε ≤ Real.sqrt (3 / 2) * D) {η : ℝ}
    (hη : η = W * (1 / 10 ^ 10 * max g2 1) *
      (1 + slipDose k c11 c12 dt tol D B W) / slipDose k c11 c12 dt tol D B W + ε) (hη0 : η < k.taus0) :
    ∃ K, ∀ j, K ≤ j →
      Real.sqrt 6 * ((k.taus0 - η) * ((Real.sqrt (3 / 2) * D - pullTol k dt tol D - ε) / (4 * k.gamW)) ^ k.xm)
        < R.stress j ∧
      R.stress j
        < Real.sqrt 6 * ((k.taus0 + η) * ((Real.sqrt (3 / 2) * D + pullTol k dt tol D + ε) / (4 * k.gamW)) ^ k.xm) := by
  obtain ⟨K0, hK0⟩ := R.C98_strength hM hdt hk hS hh0 hxs hsat hg1 hg hθ hr hov h0 hcap hB hW hε
  rw [← hη] at hK0
  exact R.C98_limit hM hdt hg1 hg hθ hr hov (h0.trans hB) (hcap.trans hB) (sub_pos.2 hη0)
    (fun j hj => by have := abs_le.1 (hK0 j hj); constructor <;> linarith) hε hεd

end AxialRun

/-- **C98, endless pulling.** With plain Newton iteration for the strength and a solver that finds solutions on the axis,
    a crystal can be pulled for any number of steps: none of them fails. Between steps the host may change what it likes
    apart from the history. -/
theorem C98_history {M : Material 12 1} {k : Voce} {c11 c12 c44 : ℝ}
    (hM : AxialCrystal M k (newtonSolver 1 1) c11 c12 c44) (hcv : M.eos.cvav ≠ 0) (hk : k.nonlinear = false)
    (hh0 : 0 ≤ k.h0) (hγ : 0 < k.gamss0) (hxs : k.xms = 0) (hsat : 0 < k.taus0) {X : ℕ → Ext}
    (hX : ∀ j, AxisFinder (X j).solver) (hL : ∀ j A B, ((X j).lup A B).isSome) {inp : ℕ → Inputs} {dt tol D : ℝ}
    (hdt : 0 < dt) (hi : ∀ j, Pull dt tol D 1 (inp j)) (prep : ℕ → Mem 1 12 → Mem 1 12)
    (hprep : ∀ j m, (prep j m).hist = m.hist) {m0 : Mem 1 12} {E c s : ℝ} (hs : AxialState E c s (histOf m0)) {g0 : ℝ}
    (hg0 : (histOf m0).h 0 = g0) (hgp : 0 < g0) (hnear : |k.taus0 - g0| ≤ 1) (hD : 0 ≤ D)
    (htol : 4 / 10 ^ 60 * k.gamW ≤ pullTol k dt tol D)
    (hr : 1 / 10 ^ 60 < (Real.sqrt (3 / 2) * D + pullTol k dt tol D) / (4 * k.gamW))
    (hov : Real.sqrt (3 / 2) * D + pullTol k dt tol D < 4 * (10 ^ 45 * k.gamW))
    {B : ℝ} (h0 : |axialTau c11 c12 1 E| ≤ B)
    (hcap : max g0 k.taus0 * ((Real.sqrt (3 / 2) * D + pullTol k dt tol D) / (4 * k.gamW)) ^ k.xm ≤ B)
    (hB : B ≤ (10 ^ 60 : ℝ) ^ k.xm * min g0 k.taus0) :
    ∃ R : AxialRun M dt tol D c s, R.X = X ∧ R.inp = inp ∧ R.m 0 = m0 ∧ (∀ j, R.m (j + 1) = prep j (R.m' j)) ∧
      (∀ j, |R.tau c11 c12 j| ≤ B) ∧ ∀ j, min g0 k.taus0 ≤ R.g j ∧ R.g j ≤ max g0 k.taus0 := by
  have hw := hM.gamW
  have hκ : 0 < c11 - c12 := sub_pos.2 hM.stable.1
  have hC : 0 < (c11 - c12) / 2 * dt := by positivity
  have etm : k.tMax = (10 ^ 60 : ℝ) ^ k.xm := by unfold Voce.tMax gamRatioOvf; norm_num
  have hg1 : 0 < min g0 k.taus0 := lt_min hgp hsat
  have hd : 0 ≤ Real.sqrt (3 / 2) * D := mul_nonneg (Real.sqrt_nonneg _) hD
  have hθ0 : 0 ≤ pullTol k dt tol D := le_trans (by positivity) htol
  let I : Mem 1 12 → Prop := fun m => ∃ E, AxialState E c s (histOf m) ∧ |axialTau c11 c12 1 E| ≤ B ∧
    min g0 k.taus0 ≤ (histOf m).h 0 ∧ (histOf m).h 0 ≤ max g0 k.taus0
  have hstep : ∀ j m, I m → ∃ m', getResponseSngl (X j) M (inp j) m = .ok m' ∧ I (prep j m') := by
    rintro j m ⟨E, hE, hT, hl, hu⟩
    have hsat' : k.taus0 = voceSat k.taus0 k.gamss0 k.xms (∑ i, |(histOf m).gdot i|) := by
      unfold voceSat
      rw [hxs, Real.rpow_zero, mul_one, ite_self]
    have hn : |k.taus0 - (histOf m).h 0| ≤ 1 := by
      refine le_trans ?_ hnear
      rcases le_total g0 k.taus0 with h | h
      · rw [min_eq_left h] at hl
        rw [max_eq_right h] at hu
        rw [abs_of_nonneg (by linarith), abs_of_nonneg (by linarith)]
        linarith
      · rw [min_eq_right h] at hl
        rw [max_eq_left h] at hu
        rw [abs_of_nonpos (by linarith), abs_of_nonpos (by linarith)]
        linarith
    obtain ⟨h', cc, e, -, h1, h2⟩ := C96_hardening_between k hk hγ hh0 (histOf m).h dt hdt.le
      (histOf m).gdot hsat' (Or.inr (hn.trans (le_max_right _ _)))
    have hl' : min g0 k.taus0 ≤ h' 0 := (le_min hl (min_le_right _ _)).trans h1
    have hu' : h' 0 ≤ max g0 k.taus0 := h2.trans (max_le hu (le_max_right _ _))
    obtain ⟨m', hm', hh'⟩ := C98_exists hM hcv (hX j) hdt one_pos (hi j) hE (Or.inr (hL j)) e (hg1.trans_le hl') (by
        rw [abs_of_nonneg hd]
        refine le_trans (by linarith : _ ≤ 4 * (10 ^ 45 * k.gamW)) ?_
        have : (10 : ℝ) ^ 45 * k.gamW ≤ 10 ^ 60 * k.gamW := mul_le_mul_of_nonneg_right (by norm_num) hw.le
        linarith) htol
      (hT.trans (hB.trans (mul_le_mul_of_nonneg_left hl' (Real.rpow_nonneg (by norm_num) _))))
    refine ⟨m', hm', ?_⟩
    obtain ⟨E', ρ, hE', -, hρ, he, -⟩ := C98_step hM (hX j).toAxisSolver hdt (hi j) hE hm'
    have eh : histOf (prep j m') = histOf m' := by unfold histOf; rw [hprep]
    refine ⟨E', by rw [eh]; exact hE', ?_, by rw [eh, hh']; exact hl', by rw [eh, hh']; exact hu'⟩
    rw [hh'] at he
    rw [← etm] at hB
    exact axis_flow_step k hM.xm hw hC hd hg1 ⟨hl', hu'⟩ hr hov hT hcap hB hρ he
  choose! nxt hn1 hn2 using hstep
  let mm : ℕ → Mem 1 12 := fun j => Nat.rec m0 (fun i m => prep i (nxt i m)) j
  have hI : ∀ j, I (mm j) := by
    intro j
    induction j with
    | zero => exact ⟨E, hs, h0, (min_le_left _ _).trans_eq hg0.symm, hg0.trans_le (le_max_left _ _)⟩
    | succ j ih => exact hn2 j _ ih
  refine ⟨⟨X, inp, mm, fun j => nxt j (mm j), fun j => (hX j).toAxisSolver, hi, fun j => hn1 j _ (hI j), fun j => ?_,
    ⟨E, hs⟩⟩, rfl, rfl, rfl, fun j => rfl, fun j => ?_, fun j => ?_⟩
  · exact hprep j _
  · obtain ⟨E', hE', hT', -⟩ := hI j
    unfold AxialRun.tau
    rw [hE'.e]
    exact hT'
  · obtain ⟨E', -, -, h1, h2⟩ := hI j
    exact ⟨h1, h2⟩

/-! ### Concrete cases -/

/-- the copper of the parameter files, with plain Newton iteration for its strength -/
noncomputable def axisCopper : Material 12 1 where
  geom := slipPQ fccM fccS
  kin := copperVoce.kin (newtonSolver 1 1) 12
  el := .cubic 168.4 121.4 75.2
  eos := ⟨false, 8.92e-6, 137, 0.003435984, 1.7, -1.0307952⟩

theorem axisCopper_axial : AxialCrystal axisCopper copperVoce (newtonSolver 1 1) 168.4 121.4 75.2 where
  geom := Or.inl rfl
  kin := rfl
  el := rfl
  stable := by norm_num
  xm := by norm_num [copperVoce]
  gamW := by norm_num [copperVoce]

/-- stretching by a thousandth per unit of time, in steps of a tenth -/
noncomputable def axisInp : Inputs where
  dt := 1 / 10
  tol := 1 / 10 ^ 10
  d := ![-1 / 2000, -1 / 2000, 1 / 1000, 0, 0, 0, 0]
  w := 0
  vr := ![1, 1, 0, 0]

theorem axisInp_pull : Pull (1 / 10) (1 / 10 ^ 10) (1 / 1000) 1 axisInp where
  dt := rfl
  tol := rfl
  d := by
    unfold devOfSvecP axisInp
    ext i j
    fin_cases i <;> fin_cases j <;> simp <;> norm_num
  w := rfl
  vol := rfl

theorem sqrt_3b2_bounds : 122 / 100 < Real.sqrt (3 / 2) ∧ Real.sqrt (3 / 2) < 123 / 100 :=
  ⟨Real.lt_sqrt_of_sq_lt (by norm_num), by rw [Real.sqrt_lt' (by norm_num)]; norm_num⟩

theorem axisTol : pullTol copperVoce (1 / 10) (1 / 10 ^ 10) (1 / 1000) = 1 / 10 ^ 10 * (Real.sqrt (3 / 2) * (1 / 1000)) := by
  obtain ⟨h1, h2⟩ := sqrt_3b2_bounds
  have e : copperVoce.gamW = 1 := rfl
  unfold pullTol lostScale
  rw [abs_of_nonneg (by positivity), e, if_neg (by linarith), max_eq_left (by linarith)]

/-- an unloaded crystal of this copper, turned by any angle about the axis, goes through any number of steps; in the end
    its strength is the saturation strength and its stress the flow stress of that, both to one part in ten thousand -/
example (m0 : Mem 1 12) (c s : ℝ) (hs : AxialState 0 c s (histOf m0)) (hg : (histOf m0).h 0 = 17e-3) :
    ∃ R : AxialRun axisCopper (1 / 10) (1 / 10 ^ 10) (1 / 1000) c s, R.m 0 = m0 ∧ ∃ K, ∀ j, K ≤ j →
      Real.sqrt 6 * ((0.1224 - 1 / 10 ^ 6) * ((Real.sqrt (3 / 2) / 1000 - 2 / 10 ^ 8) / 4) ^ (0.02 : ℝ)) < R.stress j ∧
      R.stress j < Real.sqrt 6 * ((0.1224 + 1 / 10 ^ 6) * ((Real.sqrt (3 / 2) / 1000 + 2 / 10 ^ 8) / 4) ^ (0.02 : ℝ)) := by
  obtain ⟨s1, s2⟩ := sqrt_3b2_bounds
  have hT := axisTol
  have ew : copperVoce.gamW = 1 := rfl
  have em : copperVoce.xm = 0.02 := rfl
  have es : copperVoce.taus0 = 122.4e-3 := rfl
  have ei : copperVoce.tausi = 17e-3 := rfl
  have eh : copperVoce.h0 = 400e-3 := rfl
  have hmin : min (17e-3 : ℝ) copperVoce.taus0 = 17e-3 := by rw [es]; norm_num
  have hmax : max (17e-3 : ℝ) copperVoce.taus0 = 122.4e-3 := by rw [es]; norm_num
  have hcut : (122.4e-3 : ℝ) ≤ (10 ^ 60 : ℝ) ^ copperVoce.xm * 17e-3 := by
    have h1 : (10 : ℝ) ≤ (10 ^ 60 : ℝ) ^ copperVoce.xm := by
      rw [em, ← Real.rpow_natCast (10 : ℝ) 60, ← Real.rpow_mul (by norm_num)]
      calc (10 : ℝ) = 10 ^ (1 : ℝ) := (Real.rpow_one _).symm
        _ ≤ _ := Real.rpow_le_rpow_of_exponent_le (by norm_num) (by norm_num)
    generalize (10 ^ 60 : ℝ) ^ copperVoce.xm = z at h1
    linarith
  have hr : 1 / 10 ^ 60 < (Real.sqrt (3 / 2) * (1 / 1000) + pullTol copperVoce (1 / 10) (1 / 10 ^ 10) (1 / 1000))
      / (4 * copperVoce.gamW) := by
    rw [hT, ew, lt_div_iff₀ (by norm_num)]; revert s1 s2; generalize Real.sqrt (3 / 2) = q; intro s1 s2; norm_num; linarith
  have hov : Real.sqrt (3 / 2) * (1 / 1000) + pullTol copperVoce (1 / 10) (1 / 10 ^ 10) (1 / 1000)
      < 4 * (10 ^ 45 * copperVoce.gamW) := by
    rw [hT, ew]; revert s1 s2; generalize Real.sqrt (3 / 2) = q; intro s1 s2; norm_num; linarith
  have hcap : (122.4e-3 : ℝ) * ((Real.sqrt (3 / 2) * (1 / 1000) + pullTol copperVoce (1 / 10) (1 / 10 ^ 10) (1 / 1000))
      / (4 * copperVoce.gamW)) ^ copperVoce.xm ≤ 122.4e-3 := by
    refine mul_le_of_le_one_right (by norm_num) (Real.rpow_le_one ?_ ?_ (by rw [em]; norm_num))
    · exact le_trans (by norm_num) hr.le
    · rw [hT, ew, div_le_one (by norm_num)]; revert s1 s2; generalize Real.sqrt (3 / 2) = q; intro s1 s2; norm_num; linarith
  obtain ⟨R, -, -, h0, -, hτ, hgr⟩ := C98_history axisCopper_axial (by norm_num [axisCopper]) rfl
    (by rw [eh]; norm_num) (by norm_num [copperVoce]) rfl (by rw [es]; norm_num)
    (X := fun _ => ⟨axisFinder, fun _ B => some B, 1⟩) (fun _ => axisFinder_finds) (fun _ _ _ => rfl)
    (inp := fun _ => axisInp) (by norm_num) (fun _ => axisInp_pull) (fun _ m => m) (fun _ _ => rfl) hs hg (by norm_num)
    (by rw [es]; norm_num [abs_le]) (by norm_num) (by rw [hT, ew]; revert s1 s2; generalize Real.sqrt (3 / 2) = q; intro s1 s2; norm_num; linarith) hr hov (B := 122.4e-3)
    (by unfold axialTau; norm_num) (by rw [hmax]; exact hcap) (by rw [hmin]; exact hcut)
  refine ⟨R, h0, ?_⟩
  rw [hmin, hmax] at hgr
  have hM : 1 / 10 ≤ AxialRun.slipDose copperVoce 168.4 121.4 (1 / 10) (1 / 10 ^ 10) (1 / 1000) 122.4e-3 200 := by
    unfold AxialRun.slipDose
    rw [hT, eh, es, ei]
    push_cast
    revert s1 s2
    generalize Real.sqrt (3 / 2) = q
    intro s1 s2
    norm_num
    linarith
  set Q := AxialRun.slipDose copperVoce 168.4 121.4 (1 / 10) (1 / 10 ^ 10) (1 / 1000) 122.4e-3 200 with hQ
  have hQ0 : 0 < Q := by linarith
  obtain ⟨K, hK⟩ := R.C98_flow axisCopper_axial (by norm_num) rfl (newtonSolver_sound 1 1) (by rw [eh]; norm_num) rfl
    (by rw [es, ei]; norm_num) (by norm_num) hgr (by rw [hT]; linarith) hr hov (hτ 0) hcap hcut (W := 200) hQ0
    (ε := 1 / 10 ^ 8) (by norm_num) (by rw [hT]; linarith) rfl (by
      rw [es, ← hQ]
      have : (200 : ℕ) * (1 / 10 ^ 10 * max (122.4e-3 : ℝ) 1) * (1 + Q) / Q ≤ 3 / 10 ^ 7 := by
        rw [div_le_iff₀ hQ0, max_eq_right (by norm_num)]; push_cast; linarith
      linarith)
  refine ⟨K, fun j hj => ?_⟩
  obtain ⟨k1, k2⟩ := hK j hj
  rw [hT, ew, em, es, ← hQ] at k1 k2
  have hη : (200 : ℕ) * (1 / 10 ^ 10 * max (122.4e-3 : ℝ) 1) * (1 + Q) / Q ≤ 3 / 10 ^ 7 := by
    rw [div_le_iff₀ hQ0, max_eq_right (by norm_num)]; push_cast; linarith
  have hη0 : 0 ≤ (200 : ℕ) * (1 / 10 ^ 10 * max (122.4e-3 : ℝ) 1) * (1 + Q) / Q := by positivity
  generalize (200 : ℕ) * (1 / 10 ^ 10 * max (122.4e-3 : ℝ) 1) * (1 + Q) / Q = η at k1 k2 hη hη0
  have h6 : 0 ≤ Real.sqrt 6 := Real.sqrt_nonneg _
  constructor
  · refine lt_of_le_of_lt (mul_le_mul_of_nonneg_left (mul_le_mul ?_ (Real.rpow_le_rpow ?_ ?_ (by norm_num))
      (Real.rpow_nonneg ?_ _) ?_) h6) k1
    · linarith
    · linarith
    · linarith
    · linarith
    · linarith
  · refine k2.trans_le (mul_le_mul_of_nonneg_left (mul_le_mul ?_ (Real.rpow_le_rpow ?_ ?_ (by norm_num))
      (Real.rpow_nonneg ?_ _) ?_) h6)
    · linarith
    · linarith
    · linarith
    · linarith
    · linarith

end Ecm.Props
