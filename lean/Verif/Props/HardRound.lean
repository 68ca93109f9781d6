/- Property theorems C107: the hardness update of linear Voce hardening in floating-point arithmetic
   (src/ecmech/ECMech_kinetics.h:93-137, 177-180, src/ecmech/ECMech_kinetics_VocePL.h:299-345). -/
import Verif.Lemmas.HardRound
import Verif.Props.RoundingAcc
import Verif.Props.ResidRound
import Verif.Props.Runs

namespace Ecm.Props
open Ecm Spec
variable {F : Flt}

/-- the equation of one implicit step of linear Voce hardening: over the time `dt` the strength goes from `hO` to `h`
    with the rate of slip `g`, the saturation strength `s`, the initial strength and the rate of the law `k` -/
def ImplicitVoce (k : Voce) (g s hO dt h : ℝ) : Prop :=
  h - hO = dt * (k.h0 * g * ((s - h) / (s - k.tausi)))

/-- how far one step goes towards saturation: `h0 g dt / (s - tausi)` -/
noncomputable def hardFactor (k : Voce) (g s dt : ℝ) : ℝ := k.h0 * g * dt / (s - k.tausi)

/-- the numbers of one hardness update are of usual size -/
structure HardSized (k : Voce) (g s dt : ℝ) : Prop where
  rate : Pw k.h0 20
  range : Pw (s - k.tausi) 20
  time : Pw dt 20
  slip0 : 0 ≤ g
  slip1 : g ≤ 10 ^ 20

/-- **C107 without rounding, the definitions are those of the model of the update.** -/
theorem C107_exact (hF : ∀ x, F.fl x = x) (L : Libm F) (hL : ∀ x y, L.powF x y = x ^ y) (k : Voce)
    (hk : k.nonlinear = false) (g s hO dt x : ℝ) :
    ({ law := k.getSdot1 (g, s), hO := hO, dt := dt } : H1Problem).computeRJ x
      = some (F.hardResid k g s hO dt x, F.hardJac k g s dt) ∧
    ({ law := k.getSdot1 (g, s), hO := hO, dt := dt } : H1Problem).getHn x = F.hardNew hO x ∧
    ∀ {n : ℕ} (v : Vec n), k.getEvolVals v = (vecsssumabs v, Flt.satStrength L k (vecsssumabs v)) := by
  refine ⟨?_, ?_, fun v => ?_⟩
  · unfold H1Problem.computeRJ Flt.hardResid Flt.hardJac Flt.hardRate Flt.hardSlope Flt.hardNew Flt.hardDelta
      Flt.hardTemp2 Voce.getSdot1 H1Problem.resScale H1Problem.xScale
    simp only [hF, hk, Bool.false_eq_true, if_false]
  · unfold H1Problem.getHn Flt.hardNew Flt.hardDelta H1Problem.xScale
    simp only [hF]
  · unfold Voce.getEvolVals Flt.satStrength
    simp only [hF, hL]

/-- the exact residual in terms of the solution of the equation of the step -/
theorem hard_solution {k : Voce} {g s hO dt h x : ℝ} (hd : 0 < s - k.tausi) (hh : ImplicitVoce k g s hO dt h) :
    (x * max hO 1 - k.h0 * ((s - (hO + x * max hO 1)) * (1 / (s - k.tausi))) * g * dt) * (1 / max hO 1) * max hO 1
      = (1 + hardFactor k g s dt) * (hO + x * max hO 1 - h) := by
  have x0 : max hO 1 ≠ 0 := (lt_of_lt_of_le one_pos (le_max_right _ _)).ne'
  unfold ImplicitVoce at hh
  unfold hardFactor
  have hd' := hd.ne'
  generalize s - k.tausi = d at *
  generalize max hO 1 = X at *
  have e : h = hO + dt * (k.h0 * g * ((s - h) / d)) := by linarith
  have e2 : (1 + k.h0 * g * dt / d) * h = hO + k.h0 * g * dt / d * s := by
    have : k.h0 * g * dt / d * h = k.h0 * g * dt / d * s - dt * (k.h0 * g * ((s - h) / d)) := by
      field_simp; ring
    rw [add_mul, this, one_mul]
    linarith
  rw [mul_assoc _ (1 / X) X, one_div_mul_cancel x0, mul_one, mul_sub, e2]
  field_simp
  ring

theorem hardFactor_nonneg {k : Voce} {g s dt : ℝ} (h : HardSized k g s dt) : 0 ≤ hardFactor k g s dt :=
  div_nonneg (mul_nonneg (mul_nonneg h.rate.pos.le h.slip0) h.time.pos.le) h.range.pos.le

/-- the exact solution lies between the old strength and saturation -/
theorem implicit_mean {k : Voce} {g s hO dt h : ℝ} (hs : HardSized k g s dt) (hh : ImplicitVoce k g s hO dt h) :
    h * (1 + hardFactor k g s dt) = hO + hardFactor k g s dt * s := by
  have hd := hs.range.pos.ne'
  unfold ImplicitVoce at hh
  unfold hardFactor
  generalize s - k.tausi = d at *
  have : k.h0 * g * dt / d * h = k.h0 * g * dt / d * s - dt * (k.h0 * g * ((s - h) / d)) := by
    field_simp; ring
  rw [mul_add, mul_comm h (_ / _), this, mul_one]
  linarith

theorem implicit_range {k : Voce} {g s hO dt h L U : ℝ} (hs : HardSized k g s dt) (hh : ImplicitVoce k g s hO dt h)
    (h1 : L ≤ hO) (h2 : hO ≤ U) (h3 : L ≤ s) (h4 : s ≤ U) : L ≤ h ∧ h ≤ U := by
  have a0 := hardFactor_nonneg hs
  have e := implicit_mean hs hh
  generalize hardFactor k g s dt = a at *
  constructor <;> nlinarith

/-- **C107 the residual** handed to the solver is within 38 roundoffs, relative to the strength and its change, of
    the exact one. -/
theorem C107_residual {k : Voce} {g s hO dt x B : ℝ} (hs : HardSized k g s dt) (hB : Pw B 30) (h1 : |s| ≤ B)
    (h2 : |hO| ≤ B) (h3 : |x * max hO 1| ≤ B) :
    |F.hardResid k g s hO dt x - (x * max hO 1
        - dt * (k.h0 * g * ((s - (hO + x * max hO 1)) / (s - k.tausi)))) / max hO 1|
      ≤ 38 * (max (hardFactor k g s dt) 1 * B / max hO 1) * F.w := by
  have e := (Flt.hard_err (F := F) hB hs.rate hs.range hs.time hs.slip0 hs.slip1 h1 h2 h3).2.2
  unfold hardFactor
  refine le_trans (le_of_eq ?_) (e.trans (le_of_eq ?_))
  · congr 1; ring
  · ring

/-- **C107 one update.**  When the computed residual passes the test of the solver, the stored strength differs from
    the solution of the equation of the step by the tolerance, divided by one plus the factor of the step, and at most
    42 roundoffs of the strength - whatever the rate of hardening, the rate of slip and the length of the step. -/
theorem C107_step {k : Voce} {g s hO dt h x M tol : ℝ} (hs : HardSized k g s dt) (hM : Pw M 29)
    (h1 : 0 ≤ s) (h1' : s ≤ M) (h2 : 0 ≤ hO) (h2' : hO ≤ M) (ht : 0 ≤ tol) (ht1 : tol * max hO 1 ≤ 10 ^ 28)
    (hx : |x * max hO 1| ≤ 10 ^ 30) (hr : |F.hardResid k g s hO dt x| ≤ tol) (hh : ImplicitVoce k g s hO dt h) :
    |F.hardNew hO x - h| ≤ tol * max hO 1 / (1 + hardFactor k g s dt) + 42 * (M + tol * max hO 1) * F.w := by
  have m0 := hM.pos
  have a0 := hardFactor_nonneg hs
  have x1 : 1 ≤ max hO 1 := le_max_right _ _
  have sol := hard_solution (x := x) hs.range.pos hh
  have hrange := implicit_range hs hh h2 h2' h1 h1'
  have hw := F.w_pos; have hw1 := F.w_le
  have tx : 0 ≤ tol * max hO 1 := mul_nonneg ht (by linarith)
  have hAe : max (k.h0 * g * dt / (s - k.tausi)) 1 = max (hardFactor k g s dt) 1 := rfl
  -- distance of the exact value at the point from the solution
  have key : ∀ B, Pw B 30 → M ≤ B → |x * max hO 1| ≤ B →
      F.Er (F.hardNew hO x) (hO + x * max hO 1) (3.03 * B) (2 * B) ∧
      |hO + x * max hO 1 - h| ≤ tol * max hO 1 / (1 + hardFactor k g s dt) + 38 * B * F.w := by
    intro B hB hMB hxB
    obtain ⟨e1, e2⟩ := Flt.hard_err (F := F) hB hs.rate hs.range hs.time hs.slip0 hs.slip1
      (by rw [abs_of_nonneg h1]; linarith) (by rw [abs_of_nonneg h2]; linarith) hxB
    refine ⟨e1, ?_⟩
    have b0 := hB.pos
    have e3 := e2.2
    rw [hAe] at e3
    generalize (x * max hO 1 - k.h0 * ((s - (hO + x * max hO 1)) * (1 / (s - k.tausi))) * g * dt)
      * (1 / max hO 1) = r at *
    have x0 : 0 < max hO 1 := by linarith
    have e4 : |r| ≤ tol + 38 * (max (hardFactor k g s dt) 1 * B * (1 / max hO 1)) * F.w := by
      have := abs_sub_le r (F.hardResid k g s hO dt x) 0
      rw [sub_zero, sub_zero, abs_sub_comm] at this
      linarith
    have e5 : |r * max hO 1| ≤ tol * max hO 1 + 38 * (max (hardFactor k g s dt) 1 * B) * F.w := by
      rw [abs_mul, abs_of_pos x0]
      refine (mul_le_mul_of_nonneg_right e4 x0.le).trans (le_of_eq ?_)
      field_simp
    rw [sol, abs_mul] at e5
    generalize hardFactor k g s dt = a at *
    rw [abs_of_pos (by linarith)] at e5
    have e6 : max a 1 ≤ 1 + a := max_le (by linarith) (by linarith)
    have e7 : 38 * (max a 1 * B) * F.w ≤ (1 + a) * (38 * B * F.w) := by
      have := mul_le_mul_of_nonneg_right e6 (by positivity : 0 ≤ 38 * B * F.w)
      linarith
    have a1 : 0 < 1 + a := by linarith
    have e8 : (1 + a) * (tol * max hO 1 / (1 + a) + 38 * B * F.w) = tol * max hO 1 + (1 + a) * (38 * B * F.w) := by
      field_simp
    exact le_of_mul_le_mul_left (by linarith) a1
  have div_le : tol * max hO 1 / (1 + hardFactor k g s dt) ≤ tol * max hO 1 :=
    div_le_self tx (by linarith)
  -- the change of the strength is of the size of the strengths
  have hM28 : M ≤ 10 ^ 29 := hM.2
  have hM1 := hM.1
  have hX : |x * max hO 1| ≤ 1.001 * (M + tol * max hO 1) := by
    rcases le_or_gt |x * max hO 1| (M + tol * max hO 1) with hc | hc
    · linarith
    · have hB : Pw |x * max hO 1| 30 := by
        refine ⟨?_, hx⟩
        have : (1:ℝ) / 10 ^ 30 ≤ 1 / 10 ^ 29 := by norm_num
        linarith
      have k2 := (key _ hB (by linarith) le_rfl).2
      have t := abs_add_le (hO + x * max hO 1 - h) (h - hO)
      rw [show hO + x * max hO 1 - h + (h - hO) = x * max hO 1 by ring] at t
      have : |h - hO| ≤ M := by rw [abs_le]; constructor <;> linarith [hrange.1, hrange.2]
      have : 38 * |x * max hO 1| * F.w ≤ 0.0005 * |x * max hO 1| := by
        have := mul_le_mul_of_nonneg_left hw1 (abs_nonneg (x * max hO 1))
        linarith
      linarith
  have hB : Pw (1.001 * (M + tol * max hO 1)) 30 := by
    constructor
    · have : (1:ℝ) / 10 ^ 30 ≤ 1 / 10 ^ 29 := by norm_num
      linarith
    · have : (1.001:ℝ) * (10 ^ 29 + 10 ^ 28) ≤ 10 ^ 30 := by norm_num
      linarith
  obtain ⟨k1, k2⟩ := key _ hB (by linarith) hX
  have t := abs_add_le (F.hardNew hO x - (hO + x * max hO 1)) (hO + x * max hO 1 - h)
  rw [sub_add_sub_cancel] at t
  have c : (3.03 * (1.001 * (M + tol * max hO 1))) * F.w + 38 * (1.001 * (M + tol * max hO 1)) * F.w
      ≤ 42 * (M + tol * max hO 1) * F.w := by
    have : 0 ≤ (M + tol * max hO 1) * F.w := by positivity
    linarith
  linarith [k1.2]

/-- a course of the strength: `x j` is the result of the solver in step `j`, `e` follows the equations exactly -/
structure HardCourse (F : Flt) (k : Voce) (N : ℕ) (g s dt x h e : ℕ → ℝ) (tol L U : ℝ) : Prop where
  sized : ∀ j < N, HardSized k (g j) (s j) (dt j)
  sat0 : ∀ j < N, L ≤ s j
  sat1 : ∀ j < N, s j ≤ U
  near : ∀ j < N, |x j * max (h j) 1| ≤ 10 ^ 30
  passed : ∀ j < N, |F.hardResid k (g j) (s j) (h j) (dt j) (x j)| ≤ tol
  stored : ∀ j < N, h (j + 1) = F.hardNew (h j) (x j)
  exact : ∀ j < N, ImplicitVoce k (g j) (s j) (e j) (dt j) (e (j + 1))
  start : h 0 = e 0
  start0 : L ≤ e 0
  start1 : e 0 ≤ U

/-- error of one step for strengths up to `M` -/
noncomputable def hardEps (F : Flt) (M tol : ℝ) : ℝ := tol * max M 1 + 42 * (M + tol * max M 1) * F.w

theorem course_range {k : Voce} {N : ℕ} {g s dt x h e : ℕ → ℝ} {tol L U : ℝ}
    (c : HardCourse F k N g s dt x h e tol L U) : ∀ j ≤ N, L ≤ e j ∧ e j ≤ U := by
  intro j
  induction j with
  | zero => exact fun _ => ⟨c.start0, c.start1⟩
  | succ j ih =>
    intro hj
    obtain ⟨i1, i2⟩ := ih (by omega)
    exact implicit_range (c.sized j (by omega)) (c.exact j (by omega)) i1 i2 (c.sat0 j (by omega)) (c.sat1 j (by omega))

/-- solutions of the equation of one step from two strengths: the distance shrinks -/
theorem implicit_contract {k : Voce} {g s dt h0 h1 e0 e1 : ℝ} (hs : HardSized k g s dt)
    (hh : ImplicitVoce k g s h0 dt h1) (he : ImplicitVoce k g s e0 dt e1) :
    |h1 - e1| = |h0 - e0| / (1 + hardFactor k g s dt) := by
  have a0 := hardFactor_nonneg hs
  have e2 := implicit_mean hs hh
  have e3 := implicit_mean hs he
  generalize hardFactor k g s dt = a at *
  have a1 : 0 < 1 + a := by linarith
  rw [eq_div_iff a1.ne', ← abs_of_pos a1, ← abs_mul]
  congr 1
  linarith

theorem implicit_exists {k : Voce} {g s dt hO : ℝ} (hs : HardSized k g s dt) : ∃ h, ImplicitVoce k g s hO dt h := by
  have a0 := hardFactor_nonneg hs
  have hd := hs.range.pos.ne'
  refine ⟨(hO + hardFactor k g s dt * s) / (1 + hardFactor k g s dt), ?_⟩
  have a1 : 1 + hardFactor k g s dt ≠ 0 := by linarith
  have e : dt * (k.h0 * g * ((s - (hO + hardFactor k g s dt * s) / (1 + hardFactor k g s dt)) / (s - k.tausi)))
      = hardFactor k g s dt * (s - (hO + hardFactor k g s dt * s) / (1 + hardFactor k g s dt)) := by
    rw [show hardFactor k g s dt = k.h0 * g * dt / (s - k.tausi) from rfl]; ring
  unfold ImplicitVoce
  rw [e]
  field_simp
  ring

theorem course_step {k : Voce} {N : ℕ} {g s dt x h e : ℕ → ℝ} {tol L U M : ℝ}
    (c : HardCourse F k N g s dt x h e tol L U) (hM : Pw M 28) (ht : 0 ≤ tol) (ht1 : tol ≤ 1) (hL : 0 ≤ L)
    (hU : U ≤ M) {j : ℕ} (hj : j < N) (h0 : 0 ≤ h j) (h1 : h j ≤ M) :
    |h (j + 1) - e (j + 1)| ≤ |h j - e j| / (1 + hardFactor k (g j) (s j) (dt j)) + hardEps F M tol := by
  have hs := c.sized j hj
  have a0 := hardFactor_nonneg hs
  obtain ⟨y, hy⟩ := implicit_exists (hO := h j) hs
  have x1 : max (h j) 1 ≤ max M 1 := max_le_max_right _ h1
  have x0 : 0 < max (h j) 1 := lt_of_lt_of_le one_pos (le_max_right _ _)
  have tx : tol * max (h j) 1 ≤ tol * max M 1 := mul_le_mul_of_nonneg_left x1 ht
  have big : tol * max M 1 ≤ 10 ^ 28 := by
    have : max M 1 ≤ 10 ^ 28 := max_le hM.2 (by norm_num)
    have := mul_le_mul ht1 this (le_trans zero_le_one (le_max_right _ _)) zero_le_one
    linarith
  have st := C107_step (F := F) hs (hM.mono (by norm_num)) (hL.trans (c.sat0 j hj)) ((c.sat1 j hj).trans hU) h0 h1 ht
    (tx.trans big) (c.near j hj) (c.passed j hj) hy
  rw [← c.stored j hj] at st
  have ct := implicit_contract hs hy (c.exact j hj)
  have t := abs_add_le (h (j + 1) - y) (y - e (j + 1))
  rw [sub_add_sub_cancel, ct] at t
  have d : tol * max (h j) 1 / (1 + hardFactor k (g j) (s j) (dt j)) ≤ tol * max M 1 :=
    (div_le_self (mul_nonneg ht x0.le) (by linarith)).trans tx
  have w : 42 * (M + tol * max (h j) 1) * F.w ≤ 42 * (M + tol * max M 1) * F.w :=
    mul_le_mul_of_nonneg_right (by linarith) F.w_pos.le
  unfold hardEps
  linarith

/-- **C107 over a history.**  The stored strength follows the exact solution of the equations of the steps: after `N`
    steps the difference is at most `N` times the error of one step, and it stays between the smallest and the largest
    of the initial and the saturation strengths up to that. -/
theorem C107_history {k : Voce} {N : ℕ} {g s dt x h e : ℕ → ℝ} {tol L U M : ℝ}
    (c : HardCourse F k N g s dt x h e tol L U) (hM : Pw M 28) (ht : 0 ≤ tol) (ht1 : tol ≤ 1)
    (hL : N * hardEps F M tol ≤ L) (hU : U + N * hardEps F M tol ≤ M) :
    |h N - e N| ≤ N * hardEps F M tol ∧ L - N * hardEps F M tol ≤ h N ∧ h N ≤ U + N * hardEps F M tol := by
  have ε0 : 0 ≤ hardEps F M tol := by
    have m0 := hM.pos
    have := F.w_pos
    have : 0 ≤ max M 1 := le_trans zero_le_one (le_max_right _ _)
    unfold hardEps; positivity
  have hL0 : 0 ≤ L := le_trans (by positivity) hL
  have hU0 : U ≤ M := by nlinarith [mul_nonneg (Nat.cast_nonneg (α := ℝ) N) ε0]
  have main : ∀ j ≤ N, |h j - e j| ≤ j * hardEps F M tol := by
    intro j
    induction j with
    | zero => intro _; simp [c.start]
    | succ j ih =>
      intro hj
      have i := ih (by omega)
      have jN : (j:ℝ) * hardEps F M tol ≤ N * hardEps F M tol :=
        mul_le_mul_of_nonneg_right (by exact_mod_cast (by omega : j ≤ N)) ε0
      obtain ⟨r1, r2⟩ := course_range c j (by omega)
      have i' := abs_le.1 i
      have st := course_step c hM ht ht1 hL0 hU0 (by omega : j < N) (by linarith) (by linarith)
      have := div_le_self (abs_nonneg (h j - e j)) (by
        linarith [hardFactor_nonneg (c.sized j (by omega))] : 1 ≤ 1 + hardFactor k (g j) (s j) (dt j))
      push_cast
      linarith
  have m := main N le_rfl
  obtain ⟨r1, r2⟩ := course_range c N le_rfl
  have m' := abs_le.1 m
  exact ⟨m, by linarith, by linarith⟩

/-- **C107 errors are forgotten.**  If every step goes at least the factor `a` towards saturation, the difference from
    the exact course stays below `1 + 1 / a` times the error of one step, however many steps there are. -/
theorem C107_forgets {k : Voce} {N : ℕ} {g s dt x h e : ℕ → ℝ} {tol L U M a : ℝ}
    (c : HardCourse F k N g s dt x h e tol L U) (hM : Pw M 28) (ht : 0 ≤ tol) (ht1 : tol ≤ 1) (ha : 0 < a)
    (hf : ∀ j < N, a ≤ hardFactor k (g j) (s j) (dt j)) (hL : (1 + 1 / a) * hardEps F M tol ≤ L)
    (hU : U + (1 + 1 / a) * hardEps F M tol ≤ M) : |h N - e N| ≤ (1 + 1 / a) * hardEps F M tol := by
  have ε0 : 0 ≤ hardEps F M tol := by
    have m0 := hM.pos
    have := F.w_pos
    have : 0 ≤ max M 1 := le_trans zero_le_one (le_max_right _ _)
    unfold hardEps; positivity
  have a1 : 0 < 1 + 1 / a := by positivity
  have hL0 : 0 ≤ L := le_trans (by positivity) hL
  have hU0 : U ≤ M := by nlinarith [mul_nonneg a1.le ε0]
  have main : ∀ j ≤ N, |h j - e j| ≤ (1 + 1 / a) * hardEps F M tol := by
    intro j
    induction j with
    | zero => intro _; rw [c.start, sub_self, abs_zero]; positivity
    | succ j ih =>
      intro hj
      have i := ih (by omega)
      obtain ⟨r1, r2⟩ := course_range c j (by omega)
      have i' := abs_le.1 i
      have st := course_step c hM ht ht1 hL0 hU0 (by omega : j < N) (by linarith) (by linarith)
      have h1 : |h j - e j| / (1 + hardFactor k (g j) (s j) (dt j)) ≤ |h j - e j| / (1 + a) :=
        div_le_div_of_nonneg_left (abs_nonneg _) (by linarith) (by linarith [hf j (by omega)])
      have h2 : |h j - e j| / (1 + a) ≤ (1 + 1 / a) * hardEps F M tol / (1 + a) :=
        div_le_div_of_nonneg_right i (by linarith)
      have h3 : (1 + 1 / a) * hardEps F M tol / (1 + a) = 1 / a * hardEps F M tol := by field_simp; ring
      linarith
  exact main N le_rfl

/-- **C107 the computed derivative is at least one**, with any rounding that keeps the order of numbers and the number
    one, so that the solver never divides by a small number. -/
theorem C107_slope (hF : Ordered F) (h1 : F.fl 1 = 1) {k : Voce} {g s dt : ℝ} (hk : 0 ≤ k.h0) (hg : 0 ≤ g)
    (hdt : 0 ≤ dt) : 1 ≤ F.hardJac k g s dt := by
  have t2 : 0 ≤ F.hardTemp2 k s := by
    unfold Flt.hardTemp2
    split_ifs with h
    · exact le_rfl
    · rw [← hF.zero]
      refine hF.mono (one_div_nonneg.2 ?_)
      rw [← hF.zero]
      exact hF.mono (by linarith)
  have neg : ∀ {x}, x ≤ 0 → F.fl x ≤ 0 := fun hx => by rw [← hF.zero]; exact hF.mono hx
  have a : F.fl (-k.h0 * F.hardTemp2 k s) ≤ 0 := neg (by nlinarith)
  have b : F.hardSlope k g s ≤ 0 := neg (mul_nonpos_of_nonpos_of_nonneg a hg)
  have c : F.fl (F.hardSlope k g s * dt) ≤ 0 := neg (mul_nonpos_of_nonpos_of_nonneg b hdt)
  unfold Flt.hardJac
  rw [← h1]
  exact hF.mono (by rw [h1]; linarith)

/-- **C107 the saturation strength** at the computed rate of slip is right to 4.1 roundoffs, for exponents between
    zero and one. -/
theorem C107_saturation (L : Libm F) {k : Voce} {g : ℝ} (hm0 : 0 ≤ k.xms) (hm1 : k.xms ≤ 1)
    (hg0 : Pw (g / k.gamss0) 100) (ht : Pw k.taus0 50) :
    |Flt.satStrength L k g - (if idpTinySqrt < g then k.taus0 * (g / k.gamss0) ^ k.xms else k.taus0)|
      ≤ 4.1 * F.u * (k.taus0 * max ((g / k.gamss0) ^ k.xms) 1) := by
  have hu := F.u_nonneg; have hu1 := F.u_le
  have t0 := ht.pos
  unfold Flt.satStrength
  split_ifs with h
  swap
  · rw [sub_self, abs_zero]; positivity
  set q := g / k.gamss0 with hq
  have q0 := hg0.pos
  have p0 : 0 < q ^ k.xms := Real.rpow_pos_of_pos q0 _
  have r1 := Flt.Rel.round (F := F) (Flt.Rel.refl q) le_rfl (by norm_num)
    (by rw [abs_of_pos q0]; exact (hg0.mono (by norm_num : 100 ≤ 190)).1)
    (by rw [abs_of_pos q0]; exact (hg0.mono (by norm_num : 100 ≤ 240)).2)
  unfold Flt.Rel at r1
  rw [abs_of_pos q0, zero_add] at r1
  set f := F.fl q with hf
  have r2 := abs_le.1 r1
  have d0 : 0 ≤ 1.01 * F.u := by linarith
  have d1 : 1.01 * F.u ≤ 1 / 10 ^ 5 := by linarith
  have lo : (1 - 1.01 * F.u) * q ≤ f := by linarith
  have hi : f ≤ (1 + 1.01 * F.u) * q := by linarith
  have l0 : 0 < (1 - 1.01 * F.u) * q := mul_pos (by linarith) q0
  have f0 : 0 < f := lt_of_lt_of_le l0 lo
  have up : f ^ k.xms ≤ (1 + 1.01 * F.u) * q ^ k.xms := by
    refine (Real.rpow_le_rpow f0.le hi hm0).trans ?_
    rw [Real.mul_rpow (by linarith) q0.le]
    refine mul_le_mul_of_nonneg_right ?_ p0.le
    refine (Real.rpow_le_rpow_of_exponent_le (by linarith) hm1).trans ?_
    rw [Real.rpow_one]
  have dn : (1 - 1.01 * F.u) * q ^ k.xms ≤ f ^ k.xms := by
    refine le_trans ?_ (Real.rpow_le_rpow l0.le lo hm0)
    rw [Real.mul_rpow (by linarith) q0.le]
    refine mul_le_mul_of_nonneg_right ?_ p0.le
    refine le_trans ?_ (Real.rpow_le_rpow_of_exponent_ge (by linarith) (by linarith) hm1)
    rw [Real.rpow_one]
  have b1 : q ^ k.xms ≤ 10 ^ 100 := by
    refine (Real.rpow_le_rpow q0.le hg0.2 hm0).trans ?_
    refine (Real.rpow_le_rpow_of_exponent_le (by norm_num) hm1).trans ?_
    rw [Real.rpow_one]
  have b2 : 1 / 10 ^ 100 ≤ q ^ k.xms := by
    refine le_trans ?_ (Real.rpow_le_rpow (by positivity) hg0.1 hm0)
    refine le_trans ?_ (Real.rpow_le_rpow_of_exponent_ge (by positivity) (by norm_num) hm1)
    rw [Real.rpow_one]
  have hp := L.pow_err f k.xms f0 (by
      refine le_trans ?_ dn
      have : (1:ℝ) / 10 ^ 150 ≤ 0.9 * (1 / 10 ^ 100) := by norm_num
      nlinarith) (by
      refine up.trans ?_
      have : (1.1:ℝ) * 10 ^ 100 ≤ 10 ^ 150 := by norm_num
      nlinarith)
  have hp' := abs_le.1 hp
  set P := L.powF f k.xms with hP
  have rel : F.Rel P (q ^ k.xms) 3.02 := by
    unfold Flt.Rel
    rw [abs_of_pos p0, abs_le]
    have h3 : 2 * F.u * f ^ k.xms ≤ 2.001 * F.u * q ^ k.xms := by
      have := mul_le_mul_of_nonneg_left up (by linarith : 0 ≤ 2 * F.u)
      have h4 : 2 * F.u * ((1 + 1.01 * F.u) * q ^ k.xms) = (2 * (1 + 1.01 * F.u)) * (F.u * q ^ k.xms) := by ring
      rw [h4] at this
      have h5 : (2 * (1 + 1.01 * F.u)) * (F.u * q ^ k.xms) ≤ 2.001 * (F.u * q ^ k.xms) :=
        mul_le_mul_of_nonneg_right (by linarith) (by positivity)
      linarith
    have : 0 ≤ F.u * q ^ k.xms := by positivity
    constructor <;> linarith
  have rm := (Flt.Rel.refl (F := F) k.taus0).mul rel le_rfl (by norm_num) (by norm_num)
  have sz : |k.taus0 * q ^ k.xms| = k.taus0 * q ^ k.xms := abs_of_pos (by positivity)
  have rr := rm.round (by norm_num) (by norm_num)
    (by
      rw [sz]
      have := mul_le_mul ht.1 b2 (by positivity) t0.le
      exact le_trans (by norm_num) this)
    (by
      rw [sz]
      have := mul_le_mul ht.2 b1 p0.le (by positivity)
      exact this.trans (by norm_num))
  unfold Flt.Rel at rr
  rw [sz] at rr
  refine rr.trans ?_
  have m1 : k.taus0 * q ^ k.xms ≤ k.taus0 * max (q ^ k.xms) 1 := mul_le_mul_of_nonneg_left (le_max_left _ _) t0.le
  have m2 : 0 ≤ k.taus0 * q ^ k.xms := by positivity
  have := mul_le_mul (by linarith : (0 + 1.001 * 3.02 + 1.01) * F.u ≤ 4.1 * F.u) m1 m2 (by linarith)
  exact this

/-- **C107 the tolerance can be met**: at the exact solution of the equation of the step the computed residual is at
    most 38 roundoffs of the larger of one and the factor of the step, times the strength. -/
theorem C107_attained {k : Voce} {g s hO dt h M : ℝ} (hs : HardSized k g s dt) (hM : Pw M 30) (h1 : 0 ≤ s)
    (h1' : s ≤ M) (h2 : 0 ≤ hO) (h2' : hO ≤ M) (hh : ImplicitVoce k g s hO dt h) :
    |F.hardResid k g s hO dt ((h - hO) / max hO 1)| ≤ 38 * (max (hardFactor k g s dt) 1 * M / max hO 1) * F.w := by
  have x0 : max hO 1 ≠ 0 := (lt_of_lt_of_le one_pos (le_max_right _ _)).ne'
  obtain ⟨r1, r2⟩ := implicit_range hs hh h2 h2' h1 h1'
  have e := C107_residual (F := F) (x := (h - hO) / max hO 1) (B := M) hs hM (by rwa [abs_of_nonneg h1])
    (by rwa [abs_of_nonneg h2]) (by rw [div_mul_cancel₀ _ x0, abs_le]; constructor <;> linarith)
  rw [div_mul_cancel₀ _ x0, add_sub_cancel] at e
  unfold ImplicitVoce at hh
  rwa [← hh, sub_self, zero_div, sub_zero] at e

/-- one step of copper in double precision, at the initial strength, with the rate of slip 1 and the step 0.001 -/
theorem copper_sized : HardSized copperVoce 1 122.4e-3 1e-3 := by
  refine ⟨?_, ?_, ?_, by norm_num, by norm_num⟩ <;> constructor <;> norm_num [copperVoce]

theorem copper_factor : hardFactor copperVoce 1 122.4e-3 1e-3 ≤ 1 := by norm_num [hardFactor, copperVoce]

/-- the course of one step that takes the exact solution -/
theorem copper_course : ∃ x h e : ℕ → ℝ, HardCourse dbl copperVoce 1 (fun _ => 1) (fun _ => 122.4e-3) (fun _ => 1e-3)
    x h e (1 / 10 ^ 10) 17e-3 122.4e-3 ∧ 17e-3 < e 1 := by
  obtain ⟨y, hy⟩ := implicit_exists (hO := 17e-3) copper_sized
  have r := implicit_range copper_sized hy (L := 17e-3) (U := 122.4e-3) le_rfl (by norm_num) (by norm_num) le_rfl
  have at' := C107_attained (F := dbl) (M := 1) copper_sized ⟨by norm_num, by norm_num⟩ (by norm_num) (by norm_num)
    (by norm_num : (0:ℝ) ≤ 17e-3) (by norm_num) hy
  have mx : max (17e-3 : ℝ) 1 = 1 := max_eq_right (by norm_num)
  rw [max_eq_right copper_factor, mx] at at'
  have y0 : (17e-3 : ℝ) < y := by
    have hm := implicit_mean copper_sized hy
    have a0 : hardFactor copperVoce 1 122.4e-3 1e-3 = 2 / 527 := by norm_num [hardFactor, copperVoce]
    rw [a0] at hm
    norm_num at hm ⊢
    linarith
  refine ⟨fun _ => (y - 17e-3) / 1, fun j => if j = 0 then 17e-3 else dbl.hardNew 17e-3 ((y - 17e-3) / 1),
    fun j => if j = 0 then 17e-3 else y, ⟨fun _ _ => copper_sized, fun _ _ => by norm_num, fun _ _ => le_rfl, ?_, ?_, ?_,
      ?_, rfl, ?_, ?_⟩, y0⟩
  · intro j hj
    obtain rfl : j = 0 := by omega
    rw [if_pos rfl, mx, abs_le]
    have := r.1; have := r.2
    constructor <;> norm_num at * <;> linarith
  · intro j hj
    obtain rfl : j = 0 := by omega
    rw [if_pos rfl]
    refine at'.trans ?_
    have := dbl_w
    norm_num at this ⊢
    linarith
  · intro j hj
    obtain rfl : j = 0 := by omega
    rfl
  · intro j hj
    obtain rfl : j = 0 := by omega
    exact hy
  · norm_num
  · norm_num

/-- the error of one step of copper: the tolerance and less than 1e-14 -/
theorem copper_eps : hardEps dbl 1 (1 / 10 ^ 10) ≤ 1.001 / 10 ^ 10 := by
  have := dbl_w
  unfold hardEps
  rw [max_self]
  norm_num at this ⊢
  linarith

example : ∃ x h e : ℕ → ℝ, HardCourse dbl copperVoce 1 (fun _ => 1) (fun _ => 122.4e-3) (fun _ => 1e-3) x h e
    (1 / 10 ^ 10) 17e-3 122.4e-3 ∧ 17e-3 < e 1 ∧ |h 1 - e 1| ≤ 1.001 / 10 ^ 10 := by
  obtain ⟨x, h, e, c, hc⟩ := copper_course
  have ε := copper_eps
  refine ⟨x, h, e, c, hc, ?_⟩
  have := (C107_history c (M := 1) ⟨by norm_num, by norm_num⟩ (by norm_num) (by norm_num)
    (by push_cast; norm_num at ε ⊢; linarith) (by push_cast; norm_num at ε ⊢; linarith)).1
  push_cast at this
  linarith

example : ∃ x h e : ℕ → ℝ, HardCourse dbl copperVoce 1 (fun _ => 1) (fun _ => 122.4e-3) (fun _ => 1e-3) x h e
    (1 / 10 ^ 10) 17e-3 122.4e-3 ∧ |h 1 - e 1| ≤ (1 + 1 / (1 / 1000)) * hardEps dbl 1 (1 / 10 ^ 10) := by
  obtain ⟨x, h, e, c, hc⟩ := copper_course
  have ε := copper_eps
  refine ⟨x, h, e, c, ?_⟩
  exact C107_forgets c (M := 1) ⟨by norm_num, by norm_num⟩ (by norm_num) (by norm_num) (by norm_num)
    (fun _ _ => by norm_num [hardFactor, copperVoce]) (by norm_num at ε ⊢; linarith) (by norm_num at ε ⊢; linarith)

/-- the hypotheses of the theorems on the slope and on saturation hold for copper in double precision -/
example : 1 ≤ dbl.hardJac copperVoce 1 122.4e-3 1e-3 ∧
    |Flt.satStrength dblLibm copperVoce 1 - (if idpTinySqrt < 1 then copperVoce.taus0 * (1 / copperVoce.gamss0) ^ copperVoce.xms
      else copperVoce.taus0)| ≤ 4.1 * dbl.u * (copperVoce.taus0 * max ((1 / copperVoce.gamss0) ^ copperVoce.xms) 1) := by
  refine ⟨C107_slope dbl_ordered ?_ (by norm_num [copperVoce]) (by norm_num) (by norm_num), ?_⟩
  · have e : dblExp 1 = 0 := by simp [dblExp]
    show dblRound 1 = 1
    refine dblRound_of_grid (j := 2 ^ 52) ?_
    rw [e]; norm_num
  · refine C107_saturation dblLibm ?_ ?_ ?_ ?_
    · norm_num [copperVoce]
    · norm_num [copperVoce]
    · constructor <;> norm_num [copperVoce]
    · constructor <;> norm_num [copperVoce]

/-- arithmetic without rounding meets the hypotheses of the theorem on the definitions -/
example : ∃ (F : Flt) (L : Libm F), (∀ x, F.fl x = x) ∧ (∀ x y, L.powF x y = x ^ y) ∧ copperVoce.nonlinear = false := by
  refine ⟨⟨0, 0, id, Real.cos, Real.sin, le_rfl, by norm_num, le_rfl, by norm_num, fun x _ => by simp, fun x => by simp,
    fun x => by simp⟩, ⟨Real.exp, Real.log, fun x y => x ^ y, fun x _ => by simp, fun x _ _ => by simp,
    fun x y _ _ _ => by simp⟩, fun _ => rfl, fun _ _ => rfl, rfl⟩

end Ecm.Props
