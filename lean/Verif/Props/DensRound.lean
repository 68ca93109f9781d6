/- Property theorems C109: the density update of the dislocation kinetics in floating-point arithmetic
   (src/ecmech/ECMech_kinetics.h:93-137, 177-180, src/ecmech/ECMech_kinetics_KMBalD.h:609-675). -/
import Verif.Lemmas.DensRound
import Verif.Props.RoundingAcc
import Verif.Props.ResidRound
import Verif.Props.KMBalD
import Verif.Props.TestValues

namespace Ecm.Props
open Ecm Spec
variable {F : Flt} {nV : ℕ}

/-- the equation of one implicit step of the balance of storage and recovery, in the logarithm of the density: over the
    time `dt` it goes from `yO` to `y`, with the rate of slip `g` and the recovery coefficient `k2` -/
def ImplicitDens (k : KMBalD nV) (g k2 yO dt y : ℝ) : Prop :=
  y - yO = dt * (k.k1 * Real.exp (-(1 / 2) * y) - k2) * g

/-- the recovery coefficient at the rate of slip `g` -/
noncomputable def recoveryOf (k : KMBalD nV) (g : ℝ) : ℝ :=
  if idpTinySqrt < g then k.k2o * (k.gammaO / g) ^ k.ninv else k.k2o

/-- the numbers of one update are of usual size -/
structure DensSized (k : KMBalD nV) (g dt : ℝ) : Prop where
  storage : Pw k.k1 20
  recov : Pw k.k2o 15
  recG : recoveryOf k g ≤ 10 ^ 19
  time : Pw dt 20
  slip0 : 0 ≤ g
  slip1 : g ≤ 10 ^ 20
  ratio : idpTinySqrt < g → Pw (k.gammaO / g) 100
  exp0 : 0 ≤ k.ninv
  exp1 : k.ninv ≤ 1

/-- **C109 without rounding, the definitions are those of the model of the update.** -/
theorem C109_exact (hF : ∀ x, F.fl x = x) (L : Libm F) (hp : ∀ x y, L.powF x y = x ^ y) (he : ∀ x, L.expF x = Real.exp x)
    (hl : ∀ x, L.logF x = Real.log x) (k : KMBalD nV) (g k2 yO dt x : ℝ) :
    ({ law := k.getSdot1 (g, k2), hO := yO, dt := dt } : H1Problem).computeRJ x
      = some (Flt.densResid L k g k2 yO dt x, Flt.densJac L k g yO dt x) ∧
    ({ law := k.getSdot1 (g, k2), hO := yO, dt := dt } : H1Problem).getHn x = F.hardNew yO x ∧
    (∀ {n : ℕ} (v : Vec n), k.getEvolVals v = (vecsssumabs v, Flt.recovery L k (vecsssumabs v))) ∧
    ∀ {n : ℕ} (S : Solver 1) (hs : Vec 1) (v : Vec n), 0 < k.gammaO → 0 < k.hdnMin →
      k.updateH S hs dt v = (updateH1 S (k.getSdot1 (k.getEvolVals v)) (Flt.densLog L k (hs 0)) dt).bind
        fun r => .ok ((fun _ => Flt.densStore L r.1), r.2) := by
  refine ⟨?_, ?_, fun v => ?_, fun S hs v h1 h2 => ?_⟩
  · unfold H1Problem.computeRJ Flt.densResid Flt.densJac Flt.densRate Flt.densSlope Flt.hardNew Flt.hardDelta
      KMBalD.getSdot1 H1Problem.resScale H1Problem.xScale
    simp only [hF, he]
  · unfold H1Problem.getHn Flt.hardNew Flt.hardDelta H1Problem.xScale
    simp only [hF]
  · unfold KMBalD.getEvolVals Flt.recovery
    simp only [hF, hp]
  · unfold KMBalD.updateH Flt.densLog Flt.densStore
    rw [if_neg (not_le.2 h1), if_neg (not_le.2 (lt_of_lt_of_le h2 (le_max_right _ _)))]
    simp only [hl, he]

/-- **C109 the recovery coefficient** at the computed rate of slip is right to 4.1 roundoffs. -/
theorem C109_recovery (L : Libm F) {k : KMBalD nV} {g dt : ℝ} (hs : DensSized k g dt) :
    |Flt.recovery L k g - recoveryOf k g| ≤ 4.1 * F.u * recoveryOf k g := by
  have hu := F.u_nonneg
  have k0 := hs.recov.pos
  unfold Flt.recovery recoveryOf
  split_ifs with h
  · exact Flt.scaled_pow_err L hs.exp0 hs.exp1 (hs.ratio h) (hs.recov.mono (by norm_num))
  · rw [sub_self, abs_zero]; positivity

theorem recoveryOf_nonneg {k : KMBalD nV} {g dt : ℝ} (hs : DensSized k g dt) : 0 ≤ recoveryOf k g := by
  have k0 := hs.recov.pos
  unfold recoveryOf
  split_ifs with h
  · exact mul_nonneg k0.le (Real.rpow_nonneg (hs.ratio h).pos.le _)
  · exact k0.le

theorem recovery_bounds (L : Libm F) {k : KMBalD nV} {g dt : ℝ} (hs : DensSized k g dt) :
    0 ≤ Flt.recovery L k g ∧ Flt.recovery L k g ≤ 10 ^ 20 := by
  have h := abs_le.1 (C109_recovery L hs)
  have r0 := recoveryOf_nonneg hs
  have hu := F.u_nonneg; have hu1 := F.u_le
  have := mul_le_mul_of_nonneg_right (by linarith : 4.1 * F.u ≤ 1) r0
  have h19 := hs.recG
  have : (2 : ℝ) * 10 ^ 19 ≤ 10 ^ 20 := by norm_num
  constructor <;> linarith

/-- **C109 the residual** handed to the solver is within 18 roundoffs, relative to the logarithms and to what is stored
    and recovered in the step, of the exact one. -/
theorem C109_residual (L : Libm F) {k : KMBalD nV} {g k2 yO dt x Y : ℝ} (hs : DensSized k g dt) (hk0 : 0 ≤ k2)
    (hk1 : k2 ≤ 10 ^ 20) (hY1 : 1 ≤ Y) (hY : Y ≤ 50) (hO : |yO| ≤ Y) (hx : |x * max yO 1| ≤ Y) :
    |Flt.densResid L k g k2 yO dt x - (x * max yO 1
        - dt * (k.k1 * Real.exp (-(1 / 2) * (yO + x * max yO 1)) - k2) * g) / max yO 1|
      ≤ 18 * (Y * max (dt * g * (k.k1 * Real.exp (-(1 / 2) * (yO + x * max yO 1)) + k2)) 1 / max yO 1) * F.w := by
  have e := (Flt.dens_err L (F := F) hY1 hY hs.storage hk0 hk1 hs.time hs.slip0 hs.slip1 hO hx).2.2
  refine le_trans (le_of_eq ?_) (e.trans (le_of_eq ?_))
  · congr 1; ring
  · ring

/-- error of one solve for logarithms up to `Y` -/
noncomputable def densEps (F : Flt) (Y tol : ℝ) : ℝ := 1.002 * tol * Y + 116 * Y ^ 2 * F.w

set_option maxHeartbeats 800000 in
/-- **C109 one update.**  When the computed residual passes the test of the solver, the computed logarithm differs from
    the solution of the equation of the step by the tolerance and at most 116 roundoffs of its square - whatever the
    coefficients of storage and recovery, the rate of slip and the length of the step. -/
theorem C109_step (L : Libm F) {k : KMBalD nV} {g k2 yO dt x y Y tol : ℝ} (hs : DensSized k g dt) (hk0 : 0 ≤ k2)
    (hk1 : k2 ≤ 10 ^ 20) (hY1 : 1 ≤ Y) (hY : Y ≤ 50) (hO : |yO| ≤ Y) (hx : |x * max yO 1| ≤ Y) (ht : 0 ≤ tol)
    (hr : |Flt.densResid L k g k2 yO dt x| ≤ tol) (hy : ImplicitDens k g k2 yO dt y) :
    |F.hardNew yO x - y| ≤ densEps F Y tol := by
  have hw := F.w_pos; have hw1 := F.w_le
  have y0 : 0 < Y := by linarith
  obtain ⟨e1, e2⟩ := Flt.dens_err L (F := F) hY1 hY hs.storage hk0 hk1 hs.time hs.slip0 hs.slip1 hO hx
  have x1 : 1 ≤ max yO 1 := le_max_right _ _
  have xY : max yO 1 ≤ Y := max_le ((le_abs_self _).trans hO) hY1
  have x0 : 0 < max yO 1 := by linarith
  set X := max yO 1 with hX
  set δ := x * X with hδ
  set E := Real.exp (-(1 / 2) * (yO + δ)) with hE
  have E0 : 0 < E := Real.exp_pos _
  set A := dt * g * k.k1 * E with hA
  set b := dt * g * k2 with hb
  have A0 : 0 ≤ A := by
    have := hs.storage.pos; have := hs.time.pos; have := hs.slip0
    positivity
  have b0 : 0 ≤ b := by
    have := hs.time.pos; have := hs.slip0
    positivity
  have eA : (δ - (k.k1 * E - k2) * g * dt) * (1 / X) = (δ - (A - b)) * (1 / X) := by rw [hA, hb]; ring
  have eW : dt * g * (k.k1 * E + k2) = A + b := by rw [hA, hb]; ring
  have e3 := e2.2
  rw [eA, eW] at e3
  set R := δ - (A - b) with hR
  have T : tol * X ≤ tol * Y := mul_le_mul_of_nonneg_left xY ht
  have e4 : |R| ≤ tol * Y + 18 * (Y * max (A + b) 1) * F.w := by
    have h1 := abs_sub_le (R * (1 / X)) (Flt.densResid L k g k2 yO dt x) 0
    rw [sub_zero, sub_zero, abs_sub_comm] at h1
    have h2 : |R * (1 / X)| ≤ tol + 18 * (Y * max (A + b) 1 * (1 / X)) * F.w := by linarith
    have h3 : |R * (1 / X)| * X = |R| := by
      rw [abs_mul, abs_of_pos (by positivity : 0 < 1 / X)]; field_simp
    have h4 := mul_le_mul_of_nonneg_right h2 x0.le
    rw [h3] at h4
    have h5 : (tol + 18 * (Y * max (A + b) 1 * (1 / X)) * F.w) * X = tol * X + 18 * (Y * max (A + b) 1) * F.w := by
      field_simp
    linarith
  -- recovery is bounded by storage and change
  have hbB : b ≤ |R| + Y + A := by
    have := le_abs_self R
    have h2 := abs_le.1 hx
    have : b = R - δ + A := by rw [hR]; ring
    linarith
  have hM : max (A + b) 1 ≤ 1 + 2 * A + |R| + Y := max_le (by linarith) (by have := abs_nonneg R; linarith)
  have c1 : 18 * (Y * F.w) ≤ 0.00099 := by nlinarith
  have e5 : |R| ≤ 1.001 * (tol * Y) + 36.1 * (Y ^ 2 * F.w) + 36.1 * (Y * F.w) * A := by
    have h1 : 18 * (Y * max (A + b) 1) * F.w ≤ 18 * (Y * F.w) * (1 + 2 * A + |R| + Y) := by
      have := mul_le_mul_of_nonneg_left hM (by positivity : 0 ≤ 18 * (Y * F.w))
      linarith
    have h2 : 18 * (Y * F.w) * |R| ≤ 0.00099 * |R| := mul_le_mul_of_nonneg_right c1 (abs_nonneg R)
    have h3 : 18 * (Y * F.w) * (1 + Y) ≤ 36 * (Y ^ 2 * F.w) := by
      have : 0 ≤ Y * F.w * (Y - 1) := mul_nonneg (by positivity) (by linarith)
      nlinarith
    have h4 : 0 ≤ Y ^ 2 * F.w := by positivity
    have h5 : 0 ≤ (Y * F.w) * A := by positivity
    have h6 : 0 ≤ tol * Y := by positivity
    linarith
  have q0 : 0 ≤ 36.1 * (Y * F.w) := by positivity
  have q1 : 36.1 * (Y * F.w) ≤ 1 / 500 := by linarith
  have hz : y - yO = dt * g * k.k1 * Real.exp (-(1 / 2) * y) - b := by
    unfold ImplicitDens at hy
    rw [hy, hb]; ring
  have d := dens_distance (a := dt * g * k.k1) (b := b) (yO := yO) (y := yO + δ) (z := y)
    (p := 1.001 * (tol * Y) + 36.1 * (Y ^ 2 * F.w)) (q := 36.1 * (Y * F.w))
    (by have := hs.storage.pos; have := hs.time.pos; have := hs.slip0; positivity) (by positivity) q0 (by linarith) hz
    (by
      rw [show yO + δ - yO - (dt * g * k.k1 * Real.exp (-(1 / 2) * (yO + δ)) - b) = R by rw [hR, hA, hE]; ring]
      exact e5)
  have d2 : 2 * (36.1 * (Y * F.w)) / (1 - 36.1 * (Y * F.w)) ≤ 72.4 * (Y * F.w) := by
    rw [div_le_iff₀ (by linarith)]
    have : 0 ≤ Y * F.w := by positivity
    nlinarith
  have t := abs_add_le (F.hardNew yO x - (yO + δ)) (yO + δ - y)
  rw [sub_add_sub_cancel] at t
  have := e1.2
  have yy : Y * F.w ≤ Y ^ 2 * F.w := by
    rw [sq]; exact mul_le_mul_of_nonneg_right (by nlinarith) hw.le
  unfold densEps
  have h6 : 0 ≤ tol * Y := by positivity
  linarith

/-- solutions of the equation of one step from two logarithms and with two coefficients of recovery -/
theorem dens_data {k : KMBalD nV} {g k2 k2' yO zO dt y z Y ε : ℝ} (hs : DensSized k g dt) (hε : 0 ≤ ε) (hε1 : ε ≤ 1 / 100)
    (hk : |k2 - k2'| ≤ ε * k2') (hk' : 0 ≤ k2') (hy : ImplicitDens k g k2 yO dt y) (hz : ImplicitDens k g k2' zO dt z)
    (hY1 : 1 ≤ Y) (hc : |z - zO| ≤ Y) : |y - z| ≤ |yO - zO| + 3.1 * ε * Y := by
  have a0 : 0 ≤ dt * g * k.k1 := by
    have := hs.storage.pos; have := hs.time.pos; have := hs.slip0
    positivity
  have d0 : 0 ≤ dt * g := mul_nonneg hs.time.pos.le hs.slip0
  have hk2 : 0 ≤ k2 := by have := (abs_le.1 hk).1; nlinarith
  obtain ⟨v, hv⟩ := dens_exists (yO := zO) a0 (mul_nonneg d0 hk2)
  have hy' : y - yO = dt * g * k.k1 * Real.exp (-(1 / 2) * y) - dt * g * k2 := by
    unfold ImplicitDens at hy; rw [hy]; ring
  have hz' : z - zO = dt * g * k.k1 * Real.exp (-(1 / 2) * z) - dt * g * k2' := by
    unfold ImplicitDens at hz; rw [hz]; ring
  have n := dens_nonexpansive a0 hy' hv
  have hb : dt * g * k2' ≤ Y + dt * g * k.k1 * Real.exp (-(1 / 2) * z) := by
    have := abs_le.1 hc
    linarith
  have d := dens_distance (a := dt * g * k.k1) (b := dt * g * k2) (yO := zO) (y := z) (z := v) (p := ε * Y) (q := ε)
    a0 (mul_nonneg hε (by linarith)) hε (by linarith) hv (by
      rw [show z - zO - (dt * g * k.k1 * Real.exp (-(1 / 2) * z) - dt * g * k2) = dt * g * (k2 - k2') by
        rw [hz']; ring, abs_mul, abs_of_nonneg d0]
      have h1 := mul_le_mul_of_nonneg_left hk d0
      have h2 := mul_le_mul_of_nonneg_left hb hε
      linarith)
  have d2 : 2 * ε / (1 - ε) ≤ 2.1 * ε := by
    rw [div_le_iff₀ (by linarith)]; nlinarith
  have t := abs_sub_le y v z
  rw [abs_sub_comm v z] at t
  have : ε ≤ ε * Y := le_mul_of_one_le_right hε hY1
  linarith

/-- storing the density and reading its logarithm back -/
theorem store_log (L : Libm F) {n : ℝ} (hn : |n| ≤ 102) :
    0 < Flt.densStore L n ∧ Flt.densStore L n ≤ 10 ^ 60 ∧ |Real.log (Flt.densStore L n) - n| ≤ 2.001 * F.w := by
  have hu := F.u_nonneg; have huw := F.u_le_w; have hw := F.w_pos; have hw1 := F.w_le
  have E0 := Real.exp_pos n
  have h := abs_le.1 (L.exp_err n (by linarith))
  have hS : Flt.densStore L n = L.expF n := rfl
  rw [hS]
  have hlo : (1 - 2 * F.w) * Real.exp n ≤ L.expF n := by nlinarith
  have hhi : L.expF n ≤ (1 + 2 * F.w) * Real.exp n := by nlinarith
  have p0 : 0 < L.expF n := lt_of_lt_of_le (mul_pos (by linarith) E0) hlo
  refine ⟨p0, ?_, ?_⟩
  · have h1 : Real.exp n ≤ 3 ^ 102 := by
      have h := Real.exp_one_lt_d9
      calc Real.exp n ≤ Real.exp 102 := Real.exp_le_exp.2 (abs_le.1 hn).2
        _ = Real.exp 1 ^ 102 := by rw [← Real.exp_nat_mul]; norm_num
        _ ≤ 3 ^ 102 := pow_le_pow_left₀ (Real.exp_pos 1).le (by linarith) _
    have : (1 + 2 * F.w) * Real.exp n ≤ 2 * 3 ^ 102 := by
      refine mul_le_mul (by linarith) h1 E0.le (by norm_num)
    have : (2 : ℝ) * 3 ^ 102 ≤ 10 ^ 60 := by norm_num
    linarith
  · have hq : Real.log (L.expF n) - n = Real.log (L.expF n / Real.exp n) := by
      rw [Real.log_div p0.ne' E0.ne', Real.log_exp]
    have q1 : 1 - 2 * F.w ≤ L.expF n / Real.exp n := by rw [le_div_iff₀ E0]; exact hlo
    have q2 : L.expF n / Real.exp n ≤ 1 + 2 * F.w := by rw [div_le_iff₀ E0]; exact hhi
    rw [hq]
    generalize L.expF n / Real.exp n = q at *
    have q0 : 0 < q := by linarith
    rw [abs_le]
    constructor
    · have := Real.one_sub_inv_le_log_of_pos q0
      have h2 : q⁻¹ ≤ 1 + 2.001 * F.w := by
        rw [inv_eq_one_div, div_le_iff₀ q0]
        nlinarith
      linarith
    · have := Real.log_le_sub_one_of_pos q0
      linarith

/-- the computed logarithm of a stored density -/
theorem read_log (L : Libm F) {k : KMBalD nV} {h Y : ℝ} (h0 : 0 < h) (h1 : h ≤ 10 ^ 60) (m0 : 1 / 10 ^ 60 ≤ k.hdnMin)
    (m1 : k.hdnMin ≤ 10 ^ 60) (hY1 : 1 ≤ Y) (hY : |max (Real.log h) (Real.log k.hdnMin)| ≤ Y) :
    |Flt.densLog L k h - max (Real.log h) (Real.log k.hdnMin)| ≤ 3 * Y * F.w := by
  have hm : 0 < k.hdnMin := lt_of_lt_of_le (by positivity) m0
  have hlog : Real.log (max h k.hdnMin) = max (Real.log h) (Real.log k.hdnMin) := by
    rcases le_total h k.hdnMin with hc | hc
    · rw [max_eq_right hc, max_eq_right (Real.log_le_log h0 hc)]
    · rw [max_eq_left hc, max_eq_left (Real.log_le_log hm hc)]
  have e := L.log_err (max h k.hdnMin) (by
      refine le_trans ?_ (le_max_right _ _)
      exact le_trans (by norm_num) m0) (by
      refine max_le (h1.trans (by norm_num)) (m1.trans (by norm_num)))
  rw [hlog] at e
  unfold Flt.densLog
  have huw := F.u_le_w; have hηw := F.η_le_w (m := 1) ⟨by norm_num, by norm_num⟩; have hu := F.u_nonneg; have hw := F.w_pos
  refine e.trans ?_
  have h2 : 2 * F.u * |max (Real.log h) (Real.log k.hdnMin)| ≤ 2 * F.w * Y :=
    mul_le_mul (by linarith) hY (abs_nonneg _) (by linarith)
  have h3 : F.w ≤ Y * F.w := le_mul_of_one_le_left hw.le hY1
  linarith

/-- a course of the density: `h j` is the density stored after step `j` and `x j` the result of the solver in step
    `j`; `e` is the logarithm of a density that follows the equations exactly, with the exact coefficients of recovery.
    `lo` and `hi` are bounds for its logarithm: those of the initial and the least density and of the densities at which
    storage and recovery balance. -/
structure DensCourse (F : Flt) (L : Libm F) (k : KMBalD nV) (N : ℕ) (g dt x h e : ℕ → ℝ) (tol lo hi Y : ℝ) : Prop where
  sized : ∀ j < N, DensSized k (g j) (dt j)
  least0 : 1 / 10 ^ 60 ≤ k.hdnMin
  least1 : k.hdnMin ≤ 10 ^ 60
  least2 : Real.log k.hdnMin ≤ hi
  balance0 : ∀ j < N, recoveryOf k (g j) ≤ k.k1 * Real.exp (-(1 / 2) * lo)
  balance1 : ∀ j < N, k.k1 * Real.exp (-(1 / 2) * hi) ≤ recoveryOf k (g j)
  near : ∀ j < N, |x j * max (Flt.densLog L k (h j)) 1| ≤ Y
  passed : ∀ j < N,
    |Flt.densResid L k (g j) (Flt.recovery L k (g j)) (Flt.densLog L k (h j)) (dt j) (x j)| ≤ tol
  stored : ∀ j < N, h (j + 1) = Flt.densStore L (F.hardNew (Flt.densLog L k (h j)) (x j))
  exact : ∀ j < N,
    ImplicitDens k (g j) (recoveryOf k (g j)) (max (e j) (Real.log k.hdnMin)) (dt j) (e (j + 1))
  start : h 0 = Real.exp (e 0)
  start0 : lo ≤ e 0
  start1 : e 0 ≤ hi

theorem dens_course_range {L : Libm F} {k : KMBalD nV} {N : ℕ} {g dt x h e : ℕ → ℝ} {tol lo hi Y : ℝ}
    (c : DensCourse F L k N g dt x h e tol lo hi Y) : ∀ j ≤ N, lo ≤ e j ∧ e j ≤ hi := by
  intro j
  induction j with
  | zero => exact fun _ => ⟨c.start0, c.start1⟩
  | succ j ih =>
    intro hj
    obtain ⟨i1, i2⟩ := ih (by omega)
    have hs := c.sized j (by omega)
    have d0 : 0 ≤ dt j * g j := mul_nonneg hs.time.pos.le hs.slip0
    have ex := c.exact j (by omega)
    unfold ImplicitDens at ex
    have b0 := mul_le_mul_of_nonneg_left (c.balance0 j (by omega)) d0
    have b1 := mul_le_mul_of_nonneg_left (c.balance1 j (by omega)) d0
    exact dens_range (a := dt j * g j * k.k1) (b := dt j * g j * recoveryOf k (g j)) (mul_nonneg d0 hs.storage.pos.le)
      (by rw [ex]; ring) (i1.trans (le_max_left _ _)) (max_le i2 c.least2) (by linarith) (by linarith)

/-- error of one step, with the reading and storing of the density and the coefficient of recovery -/
noncomputable def densStepEps (F : Flt) (Y tol : ℝ) : ℝ := 1.002 * tol * Y + 135 * Y ^ 2 * F.w

/-- **C109 over a history.**  The logarithm of the stored density follows the exact solution of the equations of the
    steps: after `N` steps the difference is at most `N` times the error of one step, and the density is right to that
    relative error. -/
theorem C109_history {L : Libm F} {k : KMBalD nV} {N : ℕ} {g dt x h e : ℕ → ℝ} {tol lo hi Y : ℝ}
    (c : DensCourse F L k N g dt x h e tol lo hi Y) (ht : 0 ≤ tol) (hY1 : 1 ≤ Y) (hY : Y ≤ 50)
    (hlo : -Y + (N + 1) * densStepEps F Y tol ≤ lo) (hhi : hi + (N + 1) * densStepEps F Y tol ≤ Y)
    (hd : hi - lo ≤ Y) :
    0 < h N ∧ |Real.log (h N) - e N| ≤ N * densStepEps F Y tol ∧
    h N ≤ Real.exp (e N) * Real.exp (N * densStepEps F Y tol) ∧
    Real.exp (e N) * Real.exp (-(N * densStepEps F Y tol)) ≤ h N := by
  have hw := F.w_pos; have hw1 := F.w_le; have huw := F.u_le_w; have hu := F.u_nonneg
  have y0 : 0 < Y := by linarith
  set ε := densStepEps F Y tol with hε
  have yy : Y * F.w ≤ Y ^ 2 * F.w := by
    rw [sq]; exact mul_le_mul_of_nonneg_right (by nlinarith) hw.le
  have y1 : F.w ≤ Y * F.w := le_mul_of_one_le_left hw.le hY1
  have ε1 : 135 * (Y ^ 2 * F.w) ≤ ε := by
    have : 0 ≤ tol * Y := by positivity
    rw [hε, densStepEps]; linarith
  have ε0 : 0 ≤ ε := le_trans (by positivity) ε1
  have main : ∀ j ≤ N, 0 < h j ∧ h j ≤ 10 ^ 60 ∧ |Real.log (h j) - e j| ≤ j * ε := by
    intro j
    induction j with
    | zero =>
      intro _
      rw [c.start, Real.log_exp]
      refine ⟨Real.exp_pos _, ?_, by simp⟩
      have h1 : e 0 ≤ 50 := by
        have := c.start1
        have : 0 ≤ ((N : ℝ) + 1) * ε := by positivity
        linarith
      have h := Real.exp_one_lt_d9
      calc Real.exp (e 0) ≤ Real.exp 50 := Real.exp_le_exp.2 h1
        _ = Real.exp 1 ^ 50 := by rw [← Real.exp_nat_mul]; norm_num
        _ ≤ 3 ^ 50 := pow_le_pow_left₀ (Real.exp_pos 1).le (by linarith) _
        _ ≤ 10 ^ 60 := by norm_num
    | succ j ih =>
      intro hj
      obtain ⟨p0, p1, p2⟩ := ih (by omega)
      have hjN : j < N := by omega
      have hs := c.sized j hjN
      obtain ⟨r1, r2⟩ := dens_course_range c j (by omega)
      obtain ⟨r3, r4⟩ := dens_course_range c (j + 1) hj
      have jN : (j : ℝ) * ε ≤ N * ε := mul_le_mul_of_nonneg_right (by exact_mod_cast hjN.le) ε0
      set m := Real.log k.hdnMin with hm
      set l := max (Real.log (h j)) m with hl
      set s := max (e j) m with hsdef
      have hls : |l - s| ≤ j * ε := (abs_max_sub_max_le_abs _ _ _).trans p2
      have s1 : lo ≤ s := r1.trans (le_max_left _ _)
      have s2 : s ≤ hi := max_le r2 c.least2
      have hls' := abs_le.1 hls
      have hlY : |l| ≤ Y := by rw [abs_le]; constructor <;> linarith
      have rd := read_log L (k := k) p0 p1 c.least0 c.least1 hY1 hlY
      set y := Flt.densLog L k (h j) with hy
      have rd' := abs_le.1 rd
      have hyY : |y| ≤ Y := by
        have : 3 * Y * F.w ≤ ε := by linarith
        rw [abs_le]; constructor <;> linarith
      -- exact solution from the computed logarithm, with the computed coefficient
      obtain ⟨k0, k1⟩ := recovery_bounds L hs
      have d0 : 0 ≤ dt j * g j := mul_nonneg hs.time.pos.le hs.slip0
      obtain ⟨z, hz⟩ := dens_exists (yO := y) (mul_nonneg d0 hs.storage.pos.le) (mul_nonneg d0 k0)
      have hz' : ImplicitDens k (g j) (Flt.recovery L k (g j)) y (dt j) z := by
        unfold ImplicitDens; rw [hz]; ring
      have st := C109_step L hs k0 k1 hY1 hY hyY (c.near j hjN) ht (c.passed j hjN) hz'
      have hrec : |Flt.recovery L k (g j) - recoveryOf k (g j)| ≤ 4.1 * F.w * recoveryOf k (g j) :=
        (C109_recovery L hs).trans (mul_le_mul_of_nonneg_right (by linarith) (recoveryOf_nonneg hs))
      have dd := dens_data hs (by linarith : 0 ≤ 4.1 * F.w) (by linarith) hrec (recoveryOf_nonneg hs) hz' (c.exact j hjN)
        hY1 (by rw [abs_le]; constructor <;> linarith)
      set n := F.hardNew y (x j) with hn
      have hn102 : |n| ≤ 102 := by
        have := (Flt.dens_err L (F := F) hY1 hY hs.storage k0 k1 hs.time hs.slip0 hs.slip1 hyY (c.near j hjN)).1
        have t := abs_add_le (n - (y + x j * max y 1)) (y + x j * max y 1)
        rw [sub_add_cancel] at t
        have h1 := this.2; have h2 := this.1
        have : 3.03 * Y * F.w ≤ 1 := by nlinarith
        linarith
      obtain ⟨q0, q1, q2⟩ := store_log L hn102
      rw [c.stored j hjN]
      refine ⟨q0, q1, ?_⟩
      have t1 := abs_sub_le (Real.log (Flt.densStore L n)) n (e (j + 1))
      have t2 := abs_sub_le n z (e (j + 1))
      have t3 := abs_sub_le y l s
      have hεv : ε = 1.002 * tol * Y + 135 * Y ^ 2 * F.w := rfl
      unfold densEps at st
      push_cast
      rw [add_mul, one_mul]
      linarith
  obtain ⟨m0, -, m2⟩ := main N le_rfl
  have m' := abs_le.1 m2
  refine ⟨m0, m2, ?_, ?_⟩
  · rw [← Real.exp_add, ← Real.log_le_iff_le_exp m0]
    linarith
  · rw [← Real.exp_add, ← Real.le_log_iff_exp_le m0]
    linarith

/-- **C109 the tolerance can be met**: at the exact solution of the equation of the step the computed residual is at
    most 18 roundoffs of the logarithm, times the larger of one and what is stored and recovered in the step. -/
theorem C109_attained (L : Libm F) {k : KMBalD nV} {g k2 yO dt y Y : ℝ} (hs : DensSized k g dt) (hk0 : 0 ≤ k2)
    (hk1 : k2 ≤ 10 ^ 20) (hY1 : 1 ≤ Y) (hY : Y ≤ 50) (hO : |yO| ≤ Y) (hx : |y - yO| ≤ Y)
    (hy : ImplicitDens k g k2 yO dt y) :
    |Flt.densResid L k g k2 yO dt ((y - yO) / max yO 1)|
      ≤ 18 * (Y * max (dt * g * (k.k1 * Real.exp (-(1 / 2) * y) + k2)) 1 / max yO 1) * F.w := by
  have x0 : max yO 1 ≠ 0 := (lt_of_lt_of_le one_pos (le_max_right _ _)).ne'
  have e := C109_residual L (F := F) (x := (y - yO) / max yO 1) (Y := Y) hs hk0 hk1 hY1 hY hO
    (by rwa [div_mul_cancel₀ _ x0])
  rw [div_mul_cancel₀ _ x0, add_sub_cancel] at e
  unfold ImplicitDens at hy
  rwa [← hy, sub_self, zero_div, sub_zero] at e

/-- **C109 the computed derivative is at least one**, with any rounding that keeps the order of numbers and the number
    one and an exponential that is not negative, so that the solver never divides by a small number. -/
theorem C109_slope (hF : Ordered F) (h1 : F.fl 1 = 1) (L : Libm F) (hE : ∀ t, 0 ≤ L.expF t) {k : KMBalD nV}
    {g yO dt x : ℝ} (hk : 0 ≤ k.k1) (hg : 0 ≤ g) (hdt : 0 ≤ dt) : 1 ≤ Flt.densJac L k g yO dt x := by
  have neg : ∀ {x}, x ≤ 0 → F.fl x ≤ 0 := fun hx => by rw [← hF.zero]; exact hF.mono hx
  have a : F.fl (-k.k1 * (1 / 2)) ≤ 0 := neg (by linarith)
  have b := neg (mul_nonpos_of_nonpos_of_nonneg a (hE (F.fl (-(1 / 2) * F.hardNew yO x))))
  have b2 : Flt.densSlope L k g (F.hardNew yO x) ≤ 0 := neg (mul_nonpos_of_nonpos_of_nonneg b hg)
  have c : F.fl (Flt.densSlope L k g (F.hardNew yO x) * dt) ≤ 0 := neg (mul_nonpos_of_nonpos_of_nonneg b2 hdt)
  unfold Flt.densJac
  rw [← h1]
  exact hF.mono (by rw [h1]; linarith)

/-- one step with the parameters of the unit tests, at the rate of slip 1 -/
theorem testKM_recovery : 1 ≤ recoveryOf testKM 1 ∧ recoveryOf testKM 1 ≤ 10 := by
  have e : recoveryOf testKM 1 = 10 * ((1 / 10 ^ 6 / 1 : ℝ) ^ ((5 : ℝ) / 100)) := by
    unfold recoveryOf
    rw [if_pos (by unfold idpTinySqrt; norm_num)]
    rfl
  rw [e]
  constructor
  · have h : ((1 / 10 : ℝ) ^ (20 : ℕ)) ^ ((5 : ℝ) / 100) = 1 / 10 := by
      rw [← Real.rpow_natCast, ← Real.rpow_mul (by norm_num)]
      norm_num
    have := Real.rpow_le_rpow (by norm_num) (by norm_num : ((1 / 10 : ℝ) ^ (20 : ℕ)) ≤ 1 / 10 ^ 6 / 1)
      (by norm_num : (0 : ℝ) ≤ 5 / 100)
    rw [h] at this
    linarith
  · have := Real.rpow_le_one (by norm_num : (0 : ℝ) ≤ 1 / 10 ^ 6 / 1) (by norm_num) (by norm_num : (0 : ℝ) ≤ 5 / 100)
    linarith

theorem testKM_sized : DensSized testKM 1 1e-3 := by
  refine ⟨?_, ?_, ?_, ?_, by norm_num, by norm_num, fun _ => ?_, ?_, ?_⟩
  · constructor <;> norm_num [testKM]
  · constructor <;> norm_num [testKM]
  · exact testKM_recovery.2.trans (by norm_num)
  · constructor <;> norm_num
  · constructor <;> norm_num [testKM]
  · norm_num [testKM]
  · norm_num [testKM]

theorem testKM_start : -2 ≤ Real.log (1 / 4) ∧ Real.log (1 / 4) ≤ -1 := by
  have h1 := Real.exp_one_lt_d9
  have h2 := Real.exp_one_gt_d9
  constructor
  · rw [Real.le_log_iff_exp_le (by norm_num), Real.exp_neg, show (2 : ℝ) = 1 + 1 by norm_num, Real.exp_add,
      inv_le_comm₀ (by positivity) (by norm_num)]
    nlinarith
  · rw [Real.log_le_iff_le_exp (by norm_num), Real.exp_neg, le_inv_comm₀ (by norm_num) (by positivity)]
    linarith

/-- the course of one step that takes the exact solution for the computed data -/
theorem testKM_course : ∃ x h e : ℕ → ℝ, DensCourse dbl dblLibm testKM 1 (fun _ => 1) (fun _ => 1e-3) x h e (1 / 10 ^ 10)
    (-2) 10 20 ∧ e 0 < e 1 := by
  have hs := testKM_sized
  obtain ⟨s1, s2⟩ := testKM_start
  obtain ⟨k1, k2⟩ := testKM_recovery
  have hw := dbl_w; have hw0 := dbl.w_pos; have hw1 := dbl.w_le
  have hu := dbl.u_nonneg; have huw := dbl.u_le_w
  have ev := Real.exp_one_lt_d9
  have ev2 := Real.exp_one_gt_d9
  have hmin : testKM.hdnMin = 1 / 40000 := by norm_num [KMBalD.hdnMin, testKM]
  have hk : testKM.k1 = 100 := rfl
  have hml : Real.log testKM.hdnMin ≤ Real.log (1 / 4) := Real.log_le_log (by rw [hmin]; norm_num) (by rw [hmin]; norm_num)
  have hmax : max (Real.log (1 / 4)) (Real.log testKM.hdnMin) = Real.log (1 / 4) := max_eq_left hml
  have exp5 : Real.exp (-5) ≤ 1 / 140 := by
    rw [Real.exp_neg, inv_le_comm₀ (by positivity) (by norm_num), show (5 : ℝ) = (5 : ℕ) * 1 by norm_num,
      Real.exp_nat_mul]
    have := pow_le_pow_left₀ (by norm_num) (by linarith : (2.7 : ℝ) ≤ Real.exp 1) 5
    refine le_trans (by norm_num) this
  have exp1 : ∀ t : ℝ, 0 ≤ t → 1 ≤ Real.exp t := fun t ht => Real.one_le_exp ht
  have rd := read_log dblLibm (k := testKM) (h := 1 / 4) (Y := 2) (by norm_num) (by norm_num) (by rw [hmin]; norm_num)
    (by rw [hmin]; norm_num) (by norm_num) (by rw [hmax, abs_le]; constructor <;> linarith)
  rw [hmax] at rd
  set y0 := Flt.densLog dblLibm testKM (1 / 4) with hy0
  have rd' := abs_le.1 rd
  have y1 : -2.1 ≤ y0 := by norm_num at *; linarith
  have y2 : y0 ≤ 0 := by norm_num at *; linarith
  have mx : max y0 1 = 1 := max_eq_right (by linarith)
  obtain ⟨c0, c1⟩ := recovery_bounds dblLibm hs
  have cr := abs_le.1 (C109_recovery dblLibm hs)
  set kc := Flt.recovery dblLibm testKM 1 with hkc
  have cu : 4.1 * dbl.u * recoveryOf testKM 1 ≤ 1 / 10 := by
    have : 4.1 * dbl.u ≤ 1 / 100 := by linarith
    have := mul_le_mul this k2 (by linarith) (by norm_num)
    linarith
  have kc1 : 0.9 ≤ kc := by linarith
  have kc2 : kc ≤ 10.1 := by linarith
  -- solution for the computed data
  obtain ⟨z, hz⟩ := dens_exists (a := 1e-3 * 1 * 100) (b := 1e-3 * 1 * kc) (yO := y0) (by norm_num) (by linarith)
  have zr := dens_range (L := -3) (U := 10) (by norm_num) hz (by linarith) (by linarith)
    (by have := exp1 (-(1 / 2) * -3) (by norm_num); linarith)
    (by rw [show (-(1 / 2) * 10 : ℝ) = -5 by norm_num]; linarith)
  have hzI : ImplicitDens testKM 1 kc y0 1e-3 z := by
    unfold ImplicitDens; rw [hz, hk]; ring
  have zE : Real.exp (-(1 / 2) * z) ≤ 9 := by
    have h1 : Real.exp (-(1 / 2) * z) ≤ Real.exp (2 : ℕ) := Real.exp_le_exp.2 (by push_cast; linarith [zr.1])
    have h2 : Real.exp (2 : ℕ) = Real.exp 1 ^ 2 := by rw [← Real.exp_nat_mul]; simp
    rw [h2] at h1
    nlinarith
  have at' := C109_attained dblLibm (Y := 20) hs c0 c1 (by norm_num) (by norm_num)
    (by rw [abs_le]; constructor <;> linarith) (by rw [abs_le]; constructor <;> linarith [zr.1, zr.2]) hzI
  rw [mx, hk, max_eq_right (by nlinarith)] at at'
  -- exact course
  obtain ⟨y, hy⟩ := dens_exists (a := 1e-3 * 1 * 100) (b := 1e-3 * 1 * recoveryOf testKM 1) (yO := Real.log (1 / 4))
    (by norm_num) (by linarith)
  have up : Real.log (1 / 4) < y := by
    by_contra hc
    rw [not_lt] at hc
    have : 1 ≤ Real.exp (-(1 / 2) * y) := exp1 _ (by linarith)
    linarith
  refine ⟨fun _ => (z - y0) / 1, fun j => if j = 0 then 1 / 4 else Flt.densStore dblLibm (dbl.hardNew y0 ((z - y0) / 1)),
    fun j => if j = 0 then Real.log (1 / 4) else y, ⟨fun _ _ => hs, ?_, ?_, ?_, ?_, ?_, ?_, ?_, ?_, ?_, ?_, ?_, ?_⟩, up⟩
  · rw [hmin]; norm_num
  · rw [hmin]; norm_num
  · linarith
  · intro j hj
    have := exp1 (-(1 / 2) * -2) (by norm_num)
    rw [hk]; linarith
  · intro j hj
    rw [hk, show (-(1 / 2) * 10 : ℝ) = -5 by norm_num]; linarith
  · intro j hj
    obtain rfl : j = 0 := by omega
    rw [if_pos rfl, ← hy0, mx, abs_le]
    constructor <;> linarith [zr.1, zr.2]
  · intro j hj
    obtain rfl : j = 0 := by omega
    rw [if_pos rfl, ← hy0, ← hkc]
    rw [mx] at *
    refine at'.trans ?_
    norm_num at hw ⊢
    linarith
  · intro j hj
    obtain rfl : j = 0 := by omega
    rfl
  · intro j hj
    obtain rfl : j = 0 := by omega
    show ImplicitDens testKM 1 (recoveryOf testKM 1) (max (Real.log (1 / 4)) (Real.log testKM.hdnMin)) 1e-3 y
    rw [hmax]
    unfold ImplicitDens
    rw [hy, hk]; ring
  · show (1 / 4 : ℝ) = Real.exp (Real.log (1 / 4))
    rw [Real.exp_log (by norm_num)]
  · exact s1
  · show Real.log (1 / 4) ≤ 10
    linarith

/-- the density of the unit tests grows in a step, and what is stored is right to a relative error of 2.1e-9 -/
example : ∃ x h e : ℕ → ℝ, DensCourse dbl dblLibm testKM 1 (fun _ => 1) (fun _ => 1e-3) x h e (1 / 10 ^ 10) (-2) 10 20 ∧
    e 0 < e 1 ∧ |Real.log (h 1) - e 1| ≤ 2.1 / 10 ^ 9 := by
  obtain ⟨x, h, e, c, hc⟩ := testKM_course
  have hw := dbl_w
  have ε : densStepEps dbl 20 (1 / 10 ^ 10) ≤ 2.1 / 10 ^ 9 := by
    unfold densStepEps
    norm_num at hw ⊢
    linarith
  refine ⟨x, h, e, c, hc, ?_⟩
  have := (C109_history c (by norm_num) (by norm_num) (by norm_num) (by push_cast; norm_num at ε ⊢; linarith)
    (by push_cast; norm_num at ε ⊢; linarith) (by norm_num)).2.1
  push_cast at this
  linarith

/-- the hypotheses of the theorem on the slope hold in double precision -/
example (x : ℝ) : 1 ≤ Flt.densJac dblLibm testKM 1 0 1e-3 x := by
  refine C109_slope dbl_ordered ?_ dblLibm (fun t => ?_) (by norm_num [testKM]) (by norm_num) (by norm_num)
  · have e : dblExp 1 = 0 := by simp [dblExp]
    show dblRound 1 = 1
    refine dblRound_of_grid (j := 2 ^ 52) ?_
    rw [e]; norm_num
  · show 0 ≤ dbl.fl (Real.exp t)
    rw [← dbl_ordered.zero]
    exact dbl_ordered.mono (Real.exp_pos t).le

/-- arithmetic without rounding meets the hypotheses of the theorem on the definitions -/
example : ∃ (F : Flt) (L : Libm F), (∀ x, F.fl x = x) ∧ (∀ x y, L.powF x y = x ^ y) ∧ (∀ x, L.expF x = Real.exp x) ∧
    ∀ x, L.logF x = Real.log x := by
  refine ⟨⟨0, 0, id, Real.cos, Real.sin, le_rfl, by norm_num, le_rfl, by norm_num, fun x _ => by simp, fun x => by simp,
    fun x => by simp⟩, ⟨Real.exp, Real.log, fun x y => x ^ y, fun x _ => by simp, fun x _ _ => by simp,
    fun x y _ _ _ => by simp⟩, fun _ => rfl, fun _ _ => rfl, fun _ => rfl, fun _ => rfl⟩

end Ecm.Props
