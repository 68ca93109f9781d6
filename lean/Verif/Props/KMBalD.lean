/- Property theorems C28 (balanced dislocation kinetics never oppose the stress), C29 (drag limit) and
   C30 (reported derivatives; refuted for the stress derivative when jumps against the stress count). -/
import Verif.Lemmas.KMBalD

namespace Ecm.Props
open Ecm

/-- admissible parameters and values for the slip system that uses entry `j` -/
structure KMAdm {nV : ℕ} (k : KMBalD nV) (v : KMVals nV) (j : Fin nV) : Prop where
  gamW : 0 < v.gamW
  gamR : 0 < v.gamR
  wrD : 0 < k.wrD
  cE : 0 ≤ v.ct j * k.muRef
  p : 0 < k.p
  q : 0 < k.q
  /-- the barrier strength is positive (asserted in getVals) -/
  barrier : 0 < if k.withGA then k.tauA else v.g j

/-- athermal threshold: the strength when it is athermal, else the parameter `tau_a` -/
noncomputable def athermal {nV : ℕ} (k : KMBalD nV) (v : KMVals nV) (j : Fin nV) : ℝ :=
  if k.withGA then v.g j else k.tauA

variable {nV : ℕ} [NeZero nV] {n : ℕ}

/-! ### C28 -/

/-- C28 slip rate times stress is never negative; the rate is zero at or below the athermal
    threshold. -/
theorem C28_sign (k : KMBalD nV) (v : KMVals nV) (i : Fin n) (h : KMAdm k v (k.iVal i)) (tau : ℝ) :
    0 ≤ tau * (k.evalGdot v i tau).gdot ∧
    (|tau| ≤ athermal k v (k.iVal i) → (k.evalGdot v i tau).gdot = 0) := by
  have hc := k.sel_cases (g := v.g (k.iVal i)) (ct := v.ct (k.iVal i)) (xn := k.xn (k.iVal i))
    (xnn := k.xnn (k.iVal i)) (tMin := k.tMin (k.iVal i)) (tMax := k.tMax (k.iVal i)) (tau := tau)
    h.gamW h.gamR h.wrD h.cE h.p h.q h.barrier
  rcases hc with hc | ⟨G, hG, hg, -, -, hx⟩
  · have e : (k.evalGdot v i tau).gdot = 0 := by
      unfold KMBalD.evalGdot; simp only [hc]
    rw [e]; simp
  · have e : (k.evalGdot v i tau).gdot = copysign G tau := hg
    rw [e, mul_copysign]
    refine ⟨by positivity, fun hle => ?_⟩
    exfalso
    have := gamRatioMin_pos.trans_le hx
    rw [lt_div_iff₀ h.wrD, zero_mul] at this
    unfold athermal at hle
    linarith

/-- C28 the slip rate is odd in the stress; at zero stress with an athermal strength this needs the
    strength to be non-negative. -/
theorem C28_odd (k : KMBalD nV) (v : KMVals nV) (i : Fin n) (h : KMAdm k v (k.iVal i))
    (hg : k.withGA = true → 0 ≤ v.g (k.iVal i)) (tau : ℝ) :
    (k.evalGdot v i (-tau)).gdot = -(k.evalGdot v i tau).gdot := by
  rcases eq_or_ne tau 0 with rfl | ht
  · have e : (k.evalGdot v i 0).gdot = 0 := by
      by_cases hk : k.withGA = true
      · exact (C28_sign k v i h 0).2 (by simpa [athermal, hk] using hg hk)
      · have hk' : k.withGA = false := by simpa using hk
        simp [KMBalD.evalGdot, KMBalD.evalGdotSel, hk']
    simp [e]
  · exact (k.sel_neg ht).1

/-- C28 wherever evalGdot goes on to divide by them, the drag limited rate and the activated rate
    are positive, and the normalised stress whose logarithm is taken is positive. -/
theorem C28_divisors (k : KMBalD nV) (v : KMVals nV) (j : Fin nV) (h : KMAdm k v j) (tau r d : ℝ)
    (hd : k.drag v.gamR ((|tau| - athermal k v j) / k.wrD) = some (r, d)) :
    0 < r ∧ 0 < max 0 (|tau| - athermal k v j) * (if k.withGA then 1 / k.tauA else 1 / v.g j) ∧
    ∀ gw dgw dgwg, k.thermal v.gamW (v.ct j * k.muRef) (if k.withGA then 1 / k.tauA else 1 / v.g j)
      (athermal k v j) tau = some (gw, dgw, dgwg) → 0 < gw := by
  have hgI : 0 < (if k.withGA then 1 / k.tauA else 1 / v.g j) := by
    have := h.barrier
    split_ifs at this ⊢ <;> exact one_div_pos.2 this
  obtain ⟨hx, hr, -, -⟩ := k.drag_some h.gamR hd
  have hpos : 0 < |tau| - athermal k v j := by
    have := gamRatioMin_pos.trans_le hx
    rwa [lt_div_iff₀ h.wrD, zero_mul] at this
  exact ⟨hr, mul_pos (lt_max_of_lt_right hpos) hgI,
    fun gw dgw dgwg hth => k.thermal_pos h.gamW h.cE hgI h.p h.q hth⟩

/-! ### C29 -/

/-- C29 the magnitude of the slip rate exceeds neither the drag reference rate nor, up to the relative
    error 1e-8 of the linearised exponential, the drag limited rate
    `gam_r (1 - exp(-(|τ| - threshold)/D))`. -/
theorem C29_drag_bound (k : KMBalD nV) (v : KMVals nV) (i : Fin n) (h : KMAdm k v (k.iVal i))
    (tau : ℝ) :
    |(k.evalGdot v i tau).gdot| ≤ v.gamR ∧
    (athermal k v (k.iVal i) ≤ |tau| → |(k.evalGdot v i tau).gdot| ≤ v.gamR *
      (1 - Real.exp (-((|tau| - athermal k v (k.iVal i)) / k.wrD))) * (1 + 1 / 10 ^ 8)) ∧
    (1 / 10 ^ 8 ≤ (|tau| - athermal k v (k.iVal i)) / k.wrD → |(k.evalGdot v i tau).gdot| ≤ v.gamR *
      (1 - Real.exp (-((|tau| - athermal k v (k.iVal i)) / k.wrD)))) := by
  have hc := k.sel_cases (g := v.g (k.iVal i)) (ct := v.ct (k.iVal i)) (xn := k.xn (k.iVal i))
    (xnn := k.xnn (k.iVal i)) (tMin := k.tMin (k.iVal i)) (tMax := k.tMax (k.iVal i)) (tau := tau)
    h.gamW h.gamR h.wrD h.cE h.p h.q h.barrier
  have heps : idpEpsSqrt = 1 / 10 ^ 8 := by unfold idpEpsSqrt; norm_num
  have hR := h.gamR
  change (k.evalGdot v i tau = _) ∨ ∃ G, 0 < G ∧ (k.evalGdot v i tau).gdot = copysign G tau ∧
    G ≤ KMBalD.dragRate v.gamR ((|tau| - athermal k v (k.iVal i)) / k.wrD) ∧ G ≤ v.gamR ∧
    gamRatioMin ≤ (|tau| - athermal k v (k.iVal i)) / k.wrD at hc
  rcases hc with hc | ⟨G, hG, hg, hdr, hr, hx⟩
  · have e : (k.evalGdot v i tau).gdot = 0 := by rw [hc]
    rw [e, abs_zero]
    have he : ∀ y : ℝ, 0 ≤ y → 0 ≤ 1 - Real.exp (-y) := fun y hy => by
      have : Real.exp (-y) ≤ 1 := Real.exp_le_one_iff.2 (by linarith)
      linarith
    refine ⟨hR.le, fun h1 => ?_, fun h1 => ?_⟩
    · have := he _ (div_nonneg (sub_nonneg.2 h1) h.wrD.le)
      positivity
    · have := he _ ((by positivity : (0 : ℝ) ≤ 1 / 10 ^ 8).trans h1)
      positivity
  · rw [hg, abs_copysign, abs_of_pos hG]
    set x := (|tau| - athermal k v (k.iVal i)) / k.wrD with hxd
    have hx0 : 0 < x := gamRatioMin_pos.trans_le hx
    have key : x ≤ (1 - Real.exp (-x)) * (1 + x) := by
      have h1 : Real.exp (-x) * (1 + x) ≤ 1 := by
        have h2 := Real.add_one_le_exp x
        have h3 : Real.exp (-x) * Real.exp x = 1 := by rw [← Real.exp_add]; simp
        nlinarith [Real.exp_pos (-x)]
      nlinarith
    have he0 : 0 ≤ 1 - Real.exp (-x) := by
      have : Real.exp (-x) ≤ 1 := Real.exp_le_one_iff.2 (by linarith)
      linarith
    refine ⟨hr, fun _ => ?_, fun h1 => ?_⟩
    · refine hdr.trans ?_
      unfold KMBalD.dragRate
      split_ifs with hlt
      · rw [heps] at hlt
        have : x ≤ (1 - Real.exp (-x)) * (1 + 1 / 10 ^ 8) := key.trans (by nlinarith)
        nlinarith
      · nlinarith [mul_nonneg hR.le he0]
    · refine hdr.trans ?_
      unfold KMBalD.dragRate
      rw [if_neg (by rw [heps]; exact not_lt.2 h1)]

/-- a simple admissible set: athermal strength 1, barrier 4, linear barrier -/
noncomputable def kmExample : KMBalD 1 :=
  { withGA := true, pOne := true, qOne := true, perSS := false, muRef := 1, tKRef := 1,
    c1 := fun _ => 1, tauA := 4, p := 1, q := 1, gamWo := 1, gamRo := 1, wrD := 1, go := fun _ => 0,
    s := fun _ => 1, k1 := 1, k2o := 1, ninv := 0, gammaO := 1, hdnInit := 1 }

noncomputable def kmVals : KMVals 1 := { gamW := 1, gamR := 1, g := fun _ => 1, ct := fun _ => 1 }

theorem kmExample_adm (j : Fin 1) : KMAdm kmExample kmVals j := by
  constructor <;> norm_num [kmExample, kmVals]

example : KMAdm kmExample kmVals 0 ∧ athermal kmExample kmVals 0 < |(2 : ℝ)| :=
  ⟨kmExample_adm 0, by norm_num [athermal, kmExample, kmVals]⟩

/-! ### C30 -/

theorem km_xn {nV : ℕ} (k : KMBalD nV) (j : Fin nV) : k.xn j + 1 = k.xnn j := by
  unfold KMBalD.xn; ring

/-- normalised stress along the applied stress, and against it -/
noncomputable def tFwd {nV : ℕ} (k : KMBalD nV) (v : KMVals nV) (j : Fin nV) (tau : ℝ) : ℝ :=
  (|tau| - athermal k v j) * (if k.withGA then 1 / k.tauA else 1 / v.g j)
noncomputable def tBwd {nV : ℕ} (k : KMBalD nV) (v : KMVals nV) (j : Fin nV) (tau : ℝ) : ℝ :=
  (-|tau| - athermal k v j) * (if k.withGA then 1 / k.tauA else 1 / v.g j)

/-- `tau` lies strictly inside the branch of evalGdot in which both the drag limited and the activated
    rate count; `back`: jumps against the stress count, `pw`: the power law counts -/
def InsideMain {nV : ℕ} (k : KMBalD nV) (v : KMVals nV) (j : Fin nV) (back pw : Bool) (tau : ℝ) :
    Prop :=
  tau ≠ 0 ∧
  k.MainBranch back pw v.gamW (v.ct j * k.muRef) (k.tMin j) (k.tMax j)
    (if k.withGA then 1 / k.tauA else 1 / v.g j) (athermal k v j) |tau| ∧
  k.MtsSmooth (tFwd k v j tau) ∧ k.MtsSmooth (tBwd k v j tau)

/-- C30 inside the main branch, when jumps against the stress are negligible (not counted), the
    reported stress derivative is the derivative of the slip rate. -/
theorem C30_without_backward_jumps (k : KMBalD nV) (v : KMVals nV) (i : Fin n)
    (h : KMAdm k v (k.iVal i)) (pw : Bool) (tau : ℝ) (hi : InsideMain k v (k.iVal i) false pw tau) :
    HasDerivAt (fun s => (k.evalGdot v i s).gdot) (k.evalGdot v i tau).dtau tau := by
  obtain ⟨c, -, hd⟩ := k.sel_deriv_tau hi.1 (km_xn k (k.iVal i)) h.barrier h.gamW h.gamR h.wrD h.cE
    h.p h.q hi.2.1 hi.2.2.1 hi.2.2.2
  simp only [Bool.false_eq_true, if_false, add_zero] at hd
  exact hd

/-- C30 inside the main branch, when jumps against the stress are counted and their barrier has a
    non-zero slope, the slip rate is differentiable and the reported stress derivative is too small
    (for a positive slope): it is not the derivative of the slip rate. -/
theorem C30_wrong_with_backward_jumps (k : KMBalD nV) (v : KMVals nV) (i : Fin n)
    (h : KMAdm k v (k.iVal i)) (pw : Bool) (tau : ℝ) (hi : InsideMain k v (k.iVal i) true pw tau)
    (hs : k.mtsSlope (v.ct (k.iVal i) * k.muRef) (tBwd k v (k.iVal i) tau) ≠ 0) :
    (∃ D, HasDerivAt (fun s => (k.evalGdot v i s).gdot) D tau ∧
      (0 < k.mtsSlope (v.ct (k.iVal i) * k.muRef) (tBwd k v (k.iVal i) tau) →
        (k.evalGdot v i tau).dtau < D)) ∧
    ¬ HasDerivAt (fun s => (k.evalGdot v i s).gdot) (k.evalGdot v i tau).dtau tau := by
  obtain ⟨c, hc, hd⟩ := k.sel_deriv_tau hi.1 (km_xn k (k.iVal i)) h.barrier h.gamW h.gamR h.wrD h.cE
    h.p h.q hi.2.1 hi.2.2.1 hi.2.2.2
  simp only [if_true] at hd
  change HasDerivAt (fun s => (k.evalGdot v i s).gdot) ((k.evalGdot v i tau).dtau +
    c * k.mtsSlope (v.ct (k.iVal i) * k.muRef) (tBwd k v (k.iVal i) tau)) tau at hd
  refine ⟨⟨_, hd, fun hp => by nlinarith⟩, fun hc' => ?_⟩
  have := hd.unique hc'
  have hne : c * k.mtsSlope (v.ct (k.iVal i) * k.muRef) (tBwd k v (k.iVal i) tau) ≠ 0 :=
    mul_ne_zero hc.ne' hs
  apply hne
  linarith

/-- the values with the strength entry `j` replaced -/
noncomputable def setG {nV : ℕ} (v : KMVals nV) (j : Fin nV) (s : ℝ) : KMVals nV :=
  { v with g := Function.update v.g j s }

/-- C30 inside the main branch the reported strength derivative is always the derivative of the slip
    rate with respect to the strength. -/
theorem C30_strength_derivative (k : KMBalD nV) (v : KMVals nV) (i : Fin n)
    (h : KMAdm k v (k.iVal i)) (back pw : Bool) (tau : ℝ)
    (hi : InsideMain k v (k.iVal i) back pw tau) :
    HasDerivAt (fun s => (k.evalGdot (setG v (k.iVal i) s) i tau).gdot) (k.evalGdot v i tau).dg
      (v.g (k.iVal i)) := by
  have hd := k.sel_deriv_g hi.1 (km_xn k (k.iVal i)) h.barrier h.gamW h.gamR h.wrD h.cE
    h.p h.q hi.2.1 hi.2.2.1 hi.2.2.2
  have e : (fun s => (k.evalGdot (setG v (k.iVal i) s) i tau).gdot) = fun s =>
      (k.evalGdotSel v.gamW v.gamR s (v.ct (k.iVal i)) (k.xn (k.iVal i)) (k.xnn (k.iVal i))
        (k.tMin (k.iVal i)) (k.tMax (k.iVal i)) tau).gdot := by
    funext s; simp [KMBalD.evalGdot, setG]
  rw [e]
  exact hd

/-- C30 strictly below the athermal threshold the rate and all reported derivatives are zero, and the
    stress derivative is the true one. -/
theorem C30_below_threshold (k : KMBalD nV) (v : KMVals nV) (i : Fin n) (h : KMAdm k v (k.iVal i))
    (tau : ℝ) (ht : |tau| < athermal k v (k.iVal i)) :
    (k.evalGdot v i tau).dtau = 0 ∧ (k.evalGdot v i tau).dg = 0 ∧
    HasDerivAt (fun s => (k.evalGdot v i s).gdot) 0 tau := by
  have hr : k.evalGdot v i tau = { gdot := 0, dtau := 0, dg := 0 } := by
    have hc := k.sel_cases (g := v.g (k.iVal i)) (ct := v.ct (k.iVal i)) (xn := k.xn (k.iVal i))
      (xnn := k.xnn (k.iVal i)) (tMin := k.tMin (k.iVal i)) (tMax := k.tMax (k.iVal i)) (tau := tau)
      h.gamW h.gamR h.wrD h.cE h.p h.q h.barrier
    rcases hc with hc | ⟨G, hG, hg, -, -, hx⟩
    · exact hc
    · exfalso
      have := gamRatioMin_pos.trans_le hx
      rw [lt_div_iff₀ h.wrD, zero_mul] at this
      unfold athermal at ht
      linarith
  refine ⟨by rw [hr], by rw [hr], ?_⟩
  refine HasDerivAt.congr_of_eventuallyEq (hasDerivAt_const tau 0) ?_
  have c : ContinuousAt (fun t : ℝ => |t|) tau := by fun_prop
  filter_upwards [c.eventually (gt_mem_nhds ht)] with y hy
  exact (C28_sign k v i h y).2 hy.le

theorem kmExample_xm (j : Fin 1) : kmExample.xm j = 1 / 2 := by
  norm_num [KMBalD.xm, kmExample]

theorem kmExample_inside : InsideMain kmExample kmVals 0 true true 2 := by
  have e4 : ∀ t : ℝ, kmExample.pFunc t = t := fun t => by simp [KMBalD.pFunc, kmExample]
  have em : ∀ d t : ℝ, ¬ (1 - t < idpTinySqrt) → (kmExample.mtsDG 1 d t).1 = -(1 - t) := by
    intro d t h
    rw [KMBalD.mtsDG_fst, e4]
    simp [KMBalD.qPow, kmExample, h]
  have hI : (if kmExample.withGA then 1 / kmExample.tauA else 1 / kmVals.g 0) = 1 / 4 := by
    simp [kmExample]
  have hA : athermal kmExample kmVals 0 = 1 := by simp [athermal, kmExample, kmVals]
  have hC : kmVals.ct 0 * kmExample.muRef = 1 := by simp [kmVals, kmExample]
  have hW : kmVals.gamW = 1 := rfl
  have h2 : |(2 : ℝ)| = 2 := by norm_num
  have t1 : (2 - 1) * (1 / 4 : ℝ) = 1 / 4 := by norm_num
  have t2 : (-2 - 1) * (1 / 4 : ℝ) = -(3 / 4) := by norm_num
  have n1 : ¬ ((1 : ℝ) - 1 / 4 < idpTinySqrt) := by unfold idpTinySqrt; norm_num
  have n2 : ¬ ((1 : ℝ) - -(3 / 4) < idpTinySqrt) := by unfold idpTinySqrt; norm_num
  unfold InsideMain tFwd tBwd
  rw [hI, hA, hC, h2, t1, t2, hW]
  refine ⟨by norm_num, ?_, ⟨Or.inl rfl, ?_⟩, ⟨Or.inl rfl, ?_⟩⟩
  · constructor
    · have : kmExample.wrD = 1 := rfl
      rw [this]; unfold idpEpsSqrt; norm_num
    · rw [t1]
      unfold KMBalD.tMax
      rw [kmExample_xm]
      have : (1 : ℝ) ≤ gamRatioOvf ^ (1 / 2 : ℝ) :=
        Real.one_le_rpow (by unfold gamRatioOvf; norm_num) (by norm_num)
      linarith
    · norm_num
    · rw [if_pos rfl, t1]
      unfold KMBalD.tMin
      rw [kmExample_xm, ← Real.sqrt_eq_rpow, Real.sqrt_lt' (by norm_num)]
      unfold gamRatioMin; norm_num
    · rw [t1, em _ _ n1]; unfold lnGamRatioMin; norm_num
    · rw [if_pos rfl, t1, t2]
      refine ⟨by rw [em _ _ n2]; unfold lnGamRatioMin; norm_num, ?_⟩
      unfold KMBalD.jump
      rw [em _ _ n1, em _ _ n2]
      have a1 : (1 / 4 : ℝ) ≤ Real.exp (-(1 - 1 / 4)) := by
        have := Real.add_one_le_exp (-(1 - 1 / 4) : ℝ); linarith
      have a2 : Real.exp (-(1 - -(3 / 4))) = Real.exp (-(1 - 1 / 4)) * Real.exp (-1) := by
        rw [← Real.exp_add]; norm_num
      have a3 : Real.exp (-1) ≤ 1 / 2 := by
        have h1 := Real.add_one_le_exp (1 : ℝ)
        have h3 : Real.exp (-1) * Real.exp 1 = 1 := by rw [← Real.exp_add]; simp
        nlinarith [Real.exp_pos (-1)]
      have a4 : (1 / 8 : ℝ) ≤ 1 * Real.exp (-(1 - 1 / 4)) - 1 * Real.exp (-(1 - -(3 / 4))) := by
        rw [a2]; nlinarith [Real.exp_pos (-1)]
      rw [div_one, abs_of_nonneg (by linarith)]
      refine lt_of_lt_of_le ?_ a4
      unfold gamRatioMin; norm_num
  · rw [e4]; unfold idpTinySqrt; norm_num
  · rw [e4]; unfold idpTinySqrt; norm_num

noncomputable def kmVals2 : KMVals 1 := { gamW := 1, gamR := 1, g := fun _ => 1, ct := fun _ => 100 }

/-- with a barrier a hundred times the thermal energy the jumps against the stress do not count -/
example : InsideMain kmExample kmVals2 0 false true 2 := by
  have e4 : ∀ t : ℝ, kmExample.pFunc t = t := fun t => by simp [KMBalD.pFunc, kmExample]
  have em : ∀ d t : ℝ, ¬ (1 - t < idpTinySqrt) → (kmExample.mtsDG 100 d t).1 = -100 * (1 - t) := by
    intro d t h
    rw [KMBalD.mtsDG_fst, e4]
    simp [KMBalD.qPow, kmExample, h]
  have hI : (if kmExample.withGA then 1 / kmExample.tauA else 1 / kmVals2.g 0) = 1 / 4 := by
    simp [kmExample]
  have hA : athermal kmExample kmVals2 0 = 1 := by
    simp [athermal, kmExample, kmVals2]
  have hC : kmVals2.ct 0 * kmExample.muRef = 100 := by simp [kmExample, kmVals2]
  have hW : kmVals2.gamW = 1 := rfl
  have h2 : |(2 : ℝ)| = 2 := by norm_num
  have t1 : (2 - 1) * (1 / 4 : ℝ) = 1 / 4 := by norm_num
  have t2 : (-2 - 1) * (1 / 4 : ℝ) = -(3 / 4) := by norm_num
  have n1 : ¬ ((1 : ℝ) - 1 / 4 < idpTinySqrt) := by unfold idpTinySqrt; norm_num
  have n2 : ¬ ((1 : ℝ) - -(3 / 4) < idpTinySqrt) := by unfold idpTinySqrt; norm_num
  unfold InsideMain tFwd tBwd
  rw [hI, hA, hC, h2, t1, t2, hW]
  refine ⟨by norm_num, ?_, ⟨Or.inl rfl, ?_⟩, ⟨Or.inl rfl, ?_⟩⟩
  · constructor
    · have : kmExample.wrD = 1 := rfl
      rw [this]; unfold idpEpsSqrt; norm_num
    · rw [t1]
      unfold KMBalD.tMax
      rw [kmExample_xm]
      have : (1 : ℝ) ≤ gamRatioOvf ^ (1 / 2 : ℝ) :=
        Real.one_le_rpow (by unfold gamRatioOvf; norm_num) (by norm_num)
      linarith
    · norm_num
    · rw [if_pos rfl, t1]
      unfold KMBalD.tMin
      rw [kmExample_xm, ← Real.sqrt_eq_rpow, Real.sqrt_lt' (by norm_num)]
      unfold gamRatioMin; norm_num
    · rw [t1, em _ _ n1]; unfold lnGamRatioMin; norm_num
    · simp only [Bool.false_eq_true, if_false, t2]
      rw [em _ _ n2]; unfold lnGamRatioMin; norm_num
  · rw [e4]; unfold idpTinySqrt; norm_num
  · rw [e4]; unfold idpTinySqrt; norm_num

/-- C30 is false: with athermal strength 1, barrier 4 and stress 2, well inside a branch, the slip
    rate is differentiable in the stress but the reported derivative is not its derivative (the sign
    of the term for jumps against the stress is wrong). -/
theorem C30_refuted : ∃ (k : KMBalD 1) (v : KMVals 1) (tau : ℝ), KMAdm k v 0 ∧
    DifferentiableAt ℝ (fun s => (k.evalGdot v (0 : Fin 1) s).gdot) tau ∧
    (k.evalGdot v (0 : Fin 1) tau).dtau < deriv (fun s => (k.evalGdot v (0 : Fin 1) s).gdot) tau := by
  have hiv : kmExample.iVal (0 : Fin 1) = 0 := rfl
  have hs : 0 < kmExample.mtsSlope (kmVals.ct 0 * kmExample.muRef) (tBwd kmExample kmVals 0 2) := by
    have hC : kmVals.ct 0 * kmExample.muRef = 1 := by simp [kmVals, kmExample]
    have hT : tBwd kmExample kmVals 0 2 = -(3 / 4) := by
      norm_num [tBwd, athermal, kmExample, kmVals]
    have e4 : ∀ t : ℝ, kmExample.pFunc t = t := fun t => by simp [KMBalD.pFunc, kmExample]
    have n2 : ¬ ((1 : ℝ) - -(3 / 4) < idpTinySqrt) := by unfold idpTinySqrt; norm_num
    rw [hC, hT]
    unfold KMBalD.mtsSlope KMBalD.mtsDG
    simp only [e4, if_neg n2]
    simp [kmExample]
  obtain ⟨⟨D, hD, hlt⟩, -⟩ := C30_wrong_with_backward_jumps (n := 1) kmExample kmVals 0
    (kmExample_adm 0) true 2 kmExample_inside hs.ne'
  exact ⟨kmExample, kmVals, 2, kmExample_adm 0, hD.differentiableAt, by rw [hD.deriv]; exact hlt hs⟩

end Ecm.Props
