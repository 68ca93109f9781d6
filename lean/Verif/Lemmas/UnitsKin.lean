/- A change of units in the kinetics and in the linear solver: helper lemmas for C75. -/
import Verif.SpecUnits
import Mathlib.LinearAlgebra.Matrix.ToLinearEquiv

namespace Ecm

theorem copysign_pos {σ : ℝ} (hσ : 0 < σ) (a t : ℝ) : copysign a (σ * t) = copysign a t := by
  unfold copysign
  have : σ * t < 0 ↔ t < 0 := by
    constructor
    · intro h; by_contra h2; push Not at h2; linarith [mul_nonneg hσ.le h2]
    · intro h; exact mul_neg_of_pos_of_neg hσ h
  simp only [this]

theorem copysign_smul {c : ℝ} (hc : 0 < c) (a t : ℝ) : copysign (c * a) t = c * copysign a t := by
  unfold copysign
  rw [abs_mul, abs_of_pos hc]
  split_ifs <;> ring

theorem sumabs_smul {n : ℕ} {c : ℝ} (hc : 0 < c) (v : Vec n) : vecsssumabs (fun i => c * v i) = c * vecsssumabs v := by
  simp only [vecsssumabs, abs_mul, abs_of_pos hc, Finset.mul_sum]

/-! ## One-variable hardening -/

theorem updateH1_units (S : Solver 1) (law law' : Law1) {σ θ hO dt : ℝ} (hσ : 0 < σ) (hθ : 0 < θ)
    (hl : ∀ h, law' (σ * h) = (law h).map fun p => (σ * (θ⁻¹ * p.1), θ⁻¹ * p.2))
    (hx : max (σ * hO) 1 = σ * max hO 1) :
    updateH1 S law' (σ * hO) (θ * dt) = (updateH1 S law hO dt).bind fun r => .ok (σ * r.1, r.2) := by
  have hp : (⟨law', σ * hO, θ * dt⟩ : H1Problem).problem = (⟨law, hO, dt⟩ : H1Problem).problem := by
    funext x
    unfold H1Problem.problem H1Problem.computeRJ H1Problem.resScale H1Problem.xScale
    simp only [hx]
    rw [show σ * hO + x 0 * (σ * max hO 1) = σ * (hO + x 0 * max hO 1) by ring, hl]
    have hm : 0 < max hO 1 := lt_of_lt_of_le one_pos (le_max_right _ _)
    cases law (hO + x 0 * max hO 1) with
    | none => rfl
    | some p =>
      simp only [Option.map_some]
      congr 2
      · funext _
        field_simp
      · funext _ _
        field_simp
  unfold updateH1
  simp only [hp]
  split_ifs
  · simp only [Out.bind, H1Problem.getHn, H1Problem.xScale, hx]
    congr 2
    ring
  · rfl

/-! ## Voce -/

theorem Voce.units_evalGdot (k : Voce) {σ θ : ℝ} (hσ : 0 < σ) (hθ : 0 < θ) (g τ : ℝ) :
    ((k.units σ θ).evalGdot (σ * g) (σ * τ)).gdot = θ⁻¹ * (k.evalGdot g τ).gdot ∧
    ((k.units σ θ).evalGdot (σ * g) (σ * τ)).dtau = θ⁻¹ * (σ⁻¹ * (k.evalGdot g τ).dtau) := by
  have hi : (1 / (σ * g)) = σ⁻¹ * (1 / g) := by rw [one_div, one_div, mul_inv]
  have hf : σ * τ * (1 / (σ * g)) = τ * (1 / g) := by rw [hi]; field_simp
  have e1 : (k.units σ θ).tMin = k.tMin := rfl
  have e2 : (k.units σ θ).tMax = k.tMax := rfl
  have e3 : (k.units σ θ).xn = k.xn := rfl
  have e4 : (k.units σ θ).xnn = k.xnn := rfl
  have e5 : (k.units σ θ).gamW = θ⁻¹ * k.gamW := rfl
  simp only [Voce.evalGdot, hf, e1, e2, e3, e4, e5]
  split_ifs
  · refine ⟨?_, by simp⟩
    rw [copysign_pos hσ, mul_left_comm, copysign_smul (inv_pos.2 hθ)]
  · refine ⟨?_, ?_⟩
    · ring
    · rw [hi]; ring
  · simp

theorem Voce.units_evol {n : ℕ} (k : Voce) {σ θ : ℝ} (hθ : 0 < θ) (gdot : Vec n)
    (ht : idpTinySqrt < vecsssumabs gdot ↔ idpTinySqrt < θ⁻¹ * vecsssumabs gdot) :
    (k.units σ θ).getEvolVals (fun i => θ⁻¹ * gdot i)
      = (θ⁻¹ * (k.getEvolVals gdot).1, σ * (k.getEvolVals gdot).2) := by
  have hd : θ⁻¹ * vecsssumabs gdot / (θ⁻¹ * k.gamss0) = vecsssumabs gdot / k.gamss0 :=
    mul_div_mul_left _ _ (inv_pos.2 hθ).ne'
  simp only [Voce.getEvolVals, sumabs_smul (inv_pos.2 hθ), ← ht, Voce.units, hd]
  split_ifs
  · rw [mul_assoc]
  · rfl

theorem Voce.units_sdot (k : Voce) {σ θ : ℝ} (hσ : 0 < σ) (a s h : ℝ) :
    (k.units σ θ).getSdot1 (θ⁻¹ * a, σ * s) (σ * h)
      = (k.getSdot1 (a, s) h).map fun p => (σ * (θ⁻¹ * p.1), θ⁻¹ * p.2) := by
  have e1 : (k.units σ θ).tausi = σ * k.tausi := rfl
  have e2 : (k.units σ θ).h0 = σ * k.h0 := rfl
  have e3 : (k.units σ θ).nonlinear = k.nonlinear := rfl
  have e4 : (k.units σ θ).xmprime1 = k.xmprime1 := rfl
  have e5 : (k.units σ θ).xmprime = k.xmprime := rfl
  have ht : (if σ * s ≤ (k.units σ θ).tausi then 0 else 1 / (σ * s - (k.units σ θ).tausi))
      = σ⁻¹ * (if s ≤ k.tausi then 0 else 1 / (s - k.tausi)) := by
    rw [e1]
    by_cases hc : s ≤ k.tausi
    · rw [if_pos hc, if_pos (mul_le_mul_of_nonneg_left hc hσ.le), mul_zero]
    · rw [if_neg hc, if_neg fun h => hc (le_of_mul_le_mul_left h hσ), ← mul_sub, one_div, one_div, mul_inv]
  have hb : ∀ t : ℝ, (σ * s - σ * h) * (σ⁻¹ * t) = (s - h) * t := by
    intro t
    rw [← mul_sub]; field_simp
  unfold Voce.getSdot1
  simp only
  rw [ht]
  generalize (if s ≤ k.tausi then (0 : ℝ) else 1 / (s - k.tausi)) = t
  rw [hb, e2, e3, e4, e5]
  by_cases hn : k.nonlinear = true
  · rw [if_pos hn, if_pos hn]
    by_cases hc : 0 < (s - h) * t ∨ ((s - h) * t = 0 ∧ 0 ≤ k.xmprime1) ∨ ((s - h) * t < 0 ∧ ∃ z : ℤ, k.xmprime1 = z)
    · rw [if_pos hc, if_pos hc, Option.map_some]
      congr 2
      · field_simp
      · field_simp
    · rw [if_neg hc, if_neg hc]; rfl
  · rw [if_neg hn, if_neg hn, Option.map_some]
    congr 2
    · ring
    · field_simp

/-! ## Dislocation density kinetics -/

section km
variable {nV : ℕ} (k : KMBalD nV) {σ θ : ℝ}

theorem KMBalD.units_xm (hσ : 0 < σ) (i : Fin nV) : (k.units σ θ).xm i = k.xm i := by
  unfold KMBalD.xm
  show 1 / (2 * ((σ⁻¹ * k.c1 i / k.tKRef) * (σ * k.muRef) * k.p * k.q)) = _
  rw [show σ⁻¹ * k.c1 i / k.tKRef * (σ * k.muRef) * k.p * k.q
    = (σ⁻¹ * σ) * (k.c1 i / k.tKRef * k.muRef * k.p * k.q) by ring, inv_mul_cancel₀ hσ.ne', one_mul]

theorem KMBalD.units_mtsDG (cE gI t : ℝ) :
    (k.units σ θ).mtsDG cE (σ⁻¹ * gI) t = ((k.mtsDG cE gI t).1, σ⁻¹ * (k.mtsDG cE gI t).2) := by
  have e1 : (k.units σ θ).pFunc t = k.pFunc t := rfl
  have e2 : (k.units σ θ).pOne = k.pOne := rfl
  have e3 : (k.units σ θ).qOne = k.qOne := rfl
  have e4 : (k.units σ θ).p = k.p := rfl
  have e5 : (k.units σ θ).q = k.q := rfl
  have hd : (if k.pOne then cE * (σ⁻¹ * gI)
      else if |t| < idpTinySqrt then cE * (σ⁻¹ * gI) * 10 ^ 10
      else cE * (σ⁻¹ * gI) * k.p * k.pFunc t / t)
      = σ⁻¹ * (if k.pOne then cE * gI
      else if |t| < idpTinySqrt then cE * gI * 10 ^ 10
      else cE * gI * k.p * k.pFunc t / t) := by
    split_ifs <;> ring
  unfold KMBalD.mtsDG
  simp only
  rw [e1, e2, e3, e4, e5, hd]
  generalize (if k.pOne then cE * gI
      else if |t| < idpTinySqrt then cE * gI * 10 ^ 10
      else cE * gI * k.p * k.pFunc t / t) = dfac
  by_cases hc : 1 - k.pFunc t < idpTinySqrt
  · rw [if_pos hc, if_pos hc]; simp
  rw [if_neg hc, if_neg hc]
  by_cases hq : k.qOne = true
  · rw [if_pos hq, if_pos hq]
  · rw [if_neg hq, if_neg hq, Prod.mk.injEq]
    exact ⟨rfl, by ring⟩

theorem KMBalD.units_drag (gamR e : ℝ) :
    (k.units σ θ).drag (θ⁻¹ * gamR) e = (k.drag gamR e).map fun p => (θ⁻¹ * p.1, θ⁻¹ * (σ⁻¹ * p.2)) := by
  have e1 : ∀ a : ℝ, a / (σ * k.wrD) = σ⁻¹ * (a / k.wrD) := fun a => by
    rw [div_eq_mul_inv, mul_inv, div_eq_mul_inv]; ring
  simp only [KMBalD.drag, KMBalD.units, e1]
  split_ifs <;> simp only [Option.map_some, Option.map_none, Option.some.injEq, Prod.mk.injEq] <;>
    exact ⟨by ring, by ring⟩

theorem KMBalD.units_thermal (hσ : 0 < σ) (hθ : 0 < θ) (gamW cE gI gAth τ : ℝ) :
    (k.units σ θ).thermal (θ⁻¹ * gamW) cE (σ⁻¹ * gI) (σ * gAth) (σ * τ)
      = (k.thermal gamW cE gI gAth τ).map fun p => (θ⁻¹ * p.1, θ⁻¹ * (σ⁻¹ * p.2.1), θ⁻¹ * (σ⁻¹ * p.2.2)) := by
  have ha : |σ * τ| = σ * |τ| := by rw [abs_mul, abs_of_pos hσ]
  have h1 : (σ * |τ| - σ * gAth) * (σ⁻¹ * gI) = (|τ| - gAth) * gI := by rw [← mul_sub]; field_simp
  have h2 : (-(σ * |τ|) - σ * gAth) * (σ⁻¹ * gI) = (-|τ| - gAth) * gI := by
    rw [show -(σ * |τ|) - σ * gAth = σ * (-|τ| - gAth) by ring]; field_simp
  simp only [KMBalD.thermal, ha, h1, h2, KMBalD.units_mtsDG]
  generalize (k.mtsDG cE gI ((|τ| - gAth) * gI)) = m
  generalize (k.mtsDG cE gI ((-|τ| - gAth) * gI)) = mm
  have h3 : (θ⁻¹ * gamW * Real.exp m.1 - θ⁻¹ * gamW * Real.exp mm.1) / (θ⁻¹ * gamW)
      = (gamW * Real.exp m.1 - gamW * Real.exp mm.1) / gamW := by
    rw [show θ⁻¹ * gamW * Real.exp m.1 - θ⁻¹ * gamW * Real.exp mm.1
      = θ⁻¹ * (gamW * Real.exp m.1 - gamW * Real.exp mm.1) by ring, mul_div_mul_left _ _ (inv_pos.2 hθ).ne']
  rw [h3]
  split_ifs <;> simp only [Option.map_some, Option.map_none, Option.some.injEq, Prod.mk.injEq] <;>
    exact ⟨by ring, by ring, by ring⟩

theorem KMBalD.units_sel (hσ : 0 < σ) (hθ : 0 < θ) (gamW gamR g ct xn xnn tMin tMax τ : ℝ) :
    ((k.units σ θ).evalGdotSel (θ⁻¹ * gamW) (θ⁻¹ * gamR) (σ * g) (σ⁻¹ * ct) xn xnn tMin tMax (σ * τ)).gdot
      = θ⁻¹ * (k.evalGdotSel gamW gamR g ct xn xnn tMin tMax τ).gdot ∧
    ((k.units σ θ).evalGdotSel (θ⁻¹ * gamW) (θ⁻¹ * gamR) (σ * g) (σ⁻¹ * ct) xn xnn tMin tMax (σ * τ)).dtau
      = θ⁻¹ * (σ⁻¹ * (k.evalGdotSel gamW gamR g ct xn xnn tMin tMax τ).dtau) := by
  have ha : |σ * τ| = σ * |τ| := by rw [abs_mul, abs_of_pos hσ]
  have hi := inv_pos.2 hθ
  have e1 : (k.units σ θ).withGA = k.withGA := rfl
  have e2 : (k.units σ θ).tauA = σ * k.tauA := rfl
  have e3 : (k.units σ θ).wrD = σ * k.wrD := rfl
  have e4 : σ⁻¹ * ct * (k.units σ θ).muRef = ct * k.muRef := by
    show σ⁻¹ * ct * (σ * k.muRef) = _
    rw [show σ⁻¹ * ct * (σ * k.muRef) = (σ⁻¹ * σ) * (ct * k.muRef) by ring, inv_mul_cancel₀ hσ.ne', one_mul]
  have g1 : (if k.withGA then σ * g else σ * k.tauA) = σ * (if k.withGA then g else k.tauA) := by
    split_ifs <;> rfl
  have g2 : (if k.withGA then 1 / (σ * k.tauA) else 1 / (σ * g))
      = σ⁻¹ * (if k.withGA then 1 / k.tauA else 1 / g) := by
    split_ifs <;> rw [one_div, one_div, mul_inv]
  have c0 : σ * τ = 0 ↔ τ = 0 := by simp [hσ.ne']
  simp only [KMBalD.evalGdotSel, e1, e2, e3, e4, g1, g2, c0, ha]
  generalize (if k.withGA then g else k.tauA) = gAth
  generalize (if k.withGA then 1 / k.tauA else 1 / g) = gI
  have d1 : (σ * |τ| - σ * gAth) / (σ * k.wrD) = (|τ| - gAth) / k.wrD := by
    rw [← mul_sub, mul_div_mul_left _ _ hσ.ne']
  have d2 : max 0 (σ * |τ| - σ * gAth) * (σ⁻¹ * gI) = max 0 (|τ| - gAth) * gI := by
    rw [← mul_sub, show max 0 (σ * (|τ| - gAth)) = σ * max 0 (|τ| - gAth) by
      rw [mul_max_of_nonneg _ _ hσ.le, mul_zero]]
    field_simp
  rw [d1, d2, KMBalD.units_drag, KMBalD.units_thermal k hσ hθ]
  generalize max 0 (|τ| - gAth) * gI = at0
  by_cases h0 : k.withGA = false ∧ τ = 0
  · simp [h0]
  simp only [if_neg h0]
  cases k.drag gamR ((|τ| - gAth) / k.wrD) with
  | none => simp
  | some r =>
    obtain ⟨gR, dR⟩ := r
    simp only [Option.map_some]
    by_cases h1 : tMax < at0
    · simp only [if_pos h1]
      exact ⟨by rw [copysign_pos hσ, copysign_smul hi], trivial⟩
    simp only [if_neg h1]
    cases k.thermal gamW (ct * k.muRef) gI gAth τ with
    | none => simp
    | some p =>
      obtain ⟨gw0, dgw0, dgwg0⟩ := p
      simp only [Option.map_some]
      have w1 : (if tMin < at0 then θ⁻¹ * gw0 + θ⁻¹ * gamW * 10 * Real.exp (xn * Real.log at0) * at0 else θ⁻¹ * gw0)
          = θ⁻¹ * (if tMin < at0 then gw0 + gamW * 10 * Real.exp (xn * Real.log at0) * at0 else gw0) := by
        split_ifs <;> ring
      have w2 : (if tMin < at0 then θ⁻¹ * (σ⁻¹ * dgw0) + θ⁻¹ * gamW * 10 * Real.exp (xn * Real.log at0) * xnn * (σ⁻¹ * gI)
            else θ⁻¹ * (σ⁻¹ * dgw0))
          = θ⁻¹ * (σ⁻¹ * (if tMin < at0 then dgw0 + gamW * 10 * Real.exp (xn * Real.log at0) * xnn * gI else dgw0)) := by
        split_ifs <;> ring
      simp only [w1, w2]
      generalize (if tMin < at0 then gw0 + gamW * 10 * Real.exp (xn * Real.log at0) * at0 else gw0) = gw
      generalize (if tMin < at0 then dgw0 + gamW * 10 * Real.exp (xn * Real.log at0) * xnn * gI else dgw0) = dgw
      have q1 : ∀ a : ℝ, 1 / (θ⁻¹ * a) = θ * (1 / a) := fun a => by rw [one_div, mul_inv, inv_inv, one_div]
      have q2 : 1 / (1 / (θ⁻¹ * gw) + 1 / (θ⁻¹ * gR)) = θ⁻¹ * (1 / (1 / gw + 1 / gR)) := by
        rw [q1, q1, ← mul_add, one_div, mul_inv, one_div (1 / gw + 1 / gR)]
      have q3 : ∀ a : ℝ, 1 / (θ⁻¹ * a * (θ⁻¹ * a)) = θ * θ * (1 / (a * a)) := fun a => by
        rw [show θ⁻¹ * a * (θ⁻¹ * a) = θ⁻¹ * (θ⁻¹ * (a * a)) by ring, q1, q1]; ring
      rw [q2, q3, q3]
      refine ⟨by rw [copysign_pos hσ, copysign_smul hi], ?_⟩
      generalize 1 / (1 / gw + 1 / gR) = G
      generalize 1 / (gw * gw) = A
      generalize 1 / (gR * gR) = B
      field_simp

theorem KMBalD.units_getVals (hσ : 0 < σ) (tK : ℝ) (h : Vec 1) :
    (k.units σ θ).getVals tK h = (k.getVals tK h).bind fun r =>
      .ok (⟨θ⁻¹ * r.1.gamW, θ⁻¹ * r.1.gamR, fun i => σ * r.1.g i, fun i => σ⁻¹ * r.1.ct i⟩, σ * r.2) := by
  have hg : ∀ i, (k.units σ θ).go i + (k.units σ θ).s i * Real.sqrt (h 0) = σ * (k.go i + k.s i * Real.sqrt (h 0)) :=
    fun i => by show σ * k.go i + σ * k.s i * _ = _; ring
  have hp : ∀ x : ℝ, σ * x ≤ 0 ↔ x ≤ 0 := fun x => by
    constructor
    · intro h; by_contra h2; push Not at h2; linarith [mul_pos hσ h2]
    · intro h; exact mul_nonpos_of_nonneg_of_nonpos hσ.le h
  have e1 : (k.units σ θ).withGA = k.withGA := rfl
  have e2 : (k.units σ θ).tauA = σ * k.tauA := rfl
  simp only [KMBalD.getVals, hg, e1, e2, hp]
  split_ifs
  · rfl
  · rfl
  · rfl
  · rfl
  · simp only [Out.bind]
    congr 2
    · congr 1
      · show θ⁻¹ * k.gamWo / _ = _; ring
      · show θ⁻¹ * k.gamRo * _ * _ = _; ring
      · funext i; show σ⁻¹ * k.c1 i / tK = _; ring
    · rw [← Finset.mul_sum]; ring

theorem KMBalD.units_evol {n : ℕ} (hθ : 0 < θ) (gdot : Vec n)
    (ht : idpTinySqrt < vecsssumabs gdot ↔ idpTinySqrt < θ⁻¹ * vecsssumabs gdot) :
    (k.units σ θ).getEvolVals (fun i => θ⁻¹ * gdot i)
      = (θ⁻¹ * (k.getEvolVals gdot).1, (k.getEvolVals gdot).2) := by
  have hd : θ⁻¹ * k.gammaO / (θ⁻¹ * vecsssumabs gdot) = k.gammaO / vecsssumabs gdot :=
    mul_div_mul_left _ _ (inv_pos.2 hθ).ne'
  simp only [KMBalD.getEvolVals, sumabs_smul (inv_pos.2 hθ), ← ht, KMBalD.units, hd]

theorem KMBalD.units_sdot (a b h : ℝ) :
    (k.units σ θ).getSdot1 (θ⁻¹ * a, b) (1 * h)
      = (k.getSdot1 (a, b) h).map fun p => (1 * (θ⁻¹ * p.1), θ⁻¹ * p.2) := by
  simp only [KMBalD.getSdot1, one_mul, Option.map_some, KMBalD.units]
  congr 2 <;> ring

end km

/-! ## The linear solver -/

theorem lup_one (L : LUP) : LupUnits L 1 := by
  intro A B _
  have h1 : (fun i j => (if i.val < 5 then (1 : ℝ)⁻¹ else 1) * A i j) = A := by
    funext i j; simp
  rw [h1]
  cases L A B with
  | none => rfl
  | some X =>
    simp only [Option.map_some]
    congr 1
    funext i j
    simp [matScale]

theorem lup_exact (L : LUP) (hs : L.Sound) (hd : ∀ A B, L A B = none ↔ A.det = 0) {θ : ℝ} (hθ : 0 < θ) :
    LupUnits L θ := by
  intro A B hB
  set D : Fin 8 → ℝ := fun i => if i.val < 5 then θ⁻¹ else 1 with hD
  have hA : (fun i j => (if i.val < 5 then θ⁻¹ else 1) * A i j) = Matrix.diagonal D * A := by
    funext i j; rw [Matrix.diagonal_mul]
  have hDpos : ∀ i, 0 < D i := fun i => by
    simp only [hD]; split_ifs
    · exact inv_pos.2 hθ
    · exact one_pos
  have hdet : (Matrix.diagonal D * A).det = 0 ↔ A.det = 0 := by
    rw [Matrix.det_mul, Matrix.det_diagonal]
    have := Finset.prod_pos (s := Finset.univ) fun i _ => hDpos i
    simp [this.ne']
  rw [hA]
  by_cases h0 : A.det = 0
  · rw [(hd _ _).2 h0, (hd _ _).2 (hdet.2 h0)]; rfl
  obtain ⟨X, hX⟩ := Option.ne_none_iff_exists'.1 fun h => h0 ((hd A B).1 h)
  obtain ⟨Y, hY⟩ := Option.ne_none_iff_exists'.1 fun h => h0 (hdet.1 ((hd (Matrix.diagonal D * A) B).1 h))
  rw [hX, hY, Option.map_some]
  congr 1
  funext j
  have hz : A.mulVec (fun k => Y j k - θ * X j k) = 0 := by
    funext i
    have h1 := hs _ _ _ hX j i
    have h2 := hs _ _ _ hY j i
    simp only [Matrix.diagonal_mul] at h2
    have h3 : D i * ∑ k, A i k * Y j k = B j i := by
      rw [← h2, Finset.mul_sum]
      exact Finset.sum_congr rfl fun k _ => by ring
    show ∑ k, A i k * (Y j k - θ * X j k) = 0
    rw [show ∑ k, A i k * (Y j k - θ * X j k) = ∑ k, A i k * Y j k - θ * ∑ k, A i k * X j k by
      rw [Finset.mul_sum, ← Finset.sum_sub_distrib]
      exact Finset.sum_congr rfl fun k _ => by ring]
    rw [h1]
    by_cases hi : i.val < 5
    · have : D i = θ⁻¹ := by simp [hD, hi]
      rw [this] at h3
      rw [← h3]; field_simp; ring
    · have : D i = 1 := by simp [hD, hi]
      rw [this, one_mul] at h3
      rw [h3, hB j i (by omega)]; ring
  have := Matrix.eq_zero_of_mulVec_eq_zero h0 hz
  funext k
  have h4 := congrFun this k
  simp only [Pi.zero_apply] at h4
  show Y j k = θ * X j k
  linarith

end Ecm
