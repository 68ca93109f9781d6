/- Helper lemmas for C83: from half the reference temperature on, the slip law of the dislocation kinetics lies within
   2e-22 reference rates of the documented law at every stress, and the documented law is continuous and rises with the
   stress. -/
import Verif.Props.KMLaw

namespace Ecm.Props
open Ecm KMBalD

variable {nV : ℕ}

theorem spow_of_pos {p t : ℝ} (ht : 0 < t) : spow p t = t ^ p := by
  unfold spow; rw [if_neg (not_lt.2 ht.le), abs_of_pos ht]

theorem spow_neg {p t : ℝ} (ht : t < 0) : spow p t < 0 := by
  unfold spow; rw [if_pos ht]
  have := Real.rpow_pos_of_pos (abs_pos.2 ht.ne) p
  linarith

/-- where there is a barrier left, the power law is below the Boltzmann factor, and below `t ^ p` -/
theorem power_le_exp {k : KMBalD nV} {j : Fin nV} (h : KMParams k j) {T t : ℝ} (hT : 0 < T)
    (hT2 : k.tKRef ≤ 2 * T) (hA1 : 1 ≤ kmA k j T) (ht : 0 < t) (hs : spow k.p t < 1) :
    t ^ kmN k j ≤ Real.exp (-kmDG (kmA k j T) k.p k.q t) ∧ t ^ kmN k j ≤ t ^ k.p := by
  have hsp := spow_of_pos (p := k.p) ht
  have hs' := hs
  rw [hsp] at hs'
  have htp : 0 < t ^ k.p := Real.rpow_pos_of_pos ht _
  have hlog : k.p * Real.log t < 0 := by
    rw [← Real.log_rpow ht]; exact Real.log_neg htp hs'
  have h1 : k.p * Real.log t ≤ -(1 - t ^ k.p) := by
    have := Real.log_le_sub_one_of_pos htp
    rw [Real.log_rpow ht] at this
    linarith
  have h2 : (1 - t ^ k.p) ^ k.q ≤ 1 - t ^ k.p := by
    have := Real.rpow_le_rpow_of_exponent_ge (x := 1 - t ^ k.p) (by linarith) (by linarith) h.q
    rwa [Real.rpow_one] at this
  have e : kmN k j = (2 * T / k.tKRef) * k.q * kmA k j T * k.p := by
    unfold kmN kmA
    have := h.tK.ne'; have := hT.ne'
    field_simp
  have hr : 1 ≤ 2 * T / k.tKRef := by rw [le_div_iff₀ h.tK]; linarith
  have h4 : 1 ≤ 2 * T / k.tKRef * k.q := by nlinarith [h.q]
  have hA0 : 0 < kmA k j T := by linarith
  have hpl := Real.rpow_def_of_pos ht
  constructor
  · rw [hpl, Real.exp_le_exp]
    unfold kmDG
    rw [if_pos hs, hsp]
    have h5 : kmA k j T * (k.p * Real.log t) ≤ -(kmA k j T * (1 - t ^ k.p) ^ k.q) := by
      have := mul_le_mul_of_nonneg_left (h1.trans (neg_le_neg h2)) hA0.le
      linarith
    have h6 : kmA k j T * (k.p * Real.log t) < 0 := mul_neg_of_pos_of_neg hA0 hlog
    have e2 : Real.log t * kmN k j = 2 * T / k.tKRef * k.q * (kmA k j T * (k.p * Real.log t)) := by rw [e]; ring
    rw [e2]
    nlinarith
  · rw [hpl, hpl, Real.exp_le_exp]
    have e2 : Real.log t * kmN k j = (2 * T / k.tKRef * k.q * kmA k j T) * (k.p * Real.log t) := by rw [e]; ring
    have h7 : 1 ≤ 2 * T / k.tKRef * k.q * kmA k j T := by nlinarith
    rw [e2]
    nlinarith

theorem exp_sub_le {x y : ℝ} (hx : x ≤ 0) (hxy : y ≤ x) : Real.exp x - Real.exp y ≤ x - y := by
  have e : Real.exp y = Real.exp x * Real.exp (y - x) := by rw [← Real.exp_add]; congr 1; ring
  have h1 : Real.exp x ≤ 1 := Real.exp_le_one_iff.2 hx
  have h2 := Real.add_one_le_exp (y - x)
  have h3 := Real.exp_pos x
  rw [e]
  nlinarith

/-- the barrier of the code against the documented one, for stresses that are not replaced by zero -/
theorem mtsDG_near (k : KMBalD nV) (hp1 : k.pOne = true → k.p = 1) (hq1 : k.qOne = true → k.q = 1) (hq : 1 ≤ k.q)
    {A d t : ℝ} (hA0 : 0 ≤ A) (hA : A ≤ 10 ^ 20) (ht : 1 / 10 ^ 90 ≤ |t|) :
    (k.mtsDG A d t).1 ≤ 0 ∧ -kmDG A k.p k.q t ≤ (k.mtsDG A d t).1 ∧
      (k.mtsDG A d t).1 + kmDG A k.p k.q t ≤ 1 / 10 ^ 70 := by
  by_cases ho : Ordinary k t
  · rw [mtsDG_spec k hp1 hq1 ho]
    have := kmDG_nonneg (p := k.p) (q := k.q) (t := t) hA0
    refine ⟨by linarith, le_refl _, ?_⟩
    rw [neg_add_cancel]; norm_num
  · have h2 : 0 < 1 - spow k.p t ∧ 1 - spow k.p t < 1 / 10 ^ 90 := by
      unfold Ordinary at ho
      push Not at ho
      exact ho (Or.inr ht)
    have e : (k.mtsDG A d t).1 = 0 := by
      rw [mtsDG_fst, pFunc_spow k hp1 (Or.inr ht)]
      unfold KMBalD.qPow
      rw [tiny_eq, if_pos h2.2]; simp
    have h3 : kmDG A k.p k.q t ≤ 1 / 10 ^ 70 := by
      unfold kmDG
      rw [if_pos (by linarith)]
      have h4 : (1 - spow k.p t) ^ k.q ≤ 1 - spow k.p t := by
        have h5 : (1 : ℝ) / 10 ^ 90 ≤ 1 := by norm_num
        have := Real.rpow_le_rpow_of_exponent_ge (x := 1 - spow k.p t) h2.1 (by linarith) hq
        rwa [Real.rpow_one] at this
      have h5 : (1 - spow k.p t) ^ k.q ≤ 1 / 10 ^ 90 := h4.trans h2.2.le
      have h6 : 0 ≤ (1 - spow k.p t) ^ k.q := Real.rpow_nonneg h2.1.le _
      calc A * (1 - spow k.p t) ^ k.q ≤ 10 ^ 20 * (1 / 10 ^ 90) := mul_le_mul hA h5 h6 (by norm_num)
        _ = 1 / 10 ^ 70 := by norm_num
    have h4 := kmDG_nonneg (p := k.p) (q := k.q) (t := t) hA0
    rw [e]
    exact ⟨le_refl _, by linarith, by linarith⟩

theorem one_sub_exp_ge {u : ℝ} (h0 : 0 ≤ u) (h1 : u ≤ 1) : u / 2 ≤ 1 - Real.exp (-u) := by
  have h2 : Real.exp (-u) ≤ 1 / (1 + u) := by
    rw [Real.exp_neg, ← one_div]
    apply one_div_le_one_div_of_le (by linarith)
    have := Real.add_one_le_exp u; linarith
  have h3 : 1 / (1 + u) ≤ 1 - u / 2 := by
    rw [div_le_iff₀ (by linarith)]; nlinarith
  linarith

/-- the power-law part of the code against the documented one -/
theorem addPower_near {k : KMBalD nV} {j : Fin nV} (h : KMParams k j) {γw gI gAth a : ℝ} (hγ : 0 < γw)
    (hg : 0 < gI) (hpos : 0 < a - gAth) (w : ℝ) :
    |addPower γw gI gAth (k.xn j) (k.tMin j) a w - (w + 10 * γw * ((a - gAth) * gI) ^ kmN k j)|
      ≤ 10 / 10 ^ 60 * γw := by
  have hn := kmN_pos h
  have htp : 0 < (a - gAth) * gI := mul_pos hpos hg
  rw [addPower_eq htp hpos, kmXnn]
  set t := (a - gAth) * gI
  have hpow0 : 0 ≤ t ^ kmN k j := Real.rpow_nonneg htp.le _
  split_ifs with hc
  · have e : w + γw * 10 * t ^ kmN k j - (w + 10 * γw * t ^ kmN k j) = 0 := by ring
    rw [e, abs_zero]; positivity
  · have h1 : t ^ kmN k j ≤ 1 / 10 ^ 60 := by
      have h2 := Real.rpow_le_rpow htp.le (not_lt.1 hc) hn.le
      have h3 : k.tMin j ^ kmN k j = 1 / 10 ^ 60 := by
        unfold KMBalD.tMin
        rw [kmXm, ← Real.rpow_mul gamRatioMin_pos.le, one_div_mul_cancel hn.ne', Real.rpow_one]
        unfold gamRatioMin; norm_num
      exact h2.trans h3.le
    have e : w - (w + 10 * γw * t ^ kmN k j) = -(10 * γw * t ^ kmN k j) := by ring
    rw [e, abs_neg, abs_of_nonneg (by positivity)]
    nlinarith

set_option maxHeartbeats 1000000 in
/-- the activated rate of the code against the documented one, at every stress that is not replaced by zero -/
theorem act_near {k : KMBalD nV} {j : Fin nV} (h : KMParams k j) {T γw gI gAth a : ℝ} (hT : 0 < T)
    (hT2 : k.tKRef ≤ 2 * T) (hγ : 0 < γw) (hg : 0 < gI) (hath : 0 ≤ gAth) (hpos : 0 < a - gAth)
    (ht90 : 1 / 10 ^ 90 ≤ (a - gAth) * gI) (hA1 : 1 ≤ kmA k j T) (hA2 : kmA k j T ≤ 10 ^ 20) :
    (k.thermal γw (kmA k j T) gI gAth a = none →
      kmActivated γw (kmA k j T) k.p k.q (kmN k j) ((a - gAth) * gI) ((-a - gAth) * gI) ≤ 1 / 10 ^ 28 * γw) ∧
    ∀ w, k.thermal γw (kmA k j T) gI gAth a = some w →
      |addPower γw gI gAth (k.xn j) (k.tMin j) a w.1 -
        kmActivated γw (kmA k j T) k.p k.q (kmN k j) ((a - gAth) * gI) ((-a - gAth) * gI)|
        ≤ 1 / 10 ^ 28 * γw := by
  have hA0 : 0 < kmA k j T := by linarith
  have ha : 0 < a := by linarith
  have habs : |a| = a := abs_of_pos ha
  have htp : 0 < (a - gAth) * gI := mul_pos hpos hg
  have htm : (-a - gAth) * gI ≤ -((a - gAth) * gI) := by nlinarith
  have htm0 : (-a - gAth) * gI < 0 := by linarith
  obtain ⟨f1, f2, f3⟩ := mtsDG_near k h.pOne h.qOne h.q (A := kmA k j T) (d := gI) hA0.le hA2
    (ht90.trans (le_abs_self _))
  have hom : Ordinary k ((-a - gAth) * gI) := by
    constructor
    · right
      rw [abs_of_neg htm0]; linarith
    · right
      have := spow_neg (p := k.p) htm0
      have h5 : (1 : ℝ) / 10 ^ 90 ≤ 1 := by norm_num
      linarith
  have eB := mtsDG_spec k h.pOne h.qOne (A := kmA k j T) (d := gI) hom
  have hadd := addPower_near h hγ hg hpos
  have hcutF : ∀ G : ℝ, 13816 / 100 ≤ G → Real.exp (-G) ≤ 1 / 10 ^ 60 := fun G hG =>
    (Real.exp_le_exp.2 (by linarith)).trans exp_cut
  have hpe := fun hs => power_le_exp h hT hT2 hA1 htp hs
  -- the barrier against the stress
  have hGb : kmA k j T ≤ kmDG (kmA k j T) k.p k.q ((-a - gAth) * gI) := by
    have hsn := spow_neg (p := k.p) htm0
    unfold kmDG
    rw [if_pos (by linarith)]
    have : (1 : ℝ) ≤ (1 - spow k.p ((-a - gAth) * gI)) ^ k.q :=
      Real.one_le_rpow (by linarith) (one_pos.le.trans h.q)
    nlinarith
  have hGd : ∀ hs : spow k.p ((a - gAth) * gI) < 1,
      kmDG (kmA k j T) k.p k.q ((a - gAth) * gI) + ((a - gAth) * gI) ^ k.p
        ≤ kmDG (kmA k j T) k.p k.q ((-a - gAth) * gI) := by
    intro hs
    refine le_trans ?_ hGb
    have hs' := hs
    rw [spow_of_pos htp] at hs'
    have hu : 0 < ((a - gAth) * gI) ^ k.p := Real.rpow_pos_of_pos htp _
    have h2 : (1 - ((a - gAth) * gI) ^ k.p) ^ k.q ≤ 1 - ((a - gAth) * gI) ^ k.p := by
      have := Real.rpow_le_rpow_of_exponent_ge (x := 1 - ((a - gAth) * gI) ^ k.p) (by linarith) (by linarith) h.q
      rwa [Real.rpow_one] at this
    unfold kmDG
    rw [if_pos hs, spow_of_pos htp]
    nlinarith
  have hF0 : ∀ hs : ¬ spow k.p ((a - gAth) * gI) < 1, kmDG (kmA k j T) k.p k.q ((a - gAth) * gI) = 0 := by
    intro hs; unfold kmDG; rw [if_neg hs]
  unfold kmActivated
  simp only [thermal, habs, eB]
  set t := (a - gAth) * gI with ht
  set tm := (-a - gAth) * gI with htmd
  set Gf := kmDG (kmA k j T) k.p k.q t with hGfd
  set Gb := kmDG (kmA k j T) k.p k.q tm with hGbd
  set mf := (k.mtsDG (kmA k j T) gI t).1 with hmf
  have hpow0 : 0 ≤ t ^ kmN k j := Real.rpow_nonneg htp.le _
  have hB0 := Real.exp_pos (-Gb)
  have hE1 : Real.exp (-Gf) ≤ Real.exp mf := Real.exp_le_exp.2 f2
  have hE2 : Real.exp mf - Real.exp (-Gf) ≤ 1 / 10 ^ 70 := (exp_sub_le f1 f2).trans (by linarith)
  constructor
  · intro hnone
    split_ifs at hnone with h1 h2 h3
    · unfold lnGamRatioMin at h1
      by_cases hs : spow k.p t < 1
      · have h4 := (hpe hs).1
        have h5 := hcutF (-mf) (by linarith)
        rw [neg_neg] at h5
        have h6 : Real.exp (-Gf) ≤ 1 / 10 ^ 60 := hE1.trans h5
        have h7 : t ^ kmN k j ≤ 1 / 10 ^ 60 := h4.trans h6
        nlinarith
      · exfalso
        rw [hF0 hs] at f2
        linarith
    · have e : (γw * Real.exp mf - γw * Real.exp (-Gb)) / γw = Real.exp mf - Real.exp (-Gb) := by
        field_simp
      rw [e] at h3
      have h4 : Real.exp mf - Real.exp (-Gb) < 1 / 10 ^ 60 := by
        have := (le_abs_self _).trans_lt h3
        refine this.trans_eq ?_
        unfold gamRatioMin; norm_num
      have h5 : Real.exp (-Gf) - Real.exp (-Gb) < 1 / 10 ^ 60 := by linarith
      by_cases hs : spow k.p t < 1
      · obtain ⟨p1, p2⟩ := hpe hs
        have hs' := hs
        rw [spow_of_pos htp] at hs'
        have hu : 0 < t ^ k.p := Real.rpow_pos_of_pos htp _
        have h6 : Real.exp (-Gb) ≤ Real.exp (-Gf) * Real.exp (-(t ^ k.p)) := by
          rw [← Real.exp_add, Real.exp_le_exp]
          have := hGd hs
          linarith
        have h7 := one_sub_exp_ge hu.le hs'.le
        have h8 : Real.exp (-Gf) * (t ^ k.p / 2) ≤ 1 / 10 ^ 60 := by
          have := mul_le_mul_of_nonneg_left h7 (Real.exp_pos (-Gf)).le
          linarith
        have h9 : t ^ kmN k j * t ^ kmN k j ≤ 2 / 10 ^ 60 := by
          have := mul_le_mul p1 p2 hpow0 (Real.exp_pos (-Gf)).le
          linarith
        have h10 : t ^ kmN k j ≤ 2 / 10 ^ 30 := by
          apply abs_le_of_sq_le_sq' _ (by norm_num) |>.2
          rw [sq]
          refine h9.trans ?_
          norm_num
        nlinarith
      · exfalso
        rw [hF0 hs, neg_zero, Real.exp_zero] at h5
        have h6 : Real.exp (-Gb) ≤ Real.exp (-1) := Real.exp_le_exp.2 (by linarith)
        have h7 := one_sub_exp_ge (u := 1) zero_le_one le_rfl
        have h8 : (1 : ℝ) / 10 ^ 60 < 1 / 2 := by norm_num
        linarith
  · intro w hw
    have key : ∀ w1 : ℝ, |w1 - γw * (Real.exp (-Gf) - Real.exp (-Gb))| ≤ 2 / 10 ^ 60 * γw →
        |addPower γw gI gAth (k.xn j) (k.tMin j) a w1 - (γw * (Real.exp (-Gf) - Real.exp (-Gb))
          + 10 * γw * t ^ kmN k j)| ≤ 1 / 10 ^ 28 * γw := by
      intro w1 hw1
      have h1 := abs_le.1 (hadd w1)
      have h2 := abs_le.1 hw1
      rw [abs_le]
      constructor <;> nlinarith [h1.1, h1.2, h2.1, h2.2]
    have h70 : γw * (Real.exp mf - Real.exp (-Gf)) ≤ 1 / 10 ^ 70 * γw := by nlinarith
    have h71 : 0 ≤ γw * (Real.exp mf - Real.exp (-Gf)) := mul_nonneg hγ.le (by linarith)
    split_ifs at hw with h1 h2 h3
    · simp only [Option.some.injEq] at hw
      rw [← hw]
      refine key _ ?_
      rw [abs_le]
      constructor <;> nlinarith
    · simp only [Option.some.injEq] at hw
      rw [← hw]
      refine key _ ?_
      have h4 : Real.exp (-Gb) ≤ 1 / 10 ^ 60 := hcutF Gb (by unfold lnGamRatioMin at h2; linarith)
      have h5 : γw * Real.exp (-Gb) ≤ 1 / 10 ^ 60 * γw := by nlinarith
      have h6 : 0 < γw * Real.exp (-Gb) := mul_pos hγ hB0
      rw [abs_le]
      constructor <;> nlinarith

/-! ### The documented law is continuous and rises with the stress -/

theorem spow_continuous {p : ℝ} (hp : 0 < p) : Continuous (spow p) := by
  have e : spow p = fun t => if 0 ≤ t then |t| ^ p else -(|t| ^ p) := by
    funext t
    unfold spow
    by_cases h : t < 0
    · rw [if_pos h, if_neg (not_le.2 h)]
    · rw [if_neg h, if_pos (not_lt.1 h)]
  have hc : Continuous fun t : ℝ => |t| ^ p := continuous_abs.rpow_const fun _ => Or.inr hp.le
  rw [e]
  refine Continuous.if_le hc hc.neg continuous_const continuous_id fun t ht => ?_
  have : t = 0 := ht.symm
  subst this
  simp [hp.ne']

theorem kmDG_continuous {A p q : ℝ} (hp : 0 < p) (hq : 0 < q) : Continuous (kmDG A p q) := by
  have e : kmDG A p q = fun t => A * (max 0 (1 - spow p t)) ^ q := by
    funext t
    unfold kmDG
    split_ifs with h
    · rw [max_eq_right (by linarith)]
    · rw [max_eq_left (by linarith), Real.zero_rpow hq.ne', mul_zero]
  rw [e]
  exact continuous_const.mul ((continuous_const.max (continuous_const.sub (spow_continuous hp))).rpow_const
    fun _ => Or.inr hq.le)

/-- what is needed of the resistances for the law to make sense -/
structure KMState (k : KMBalD nV) (j : Fin nV) (T ρ : ℝ) : Prop where
  par : KMParams k j
  temp : 0 < T
  dens : 0 < ρ
  ath : 0 ≤ kmAth k j ρ
  bar : 0 < kmBar k j ρ

/-- the activated rate at resolved stress `τ` -/
noncomputable def kmWact (k : KMBalD nV) (j : Fin nV) (T ρ τ : ℝ) : ℝ :=
  kmActivated (kmGamW k ρ) (kmA k j T) k.p k.q (kmN k j) (kmT k j ρ τ) (kmTm k j ρ τ)
/-- the drag limited rate at resolved stress `τ` -/
noncomputable def kmRdrag (k : KMBalD nV) (j : Fin nV) (ρ τ : ℝ) : ℝ :=
  kmDrag (kmGamR k ρ) k.wrD (|τ| - kmAth k j ρ)

theorem kmLaw_eq (k : KMBalD nV) (j : Fin nV) (T ρ τ : ℝ) : kmLaw k j T ρ τ = open Classical in
    if |τ| ≤ kmAth k j ρ then 0
    else kmWact k j T ρ τ * kmRdrag k j ρ τ / (kmWact k j T ρ τ + kmRdrag k j ρ τ) := rfl

namespace KMState
variable {k : KMBalD nV} {j : Fin nV} {T ρ : ℝ}

theorem gamW (h : KMState k j T ρ) : 0 < kmGamW k ρ := div_pos h.par.w (Real.sqrt_pos.2 h.dens)
theorem gamR (h : KMState k j T ρ) : 0 < kmGamR k ρ := mul_pos h.par.r h.dens
theorem A (h : KMState k j T ρ) : 0 < kmA k j T := div_pos h.par.c h.temp
theorem q (h : KMState k j T ρ) : 0 < k.q := one_pos.trans_le h.par.q

theorem jumps (h : KMState k j T ρ) (τ : ℝ) : 0 ≤ Real.exp (-kmDG (kmA k j T) k.p k.q (kmT k j ρ τ)) -
    Real.exp (-kmDG (kmA k j T) k.p k.q (kmTm k j ρ τ)) := by
  have h1 : kmTm k j ρ τ ≤ kmT k j ρ τ :=
    div_le_div_of_nonneg_right (by linarith [abs_nonneg τ]) h.bar.le
  have := Real.exp_le_exp.2 (neg_le_neg (kmDG_anti (q := k.q) h.A.le h.par.p h.q h1))
  linarith

theorem kmT_pos (h : KMState k j T ρ) {τ : ℝ} (hτ : kmAth k j ρ < |τ|) : 0 < kmT k j ρ τ :=
  div_pos (by linarith) h.bar

theorem W_ge (h : KMState k j T ρ) (τ : ℝ) :
    10 * kmGamW k ρ * kmT k j ρ τ ^ kmN k j ≤ kmWact k j T ρ τ := by
  unfold kmWact kmActivated
  have := mul_nonneg h.gamW.le (h.jumps τ)
  linarith

theorem W_pos (h : KMState k j T ρ) {τ : ℝ} (hτ : kmAth k j ρ < |τ|) : 0 < kmWact k j T ρ τ := by
  refine lt_of_lt_of_le ?_ (h.W_ge τ)
  have := Real.rpow_pos_of_pos (h.kmT_pos hτ) (kmN k j)
  have := h.gamW
  positivity

theorem R_pos (h : KMState k j T ρ) {τ : ℝ} (hτ : kmAth k j ρ < |τ|) : 0 < kmRdrag k j ρ τ := by
  unfold kmRdrag kmDrag
  have h1 : 0 < (|τ| - kmAth k j ρ) / k.wrD := div_pos (by linarith) h.par.D
  have : Real.exp (-((|τ| - kmAth k j ρ) / k.wrD)) < 1 := by rw [Real.exp_lt_one_iff]; linarith
  exact mul_pos h.gamR (by linarith)

theorem R_le (h : KMState k j T ρ) (τ : ℝ) : kmRdrag k j ρ τ ≤ kmGamR k ρ := by
  unfold kmRdrag kmDrag
  nlinarith [Real.exp_pos (-((|τ| - kmAth k j ρ) / k.wrD)), h.gamR]

theorem R_le_lin (h : KMState k j T ρ) (τ : ℝ) :
    kmRdrag k j ρ τ ≤ kmGamR k ρ * ((|τ| - kmAth k j ρ) / k.wrD) := by
  unfold kmRdrag kmDrag
  have := Real.add_one_le_exp (-((|τ| - kmAth k j ρ) / k.wrD))
  exact mul_le_mul_of_nonneg_left (by linarith) h.gamR.le

theorem law_harm (h : KMState k j T ρ) {τ : ℝ} (hτ : kmAth k j ρ < |τ|) :
    kmLaw k j T ρ τ = harm (kmWact k j T ρ τ) (kmRdrag k j ρ τ) := by
  rw [kmLaw_eq, if_neg (not_le.2 hτ), harm_eq (h.W_pos hτ) (h.R_pos hτ)]

theorem law_zero {τ : ℝ} (hτ : |τ| ≤ kmAth k j ρ) : kmLaw k j T ρ τ = 0 := by
  rw [kmLaw_eq, if_pos hτ]

theorem law_nonneg (h : KMState k j T ρ) (τ : ℝ) : 0 ≤ kmLaw k j T ρ τ := by
  rcases le_or_gt |τ| (kmAth k j ρ) with hτ | hτ
  · rw [law_zero hτ]
  · rw [h.law_harm hτ]; exact (harm_pos (h.W_pos hτ) (h.R_pos hτ)).le

theorem W_mono (h : KMState k j T ρ) {τ σ : ℝ} (hτ : kmAth k j ρ < |τ|) (hτσ : |τ| ≤ |σ|) :
    kmWact k j T ρ τ ≤ kmWact k j T ρ σ := by
  have h1 : kmT k j ρ τ ≤ kmT k j ρ σ := div_le_div_of_nonneg_right (by linarith) h.bar.le
  have h2 : kmTm k j ρ σ ≤ kmTm k j ρ τ := div_le_div_of_nonneg_right (by linarith) h.bar.le
  have e1 := Real.exp_le_exp.2 (neg_le_neg (kmDG_anti (q := k.q) h.A.le h.par.p h.q h1))
  have e2 := Real.exp_le_exp.2 (neg_le_neg (kmDG_anti (q := k.q) h.A.le h.par.p h.q h2))
  have e3 := Real.rpow_le_rpow (h.kmT_pos hτ).le h1 (kmN_pos h.par).le
  unfold kmWact kmActivated
  have := h.gamW
  nlinarith

theorem R_mono (h : KMState k j T ρ) {τ σ : ℝ} (hτσ : |τ| ≤ |σ|) : kmRdrag k j ρ τ ≤ kmRdrag k j ρ σ := by
  unfold kmRdrag kmDrag
  refine mul_le_mul_of_nonneg_left ?_ h.gamR.le
  have : (|τ| - kmAth k j ρ) / k.wrD ≤ (|σ| - kmAth k j ρ) / k.wrD :=
    div_le_div_of_nonneg_right (by linarith) h.par.D.le
  have := Real.exp_le_exp.2 (neg_le_neg this)
  linarith

theorem law_mono (h : KMState k j T ρ) {τ σ : ℝ} (hτσ : |τ| ≤ |σ|) : kmLaw k j T ρ τ ≤ kmLaw k j T ρ σ := by
  rcases le_or_gt |τ| (kmAth k j ρ) with hτ | hτ
  · rw [law_zero hτ]; exact h.law_nonneg σ
  · have hσ := hτ.trans_le hτσ
    rw [h.law_harm hτ, h.law_harm hσ]
    exact harm_mono (h.W_pos hτ) (h.R_pos hτ) (h.W_mono hτ hτσ) (h.R_mono hτσ)

theorem W_continuous (h : KMState k j T ρ) : Continuous (kmWact k j T ρ) := by
  have c1 : Continuous (kmT k j ρ) := by unfold kmT; fun_prop
  have c2 : Continuous (kmTm k j ρ) := by unfold kmTm; fun_prop
  have c3 := kmDG_continuous (A := kmA k j T) h.par.p h.q
  have c4 : Continuous fun τ => kmT k j ρ τ ^ kmN k j := c1.rpow_const fun _ => Or.inr (kmN_pos h.par).le
  unfold kmWact kmActivated
  exact (continuous_const.mul ((Real.continuous_exp.comp (c3.comp c1).neg).sub
    (Real.continuous_exp.comp (c3.comp c2).neg))).add (continuous_const.mul c4)

theorem R_continuous : Continuous (kmRdrag k j ρ) := by
  unfold kmRdrag kmDrag; fun_prop

theorem law_continuous (h : KMState k j T ρ) : Continuous (kmLaw k j T ρ) := by
  rw [continuous_iff_continuousAt]
  intro τ
  rcases lt_trichotomy |τ| (kmAth k j ρ) with hτ | hτ | hτ
  · refine ContinuousAt.congr (f := fun _ => (0 : ℝ)) continuousAt_const ?_
    filter_upwards [continuous_abs.continuousAt.eventually_lt continuousAt_const hτ] with σ hσ
    exact (law_zero hσ.le).symm
  · unfold ContinuousAt
    rw [law_zero hτ.le]
    have hg : Filter.Tendsto (fun σ => max 0 (kmRdrag k j ρ σ)) (nhds τ) (nhds 0) := by
      have : max 0 (kmRdrag k j ρ τ) = 0 := by
        unfold kmRdrag kmDrag; rw [hτ]; simp
      have hc : ContinuousAt (fun σ => max 0 (kmRdrag k j ρ σ)) τ :=
        (continuous_const.max R_continuous).continuousAt
      rw [ContinuousAt, this] at hc
      exact hc
    refine tendsto_of_tendsto_of_tendsto_of_le_of_le tendsto_const_nhds hg (fun σ => h.law_nonneg σ) fun σ => ?_
    rcases le_or_gt |σ| (kmAth k j ρ) with hσ | hσ
    · rw [law_zero hσ]; exact le_max_left _ _
    · rw [h.law_harm hσ]
      exact (harm_le_right (h.W_pos hσ) (h.R_pos hσ)).trans (le_max_right _ _)
  · refine ContinuousAt.congr (f := fun τ => kmWact k j T ρ τ * kmRdrag k j ρ τ /
      (kmWact k j T ρ τ + kmRdrag k j ρ τ)) ?_ ?_
    · have hs : 0 < kmWact k j T ρ τ + kmRdrag k j ρ τ := add_pos (h.W_pos hτ) (h.R_pos hτ)
      exact (h.W_continuous.mul R_continuous).continuousAt.div (h.W_continuous.add R_continuous).continuousAt hs.ne'
    · filter_upwards [continuousAt_const.eventually_lt continuous_abs.continuousAt hτ] with σ hσ
      rw [kmLaw_eq, if_neg (not_le.2 hσ)]

end KMState

/-- the documented slip rate with the sign of the stress -/
noncomputable def kmSlip (k : KMBalD nV) (j : Fin nV) (T ρ τ : ℝ) : ℝ :=
  open Classical in if 0 ≤ τ then kmLaw k j T ρ τ else -kmLaw k j T ρ τ

namespace KMState
variable {k : KMBalD nV} {j : Fin nV} {T ρ : ℝ}

theorem rate_zero (h : KMState k j T ρ) : kmSlip k j T ρ 0 = 0 := by
  unfold kmSlip; rw [if_pos le_rfl, law_zero (by rw [abs_zero]; exact h.ath)]

theorem rate_continuous (h : KMState k j T ρ) : Continuous (kmSlip k j T ρ) := by
  unfold kmSlip
  refine Continuous.if_le h.law_continuous h.law_continuous.neg continuous_const continuous_id fun t ht => ?_
  have : t = 0 := ht.symm
  subst this
  rw [law_zero (by rw [abs_zero]; exact h.ath), neg_zero]

theorem rate_monotone (h : KMState k j T ρ) : Monotone (kmSlip k j T ρ) := by
  intro a b hab
  unfold kmSlip
  have h1 := h.law_nonneg a
  have h2 := h.law_nonneg b
  split_ifs with ha hb hb
  · exact h.law_mono (by rw [abs_of_nonneg ha, abs_of_nonneg hb]; exact hab)
  · linarith
  · linarith
  · push Not at ha hb
    exact neg_le_neg (h.law_mono (by rw [abs_of_neg ha, abs_of_neg hb]; linarith))

end KMState

/-! ### The code's law against the documented one -/

/-- from half the reference temperature on, with the barrier at least 35 thermal energies high at the stress where drag
    begins; the other bounds only exclude extreme ratios -/
structure Warm (k : KMBalD nV) (j : Fin nV) (T ρ : ℝ) : Prop extends KMState k j T ρ where
  half : k.tKRef ≤ 2 * T
  frozen : 35 ≤ kmDG (kmA k j T) k.p k.q (1 / 10 ^ 8 * k.wrD / kmBar k j ρ)
  barD : kmBar k j ρ ≤ 10 ^ 60 * k.wrD
  hot : kmA k j T ≤ 10 ^ 20
  ratio : kmGamR k ρ ≤ 10 ^ 20 * kmGamW k ρ

namespace Warm
variable {k : KMBalD nV} {j : Fin nV} {T ρ : ℝ}

theorem A_ge (h : Warm k j T ρ) : 35 ≤ kmA k j T := by
  refine h.frozen.trans ?_
  have ht : 0 < 1 / 10 ^ 8 * k.wrD / kmBar k j ρ := div_pos (mul_pos (by norm_num) h.par.D) h.bar
  unfold kmDG
  split_ifs with hs
  · rw [spow_of_pos ht] at hs ⊢
    have hu : 0 < (1 / 10 ^ 8 * k.wrD / kmBar k j ρ) ^ k.p := Real.rpow_pos_of_pos ht _
    have h2 : (1 - (1 / 10 ^ 8 * k.wrD / kmBar k j ρ) ^ k.p) ^ k.q ≤ 1 := by
      refine Real.rpow_le_one (by linarith) (by linarith) h.q.le
    nlinarith [h.A]
  · exact h.A.le

theorem exp35 : Real.exp (-35) ≤ 1 / 10 ^ 15 := by
  have h : (10 : ℝ) ≤ Real.exp (7 / 3) := by
    refine le_trans ?_ (Real.sum_le_exp_of_nonneg (by norm_num : (0 : ℝ) ≤ 7 / 3) 14)
    norm_num [Finset.sum_range_succ, Nat.factorial]
  have h2 : Real.exp 35 = Real.exp (7 / 3) ^ 15 := by
    rw [← Real.exp_nat_mul]; norm_num
  rw [Real.exp_neg, ← one_div, h2]
  apply one_div_le_one_div_of_le (by norm_num)
  exact pow_le_pow_left₀ (by norm_num) h 15

/-- where drag is linearised, activated glide is frozen -/
theorem W_frozen (h : Warm k j T ρ) {τ : ℝ} (hτ : kmAth k j ρ < |τ|)
    (hx : (|τ| - kmAth k j ρ) / k.wrD ≤ 1 / 10 ^ 8) : kmWact k j T ρ τ ≤ 11 / 10 ^ 15 * kmGamW k ρ := by
  have htp := h.kmT_pos hτ
  have hle : kmT k j ρ τ ≤ 1 / 10 ^ 8 * k.wrD / kmBar k j ρ := by
    unfold kmT
    refine div_le_div_of_nonneg_right ?_ h.bar.le
    rwa [div_le_iff₀ h.par.D] at hx
  have hG := h.frozen.trans (kmDG_anti (q := k.q) h.A.le h.par.p h.q hle)
  have hs : spow k.p (kmT k j ρ τ) < 1 := by
    by_contra hc
    unfold kmDG at hG
    rw [if_neg hc] at hG
    norm_num at hG
  have hA1 : 1 ≤ kmA k j T := by linarith [h.A_ge]
  obtain ⟨p1, -⟩ := power_le_exp h.par h.temp h.half hA1 htp hs
  have hE : Real.exp (-kmDG (kmA k j T) k.p k.q (kmT k j ρ τ)) ≤ 1 / 10 ^ 15 :=
    (Real.exp_le_exp.2 (neg_le_neg hG)).trans exp35
  have hb := Real.exp_pos (-kmDG (kmA k j T) k.p k.q (kmTm k j ρ τ))
  have := h.gamW
  unfold kmWact kmActivated
  nlinarith

set_option maxHeartbeats 1000000 in
theorem mag_near (h : Warm k j T ρ) (τ : ℝ) :
    |k.mag (kmGamW k ρ) (kmGamR k ρ) (kmA k j T) (1 / kmBar k j ρ) (kmAth k j ρ) (k.xn j) (k.tMin j) (k.tMax j) |τ|
      - kmLaw k j T ρ τ| ≤ 2 / 10 ^ 22 * (kmGamW k ρ + kmGamR k ρ) := by
  have hγw := h.gamW
  have hγr := h.gamR
  have hgI0 : 0 < 1 / kmBar k j ρ := one_div_pos.2 h.bar
  rcases le_or_gt |τ| (kmAth k j ρ) with hle | hgt
  · have hz : k.mag (kmGamW k ρ) (kmGamR k ρ) (kmA k j T) (1 / kmBar k j ρ) (kmAth k j ρ) (k.xn j) (k.tMin j)
        (k.tMax j) |τ| = 0 := by
      unfold KMBalD.mag
      rw [if_pos]
      exact lt_of_le_of_lt (div_nonpos_of_nonpos_of_nonneg (by linarith) h.par.D.le) gamRatioMin_pos
    rw [hz, KMState.law_zero hle, sub_zero, abs_zero]
    positivity
  have hpos : 0 < |τ| - kmAth k j ρ := by linarith
  have hx0 : 0 < (|τ| - kmAth k j ρ) / k.wrD := div_pos hpos h.par.D
  have hW0 := h.W_pos hgt
  have hR0 := h.R_pos hgt
  have hRl := h.R_le_lin τ
  have hRr := h.R_le τ
  have hlaw := h.law_harm hgt
  have hWge := h.W_ge τ
  have hfro := fun hx => h.W_frozen hgt hx
  obtain ⟨hd1, hd2⟩ := dragRate_bounds (gamR := kmGamR k ρ) hγr hx0.le
  have hRe : kmGamR k ρ * (1 - Real.exp (-((|τ| - kmAth k j ρ) / k.wrD))) = kmRdrag k j ρ τ := rfl
  rw [hRe] at hd1 hd2
  have et : kmT k j ρ τ = (|τ| - kmAth k j ρ) * (1 / kmBar k j ρ) := by unfold kmT; ring
  have etm : kmTm k j ρ τ = (-|τ| - kmAth k j ρ) * (1 / kmBar k j ρ) := by unfold kmTm; ring
  have hnear : 1 / 10 ^ 30 < (|τ| - kmAth k j ρ) / k.wrD →
      (k.thermal (kmGamW k ρ) (kmA k j T) (1 / kmBar k j ρ) (kmAth k j ρ) |τ| = none →
        kmWact k j T ρ τ ≤ 1 / 10 ^ 28 * kmGamW k ρ) ∧
      ∀ w, k.thermal (kmGamW k ρ) (kmA k j T) (1 / kmBar k j ρ) (kmAth k j ρ) |τ| = some w →
        |addPower (kmGamW k ρ) (1 / kmBar k j ρ) (kmAth k j ρ) (k.xn j) (k.tMin j) |τ| w.1 - kmWact k j T ρ τ|
          ≤ 1 / 10 ^ 28 * kmGamW k ρ := by
    intro hx
    have ht90 : 1 / 10 ^ 90 ≤ (|τ| - kmAth k j ρ) * (1 / kmBar k j ρ) := by
      rw [mul_one_div, le_div_iff₀ h.bar]
      rw [lt_div_iff₀ h.par.D] at hx
      have h1 := mul_le_mul_of_nonneg_left h.barD (show (0 : ℝ) ≤ 1 / 10 ^ 90 by norm_num)
      have h2 : (1 : ℝ) / 10 ^ 90 * (10 ^ 60 * k.wrD) = 1 / 10 ^ 30 * k.wrD := by ring
      linarith
    have := act_near h.par h.temp h.half hγw hgI0 h.ath hpos ht90 (by linarith [h.A_ge]) h.hot
    unfold kmWact
    rw [et, etm]
    exact this
  have hratio := h.ratio
  have hDr : dragRate (kmGamR k ρ) ((|τ| - kmAth k j ρ) / k.wrD) ≤ kmGamR k ρ * ((|τ| - kmAth k j ρ) / k.wrD) := by
    unfold dragRate
    split_ifs
    · exact le_refl _
    · exact hRl
  have hDe : ¬ (|τ| - kmAth k j ρ) / k.wrD < 1 / 10 ^ 8 →
      dragRate (kmGamR k ρ) ((|τ| - kmAth k j ρ) / k.wrD) = kmRdrag k j ρ τ := by
    intro hx
    unfold dragRate
    rw [idpEpsSqrt_eq, if_neg hx]
    exact hRe
  have hpw : ∀ hb : k.tMax j < max 0 (|τ| - kmAth k j ρ) * (1 / kmBar k j ρ),
      10 ^ 61 * kmGamW k ρ ≤ kmWact k j T ρ τ := by
    intro h2
    rw [max_eq_right hpos.le, ← et] at h2
    have hn := kmN_pos h.par
    have h3 : k.tMax j ^ kmN k j = 10 ^ 60 := by
      unfold KMBalD.tMax
      have h0 : (0 : ℝ) ≤ gamRatioOvf := by unfold gamRatioOvf; norm_num
      rw [kmXm, ← Real.rpow_mul h0, one_div_mul_cancel hn.ne', Real.rpow_one]
      unfold gamRatioOvf; norm_num
    have h4 : 10 ^ 60 ≤ kmT k j ρ τ ^ kmN k j := by
      rw [← h3]
      refine Real.rpow_le_rpow ?_ h2.le hn.le
      unfold KMBalD.tMax
      exact Real.rpow_nonneg (by unfold gamRatioOvf; norm_num) _
    refine le_trans ?_ hWge
    nlinarith
  rw [hlaw]
  have hharm := harm_pos hW0 hR0
  have hhR := harm_le_right hW0 hR0
  have hhW := harm_le_left hW0 hR0
  have hDr0 := hR0.trans_le hd1
  generalize hxdef : (|τ| - kmAth k j ρ) / k.wrD = x at *
  generalize kmRdrag k j ρ τ = R at *
  generalize kmWact k j T ρ τ = W at *
  unfold KMBalD.mag
  rw [hxdef]
  generalize dragRate (kmGamR k ρ) x = R' at *
  generalize kmGamW k ρ = γw at *
  generalize kmGamR k ρ = γr at *
  -- very small stress above the threshold
  rcases le_or_gt x (1 / 10 ^ 30) with hx30 | hx30
  · have hγx : γr * x ≤ 1 / 10 ^ 30 * γr := by nlinarith
    have hmag : ∀ y, 0 ≤ y → y ≤ R' → |y - harm W R| ≤ 2 / 10 ^ 22 * (γw + γr) := by
      intro y h0 h1
      rw [abs_le]
      constructor <;> nlinarith
    split_ifs with h1 h2
    · exact hmag 0 le_rfl hDr0.le
    · exact hmag R' hDr0.le le_rfl
    · cases ht : k.thermal γw (kmA k j T) (1 / kmBar k j ρ) (kmAth k j ρ) |τ| with
      | none => exact hmag 0 le_rfl hDr0.le
      | some w =>
        have hw : 0 < w.1 := by
          obtain ⟨w1, d, e⟩ := w
          exact k.thermal_pos hγw h.A.le hgI0 h.par.p h.q ht
        have hp1 := addPower_pos (xn := k.xn j) (tMin := k.tMin j) (gAth := kmAth k j ρ) (a := |τ|) hγw hgI0 hw
        exact hmag _ (harm_pos hp1 hDr0).le (harm_le_right hp1 hDr0)
  obtain ⟨hnone, hsome⟩ := hnear hx30
  have h1 : ¬ x < gamRatioMin := by
    rw [not_lt]
    refine le_trans ?_ hx30.le
    unfold gamRatioMin; norm_num
  rw [if_neg h1]
  split_ifs with h2
  · have hWb := hpw h2
    by_cases hx8 : x < 1 / 10 ^ 8
    · exfalso
      have := hfro hx8.le
      nlinarith
    · rw [hDe hx8]
      have h3 := harm_gap hW0 hR0
      have h4 : R ^ 2 / W ≤ 1 / 10 ^ 41 * γr := by
        rw [div_le_iff₀ hW0]
        have h5 : R ^ 2 ≤ γr * γr := by nlinarith
        have h6 : γr * γr ≤ γr * (10 ^ 20 * γw) := mul_le_mul_of_nonneg_left hratio hγr.le
        have h7 : 1 / 10 ^ 41 * γr * (10 ^ 61 * γw) ≤ 1 / 10 ^ 41 * γr * W :=
          mul_le_mul_of_nonneg_left hWb (by positivity)
        nlinarith
      rw [abs_le]
      constructor <;> nlinarith
  · cases ht : k.thermal γw (kmA k j T) (1 / kmBar k j ρ) (kmAth k j ρ) |τ| with
    | none =>
      have := hnone ht
      simp only [Option.elim]
      rw [zero_sub, abs_neg, abs_of_pos hharm]
      nlinarith
    | some w =>
      have hn := hsome w ht
      simp only [Option.elim]
      have hw : 0 < w.1 := by
        obtain ⟨w1, d, e⟩ := w
        exact k.thermal_pos hγw h.A.le hgI0 h.par.p h.q ht
      have hp1 := addPower_pos (xn := k.xn j) (tMin := k.tMin j) (gAth := kmAth k j ρ) (a := |τ|) hγw hgI0 hw
      generalize addPower γw (1 / kmBar k j ρ) (kmAth k j ρ) (k.xn j) (k.tMin j) |τ| w.1 = W' at *
      have hlip : |harm W' R' - harm W R'| ≤ 1 / 10 ^ 28 * γw := by
        have h3 := abs_le.1 hn
        rcases le_total W W' with hww | hww
        · have h4 := harm_lip hW0 hDr0 hww
          have h5 := harm_mono hW0 hDr0 hww le_rfl
          rw [abs_le]; constructor <;> linarith [h3.1, h3.2]
        · have h4 := harm_lip hp1 hDr0 hww
          have h5 := harm_mono hp1 hDr0 hww le_rfl
          rw [abs_le]; constructor <;> linarith [h3.1, h3.2]
      have hdr : |harm W R' - harm W R| ≤ 12 / 10 ^ 23 * γw := by
        by_cases hx8 : x < 1 / 10 ^ 8
        · have h3 := hfro hx8.le
          have h4 := harm_mono hW0 hR0 le_rfl hd1
          have h5 := harm_mono hW0 hDr0 le_rfl hd2
          have h6 := harm_scale hW0 hR0 (c := 1 + 1 / 10 ^ 8) (by norm_num)
          rw [abs_le]
          constructor <;> nlinarith
        · rw [hDe hx8, sub_self, abs_zero]; positivity
      have h3 := abs_le.1 hlip
      have h4 := abs_le.1 hdr
      rw [abs_le]
      constructor <;> nlinarith [h3.1, h3.2, h4.1, h4.2]

end Warm

end Ecm.Props
