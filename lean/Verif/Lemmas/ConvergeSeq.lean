/- Convergence of the backward Euler sequence to a solution of the rate equations. -/
import Verif.Lemmas.RateEq

namespace Ecm
open Spec
namespace RateEq
variable {n nH : ℕ} {F : RateEq n nH} {T B c : ℝ} {Hr : Set (Vec nH)}

variable (F) in
/-- what one update does, up to an error `ρ` in each equation: state `z` and stored slip rates `γ` before,
    `z'` and `γ'` after -/
structure NumStep (dt ρ ε : ℝ) (z z' : CState nH) (γ γ' : Vec n) : Prop where
  time : z'.1 = z.1 + dt
  rate : ∀ s, |γ s - F.gam z s| ≤ ε
  rate' : ∀ s, |γ' s - F.gam z' s| ≤ ε
  e : ∀ i, |z'.2.1 i - z.2.1 i - dt * F.edOf z' γ' i| ≤ ρ
  R : ∃ ξ : Vec 3, (∀ i, |ξ i - dt * F.omOf z' γ' (fun i => (z'.2.1 i - z.2.1 i) / dt) i| ≤ ρ) ∧
    ∀ i j, |z'.2.2.1 i j - z.2.2.1 i j - ((show Mat 3 3 from z'.2.2.1) * crossMat ξ) i j|
      ≤ 9 * vecNorm ξ ^ 2 + ρ
  h : ∀ i, |z'.2.2.2 i - z.2.2.2 i - dt * F.H z'.2.2.2 γ i| ≤ ρ

theorem sum_abs_le {m : ℕ} (p u : Vec m) {ε : ℝ} (h : ∀ s, |u s| ≤ ε) :
    |∑ s, p s * u s| ≤ (∑ s, |p s|) * ε := by
  refine (Finset.abs_sum_le_sum_abs _ _).trans ?_
  rw [Finset.sum_mul]
  refine Finset.sum_le_sum fun s _ => ?_
  rw [abs_mul]
  exact mul_le_mul_of_nonneg_left (h s) (abs_nonneg _)

theorem num_e (hF : F.Regular T B c Hr) : ∃ A, 0 ≤ A ∧ ∀ (dt ρ ε : ℝ) (z z' : CState nH) (γ γ' : Vec n),
    0 < dt → 0 ≤ ρ → dt * ε ≤ ρ → z' ∈ region T B Hr → F.NumStep dt ρ ε z z' γ γ' →
    ∀ i, |z'.2.1 i - z.2.1 i - dt * F.ed z' i| ≤ A * ρ := by
  obtain ⟨Ca, a0, a1, -⟩ := bl_time (B := B) (Hr := Hr) F.a hF.a
  let Sp := ∑ i, ∑ s, |F.P i s|
  have hSig : 0 ≤ Sp := Finset.sum_nonneg fun i _ => Finset.sum_nonneg fun s _ => abs_nonneg _
  refine ⟨1 + Ca * Sp, by positivity, fun dt ρ ε z z' γ γ' hdt hρ hε hz' hs i => ?_⟩
  have h1 := hs.e i
  have h2 : |vecsVMa F.P γ' i - vecsVMa F.P (F.gam z') i| ≤ (∑ s, |F.P i s|) * ε := by
    unfold vecsVMa
    rw [← Finset.sum_sub_distrib]
    simp only [← mul_sub]
    exact sum_abs_le (fun s => F.P i s) _ hs.rate'
  have h3 : (∑ s, |F.P i s|) ≤ Sp :=
    Finset.single_le_sum (f := fun i => ∑ s, |F.P i s|)
      (fun i _ => Finset.sum_nonneg fun s _ => abs_nonneg _) (Finset.mem_univ i)
  have hi : 0 ≤ ∑ s, |F.P i s| := Finset.sum_nonneg fun s _ => abs_nonneg _
  have e : z'.2.1 i - z.2.1 i - dt * F.ed z' i = (z'.2.1 i - z.2.1 i - dt * F.edOf z' γ' i)
      - F.a z'.1 * (dt * (vecsVMa F.P γ' i - vecsVMa F.P (F.gam z') i)) := by
    simp only [ed, edOf]; ring
  have h4 : |dt * (vecsVMa F.P γ' i - vecsVMa F.P (F.gam z') i)| ≤ Sp * ρ := by
    rw [abs_mul, abs_of_pos hdt]
    calc dt * _ ≤ dt * ((∑ s, |F.P i s|) * ε) := mul_le_mul_of_nonneg_left h2 hdt.le
      _ = (∑ s, |F.P i s|) * (dt * ε) := by ring
      _ ≤ (∑ s, |F.P i s|) * ρ := mul_le_mul_of_nonneg_left hε hi
      _ ≤ _ := mul_le_mul_of_nonneg_right h3 hρ
  have h5 := mul_le_mul (a1 z' hz') h4 (abs_nonneg _) a0
  rw [← abs_mul] at h5
  rw [e]
  refine (abs_sub _ _).trans ?_
  linarith

theorem num_xi (hF : F.Regular T B c Hr) : ∃ A, 0 ≤ A ∧ ∀ (dt ρ ε : ℝ) (z z' : CState nH) (γ γ' : Vec n)
    (ξ : Vec 3), 0 < dt → 0 ≤ ρ → dt * ε ≤ ρ → z' ∈ region T B Hr → F.NumStep dt ρ ε z z' γ γ' →
    (∀ i, |ξ i - dt * F.omOf z' γ' (fun i => (z'.2.1 i - z.2.1 i) / dt) i| ≤ ρ) →
    ∀ i, |ξ i - dt * F.om z' i| ≤ A * ρ := by
  obtain ⟨A, A0, hA⟩ := num_e (F := F) hF
  obtain ⟨Ca, a0, a1, -⟩ := bl_inva (B := B) hF
  obtain ⟨Cm, m0, m1, -⟩ := BL.common fun p : Fin 3 × Fin 5 => bl_m35 (T := T) (B := B) (Hr := Hr) p.1 p.2
  let Sq := ∑ i, ∑ s, |F.Q i s|
  have hSig : 0 ≤ Sq := Finset.sum_nonneg fun i _ => Finset.sum_nonneg fun s _ => abs_nonneg _
  refine ⟨1 + Sq + 1 / 2 * Ca * Ca * (5 * Cm * A), by positivity,
    fun dt ρ ε z z' γ γ' ξ hdt hρ hε hz' hs hξ i => ?_⟩
  have h2 : |vecsVMa F.Q γ' i - vecsVMa F.Q (F.gam z') i| ≤ (∑ s, |F.Q i s|) * ε := by
    unfold vecsVMa
    rw [← Finset.sum_sub_distrib]
    simp only [← mul_sub]
    exact sum_abs_le (fun s => F.Q i s) _ hs.rate'
  have h3 : (∑ s, |F.Q i s|) ≤ Sq :=
    Finset.single_le_sum (f := fun i => ∑ s, |F.Q i s|)
      (fun i _ => Finset.sum_nonneg fun s _ => abs_nonneg _) (Finset.mem_univ i)
  have hi : 0 ≤ ∑ s, |F.Q i s| := Finset.sum_nonneg fun s _ => abs_nonneg _
  have h4 : |dt * (vecsVMa F.Q γ' i - vecsVMa F.Q (F.gam z') i)| ≤ Sq * ρ := by
    rw [abs_mul, abs_of_pos hdt]
    calc dt * _ ≤ dt * ((∑ s, |F.Q i s|) * ε) := mul_le_mul_of_nonneg_left h2 hdt.le
      _ = (∑ s, |F.Q i s|) * (dt * ε) := by ring
      _ ≤ (∑ s, |F.Q i s|) * ρ := mul_le_mul_of_nonneg_left hε hi
      _ ≤ _ := mul_le_mul_of_nonneg_right h3 hρ
  have h5 : |∑ j, m35 z'.2.1 i j * (z'.2.1 j - z.2.1 j - dt * F.ed z' j)| ≤ 5 * Cm * A * ρ := by
    refine (sum_abs_le (fun j => m35 z'.2.1 i j) _ (hA dt ρ ε z z' γ γ' hdt hρ hε hz' hs)).trans ?_
    have : ∑ j : Fin 5, |m35 z'.2.1 i j| ≤ 5 * Cm := by
      have := Finset.sum_le_sum (s := Finset.univ) fun (j : Fin 5) _ => m1 (i, j) z' hz'
      simpa using this
    calc _ ≤ 5 * Cm * (A * ρ) := mul_le_mul_of_nonneg_right this (by positivity)
      _ = _ := by ring
  have e : ξ i - dt * F.om z' i = (ξ i - dt * F.omOf z' γ' (fun i => (z'.2.1 i - z.2.1 i) / dt) i)
      - dt * (vecsVMa F.Q γ' i - vecsVMa F.Q (F.gam z') i)
      + 1 / 2 * (1 / F.a z'.1) * (1 / F.a z'.1)
        * ∑ j, m35 z'.2.1 i j * (z'.2.1 j - z.2.1 j - dt * F.ed z' j) := by
    have e1 : vecsVMa (m35 z'.2.1) (fun i => (z'.2.1 i - z.2.1 i) / dt) i
        = 1 / dt * ∑ j, m35 z'.2.1 i j * (z'.2.1 j - z.2.1 j) := by
      unfold vecsVMa; rw [Finset.mul_sum]
      exact Finset.sum_congr rfl fun j _ => by ring
    have e2 : ∑ j, m35 z'.2.1 i j * (z'.2.1 j - z.2.1 j - dt * F.ed z' j)
        = (∑ j, m35 z'.2.1 i j * (z'.2.1 j - z.2.1 j)) - dt * vecsVMa (m35 z'.2.1) (F.ed z') i := by
      unfold vecsVMa
      rw [Finset.mul_sum, ← Finset.sum_sub_distrib]
      exact Finset.sum_congr rfl fun j _ => by ring
    rw [e2]
    simp only [om, omOf, e1]
    generalize (∑ j, m35 z'.2.1 i j * (z'.2.1 j - z.2.1 j)) = u
    generalize 1 / F.a z'.1 = b
    field_simp
    ring
  have h6 : |1 / 2 * (1 / F.a z'.1) * (1 / F.a z'.1)| ≤ 1 / 2 * Ca * Ca := by
    have := a1 z' hz'
    rw [abs_mul, abs_mul, abs_of_pos (by norm_num : (0 : ℝ) < 1 / 2)]
    gcongr
  have h7 := mul_le_mul h6 h5 (abs_nonneg _) (by positivity)
  rw [← abs_mul] at h7
  rw [e]
  refine (abs_add_le _ _).trans ?_
  have h8 := (abs_sub _ _).trans (add_le_add (hξ i) h4)
  have : (1 + Sq + 1 / 2 * Ca * Ca * (5 * Cm * A)) * ρ
      = (ρ + Sq * ρ) + 1 / 2 * Ca * Ca * (5 * Cm * A * ρ) := by ring
  rw [this]
  exact add_le_add h8 h7

theorem cross_mul_sub {R : Mat 3 3} (ξ η : Vec 3) (t : ℝ) (i j : Fin 3) :
    (R * crossMat ξ) i j - t * (R * crossMat η) i j = (R * crossMat (fun k => ξ k - t * η k)) i j := by
  rw [Matrix.mul_apply, Matrix.mul_apply, Matrix.mul_apply, Finset.mul_sum, ← Finset.sum_sub_distrib]
  refine Finset.sum_congr rfl fun k _ => ?_
  fin_cases k <;> fin_cases j <;> simp [crossMat] <;> ring

theorem cross_mul_le {R : Mat 3 3} (hR : ∀ i j, |R i j| ≤ 1) {ξ : Vec 3} {r : ℝ} (hξ : ∀ i, |ξ i| ≤ r)
    (i j : Fin 3) : |(R * crossMat ξ) i j| ≤ 3 * r := by
  rw [Matrix.mul_apply]
  have hr : 0 ≤ r := (abs_nonneg _).trans (hξ 0)
  have hc : ∀ k, |crossMat ξ k j| ≤ r := by
    intro k
    fin_cases k <;> fin_cases j <;> simp [crossMat, hξ, hr]
  refine (Finset.abs_sum_le_sum_abs _ _).trans ?_
  have := Finset.sum_le_sum (s := Finset.univ) fun (k : Fin 3) _ => show |R i k * crossMat ξ k j| ≤ r by
    rw [abs_mul]
    have := mul_le_mul (hR i k) (hc k) (abs_nonneg _) zero_le_one
    linarith
  simpa using this

set_option maxHeartbeats 1000000 in
/-- one update is one backward Euler step for the rate equations, with a small error -/
theorem num_step (hF : F.Regular T B c Hr) (Rb : ℝ) : ∃ A, 0 ≤ A ∧ ∀ (dt ρ ε : ℝ) (z z' : CState nH) (γ γ' : Vec n),
    0 < dt → dt ≤ T → 0 ≤ ρ → ρ ≤ Rb → dt * ε ≤ ρ → 0 ≤ ε → ε ≤ 1 → z ∈ region T B Hr → z' ∈ region T B Hr →
    F.NumStep dt ρ ε z z' γ γ' →
    ∀ ι, |crd z'.2 ι - crd z.2 ι - dt * F.fld z' ι| ≤ A * (dt ^ 2 + ρ) := by
  obtain ⟨A, A0, hA⟩ := num_e (F := F) hF
  obtain ⟨X, X0, hX⟩ := num_xi (F := F) hF
  obtain ⟨Co, o0, o1, -⟩ := BL.common fun i => bl_om (B := B) hF i
  obtain ⟨Ce, e0, e1, -⟩ := BL.common fun i => bl_ed (B := B) hF i
  obtain ⟨Cr, r0, r1, -⟩ := BL.common fun p : Fin 3 × Fin 3 => bl_rd (B := B) hF p.1 p.2
  obtain ⟨Cg, g0, g1, g2⟩ := BL.common fun s => bl_gam (B := B) hF s
  obtain ⟨Ch, h0, h1, h2⟩ := BL.common fun i => hF.H i (Cg + 1)
  let Y := 27 * 2 * (Co ^ 2 + X ^ 2 * |Rb|) + 1 + 3 * X
  -- the state moves by at most this much
  have hY : 0 ≤ Y := by positivity
  let M := (Ce + A) + (Cr + Y * (T + 1)) + (Ch + 1) + 1
  have hT : ∀ dt : ℝ, 0 < dt → dt ≤ T → 0 ≤ T := fun dt h h' => h.le.trans h'
  refine ⟨A + Y + (1 + Ch * (1 + Cg * (|M| * (1 + |T|)))), by positivity,
    fun dt ρ ε z z' γ γ' hdt hdT hρ hρ1 hε hε0 hε1 hz hz' hs => ?_⟩
  have hT0 := hT dt hdt hdT
  have hM : 0 ≤ M := by positivity
  have bE := hA dt ρ ε z z' γ γ' hdt hρ hε hz' hs
  have bR : ∀ i j, |z'.2.2.1 i j - z.2.2.1 i j - dt * F.rd z' i j| ≤ Y * (dt ^ 2 + ρ) := by
    obtain ⟨ξ, hξ, hR⟩ := hs.R
    have hx := hX dt ρ ε z z' γ γ' ξ hdt hρ hε hz' hs hξ
    have hxb : ∀ i, ξ i ^ 2 ≤ 2 * (Co ^ 2 + X ^ 2 * |Rb|) * (dt ^ 2 + ρ) := by
      intro i
      have a1 := hx i
      have a2 : |ξ i| ≤ dt * Co + X * ρ := by
        have : |ξ i| ≤ |ξ i - dt * F.om z' i| + |dt * F.om z' i| := by
          have := abs_add_le (ξ i - dt * F.om z' i) (dt * F.om z' i); simpa using this
        have h3 : |dt * F.om z' i| ≤ dt * Co := by
          rw [abs_mul, abs_of_pos hdt]; exact mul_le_mul_of_nonneg_left (o1 i z' hz') hdt.le
        linarith
      have a3 : ξ i ^ 2 ≤ (dt * Co + X * ρ) ^ 2 := by
        rw [← sq_abs]; exact pow_le_pow_left₀ (abs_nonneg _) a2 2
      have a4 : ρ ^ 2 ≤ |Rb| * ρ := by nlinarith [le_abs_self Rb]
      have a5 : 0 ≤ X ^ 2 * |Rb| * dt ^ 2 := by positivity
      nlinarith [sq_nonneg (dt * Co - X * ρ), mul_nonneg (sq_nonneg Co) hρ,
        mul_le_mul_of_nonneg_left a4 (sq_nonneg X)]
    have hn : vecNorm ξ ^ 2 ≤ 3 * (2 * (Co ^ 2 + X ^ 2 * |Rb|) * (dt ^ 2 + ρ)) := by
      rw [vecNorm3_sq]; linarith [hxb 0, hxb 1, hxb 2]
    intro i j
    have b1 := hR i j
    have b2 := cross_mul_le (R := show Mat 3 3 from z'.2.2.1) hz'.2.2.1 (ξ := fun k => ξ k - dt * F.om z' k)
      (r := X * ρ) hx i j
    rw [← cross_mul_sub] at b2
    have e : z'.2.2.1 i j - z.2.2.1 i j - dt * F.rd z' i j
        = (z'.2.2.1 i j - z.2.2.1 i j - ((show Mat 3 3 from z'.2.2.1) * crossMat ξ) i j)
          + (((show Mat 3 3 from z'.2.2.1) * crossMat ξ) i j
            - dt * ((show Mat 3 3 from z'.2.2.1) * crossMat (F.om z')) i j) := by
      simp only [rd]; ring
    rw [e]
    refine (abs_add_le _ _).trans ((add_le_add b1 b2).trans ?_)
    simp only [Y]
    nlinarith [sq_nonneg dt, mul_nonneg X0 (sq_nonneg dt)]
  have bMove : dist z z' ≤ M * (dt + ρ) := by
    have hdr : 0 ≤ dt + ρ := by linarith
    have hP1 : 0 ≤ A * dt := by positivity
    have hP2 : 0 ≤ Ce * ρ := by positivity
    have hP3 : 0 ≤ Cr * ρ := by positivity
    have hP4 : 0 ≤ Ch * ρ := by positivity
    have q1 : 0 ≤ (Ce + A) * (dt + ρ) := by positivity
    have q2 : 0 ≤ (Cr + Y * (T + 1)) * (dt + ρ) := by positivity
    have q3 : 0 ≤ (Ch + 1) * (dt + ρ) := by positivity
    have eM : M * (dt + ρ) = (Ce + A) * (dt + ρ) + (Cr + Y * (T + 1)) * (dt + ρ) + (Ch + 1) * (dt + ρ)
        + (dt + ρ) := by simp only [M]; ring
    rw [eM, Prod.dist_eq]
    refine max_le ?_ (dist_le_crd (by linarith) fun ι => ?_)
    · rw [hs.time, Real.dist_eq, sub_add_cancel_left, abs_neg, abs_of_pos hdt]; linarith
    · rw [abs_sub_comm]
      rcases ι with i | ⟨i, j⟩ | i
      · show |z'.2.1 i - z.2.1 i| ≤ _
        have a1 := bE i
        have a2 : |z'.2.1 i - z.2.1 i| ≤ |z'.2.1 i - z.2.1 i - dt * F.ed z' i| + |dt * F.ed z' i| := by
          have := abs_add_le (z'.2.1 i - z.2.1 i - dt * F.ed z' i) (dt * F.ed z' i); simpa using this
        have a3 : |dt * F.ed z' i| ≤ dt * Ce := by
          rw [abs_mul, abs_of_pos hdt]; exact mul_le_mul_of_nonneg_left (e1 i z' hz') hdt.le
        nlinarith
      · show |z'.2.2.1 i j - z.2.2.1 i j| ≤ _
        have a1 := bR i j
        have a2 : |z'.2.2.1 i j - z.2.2.1 i j|
            ≤ |z'.2.2.1 i j - z.2.2.1 i j - dt * F.rd z' i j| + |dt * F.rd z' i j| := by
          have := abs_add_le (z'.2.2.1 i j - z.2.2.1 i j - dt * F.rd z' i j) (dt * F.rd z' i j)
          simpa using this
        have a3 : |dt * F.rd z' i j| ≤ dt * Cr := by
          rw [abs_mul, abs_of_pos hdt]; exact mul_le_mul_of_nonneg_left (r1 (i, j) z' hz') hdt.le
        have a4 : Y * (dt ^ 2 + ρ) ≤ Y * ((T + 1) * (dt + ρ)) := by
          refine mul_le_mul_of_nonneg_left ?_ hY
          nlinarith [mul_le_mul_of_nonneg_left hdT hdt.le, mul_nonneg hT0 hρ]
        nlinarith
      · show |z'.2.2.2 i - z.2.2.2 i| ≤ _
        have a1 := hs.h i
        have hm : (z'.2.2.2, γ) ∈ {p : Vec nH × Vec n | p.1 ∈ Hr ∧ ∀ s, |p.2 s| ≤ Cg + 1} := by
          refine ⟨hz'.2.2.2, fun s => ?_⟩
          have := abs_add_le (γ s - F.gam z s) (F.gam z s)
          rw [sub_add_cancel] at this
          linarith [hs.rate s, g1 s z hz]
        have a2 : |z'.2.2.2 i - z.2.2.2 i|
            ≤ |z'.2.2.2 i - z.2.2.2 i - dt * F.H z'.2.2.2 γ i| + |dt * F.H z'.2.2.2 γ i| := by
          have := abs_add_le (z'.2.2.2 i - z.2.2.2 i - dt * F.H z'.2.2.2 γ i) (dt * F.H z'.2.2.2 γ i)
          simpa using this
        have a3 : |dt * F.H z'.2.2.2 γ i| ≤ dt * Ch := by
          rw [abs_mul, abs_of_pos hdt]; exact mul_le_mul_of_nonneg_left (h1 i _ hm) hdt.le
        nlinarith
  intro ι
  have hq : 0 ≤ dt ^ 2 + ρ := by positivity
  have eA : (A + Y + (1 + Ch * (1 + Cg * (|M| * (1 + |T|))))) * (dt ^ 2 + ρ) = A * (dt ^ 2 + ρ) + Y * (dt ^ 2 + ρ)
      + (1 + Ch * (1 + Cg * (|M| * (1 + |T|)))) * (dt ^ 2 + ρ) := by ring
  have p1 : 0 ≤ A * (dt ^ 2 + ρ) := by positivity
  have p2 : 0 ≤ Y * (dt ^ 2 + ρ) := by positivity
  have p3 : 0 ≤ (1 + Ch * (1 + Cg * (|M| * (1 + |T|)))) * (dt ^ 2 + ρ) := by positivity
  rw [eA]
  rcases ι with i | ⟨i, j⟩ | i
  · have := bE i
    have : A * ρ ≤ A * (dt ^ 2 + ρ) := mul_le_mul_of_nonneg_left (by nlinarith [sq_nonneg dt]) A0
    show |z'.2.1 i - z.2.1 i - dt * F.ed z' i| ≤ _
    linarith
  · show |z'.2.2.1 i j - z.2.2.1 i j - dt * F.rd z' i j| ≤ _
    linarith [bR i j]
  · show |z'.2.2.2 i - z.2.2.2 i - dt * F.hd z' i| ≤ _
    have a1 := hs.h i
    have hm : (z'.2.2.2, γ) ∈ {p : Vec nH × Vec n | p.1 ∈ Hr ∧ ∀ s, |p.2 s| ≤ Cg + 1} := by
      refine ⟨hz'.2.2.2, fun s => ?_⟩
      have := abs_add_le (γ s - F.gam z s) (F.gam z s)
      rw [sub_add_cancel] at this
      linarith [hs.rate s, g1 s z hz]
    have hm' : (z'.2.2.2, F.gam z') ∈ {p : Vec nH × Vec n | p.1 ∈ Hr ∧ ∀ s, |p.2 s| ≤ Cg + 1} :=
      ⟨hz'.2.2.2, fun s => (g1 s z' hz').trans (by linarith)⟩
    have a2 := h2 i _ hm _ hm'
    have a3 : dist (z'.2.2.2, γ) (z'.2.2.2, F.gam z') ≤ ε + Cg * (M * (dt + ρ)) := by
      have hr0 : 0 ≤ ε + Cg * (M * (dt + ρ)) := by positivity
      rw [Prod.dist_eq, dist_self]
      refine max_le hr0 ((dist_pi_le_iff hr0).2 fun s => ?_)
      rw [Real.dist_eq]
      have b1 := g2 s z hz z' hz'
      have b2 := mul_le_mul_of_nonneg_left bMove g0
      have b3 := abs_add_le (γ s - F.gam z s) (F.gam z s - F.gam z' s)
      rw [sub_add_sub_cancel] at b3
      linarith [hs.rate s]
    have a4 : |F.H z'.2.2.2 γ i - F.H z'.2.2.2 (F.gam z') i| ≤ Ch * (ε + Cg * (M * (dt + ρ))) :=
      a2.trans (mul_le_mul_of_nonneg_left a3 h0)
    have a5 := mul_le_mul_of_nonneg_left a4 hdt.le
    have e : z'.2.2.2 i - z.2.2.2 i - dt * F.hd z' i = (z'.2.2.2 i - z.2.2.2 i - dt * F.H z'.2.2.2 γ i)
        + dt * (F.H z'.2.2.2 γ i - F.H z'.2.2.2 (F.gam z') i) := by simp only [hd]; ring
    rw [e]
    refine (abs_add_le _ _).trans ?_
    rw [abs_mul dt, abs_of_pos hdt, abs_of_nonneg hM, abs_of_nonneg hT0]
    have a6 : dt * (dt + ρ) ≤ (1 + T) * (dt ^ 2 + ρ) := by
      nlinarith [mul_le_mul_of_nonneg_right hdT hρ, mul_nonneg hT0 (sq_nonneg dt)]
    have a7 : dt * (Ch * (ε + Cg * (M * (dt + ρ))))
        ≤ Ch * (ρ + Cg * (M * ((1 + T) * (dt ^ 2 + ρ)))) := by
      have e1 : dt * (Ch * (ε + Cg * (M * (dt + ρ)))) = Ch * (dt * ε + Cg * (M * (dt * (dt + ρ)))) := by ring
      rw [e1]
      refine mul_le_mul_of_nonneg_left (add_le_add hε ?_) h0
      exact mul_le_mul_of_nonneg_left (mul_le_mul_of_nonneg_left a6 hM) g0
    have a8 : ρ ≤ dt ^ 2 + ρ := by nlinarith [sq_nonneg dt]
    have a9 := mul_le_mul_of_nonneg_left a8 h0
    have e2 : (1 + Ch * (1 + Cg * (M * (1 + T)))) * (dt ^ 2 + ρ)
        = (dt ^ 2 + ρ) + Ch * (dt ^ 2 + ρ) + Ch * (Cg * (M * ((1 + T) * (dt ^ 2 + ρ)))) := by ring
    rw [e2]
    rw [mul_add Ch] at a7
    linarith

variable (F) in
/-- a solution of the rate equations on `[0, T]` that stays in the region -/
structure Solves (T B : ℝ) (Hr : Set (Vec nH)) (y : ℝ → Vec 5 × (Fin 3 → Fin 3 → ℝ) × Vec nH) : Prop where
  mem : ∀ t ∈ Set.Icc 0 T, (t, y t) ∈ region T B Hr
  deriv : ∀ t ∈ Set.Icc 0 T, ∀ ι, HasDerivWithinAt (fun t => crd (y t) ι) (F.fld (t, y t) ι) (Set.Icc 0 T) t

/-- one backward Euler step applied to the exact solution -/
theorem exact_step (hF : F.Regular T B c Hr) : ∃ M, 0 ≤ M ∧ ∀ y, F.Solves T B Hr y →
    ∀ t ∈ Set.Icc 0 T, ∀ t' ∈ Set.Icc 0 T, t ≤ t' →
    ∀ ι, |crd (y t') ι - crd (y t) ι - (t' - t) * F.fld (t', y t') ι| ≤ M * (t' - t) ^ 2 := by
  obtain ⟨C, h0, h1, h2⟩ := BL.common fun ι => bl_fld (B := B) hF ι
  refine ⟨C * (1 + C), by positivity, fun y hy t ht t' ht' htt ι => ?_⟩
  refine implicit_defect (y := fun t => crd (y t) ι) (f := fun t => F.fld (t, y t) ι) htt
    (fun u hu => (hy.deriv u ⟨ht.1.trans hu.1, hu.2.trans ht'.2⟩ ι).mono (Set.Icc_subset_Icc ht.1 ht'.2))
    fun u hu => ?_
  have hu' : u ∈ Set.Icc 0 T := ⟨ht.1.trans hu.1, hu.2.trans ht'.2⟩
  refine (h2 ι _ (hy.mem u hu') _ (hy.mem t' ht')).trans ?_
  rw [mul_assoc]
  refine mul_le_mul_of_nonneg_left ?_ h0
  have hsub : 0 ≤ t' - u := by linarith [hu.2]
  rw [Prod.dist_eq]
  refine max_le ?_ (dist_le_crd (by positivity) fun κ => ?_)
  · rw [Real.dist_eq, abs_sub_comm, abs_of_nonneg hsub]; nlinarith
  · have := Convex.norm_image_sub_le_of_norm_hasDerivWithin_le (f := fun t => crd (y t) κ)
      (f' := fun t => F.fld (t, y t) κ) (C := C) (s := Set.Icc 0 T) (x := u) (y := t')
      (fun v hv => hy.deriv v hv κ) (fun v hv => h1 κ _ (hy.mem v hv)) (convex_Icc 0 T) hu' ht'
    rw [Real.norm_eq_abs, Real.norm_eq_abs, abs_of_nonneg hsub, abs_sub_comm] at this
    nlinarith

/-- **convergence**: the distance of the updates from the solution of the rate equations is of first order in
    the time step, plus the accumulated errors of the solves -/
theorem converge (hF : F.Regular T B c Hr) (hT : 0 < T) (Rb : ℝ) : ∃ C, 0 ≤ C ∧ ∃ N0 : ℕ, ∀ N ≥ N0, ∀ (ρ ε : ℝ)
    (z : ℕ → CState nH) (γ : ℕ → Vec n) (y : ℝ → Vec 5 × (Fin 3 → Fin 3 → ℝ) × Vec nH),
    0 ≤ ρ → ρ ≤ Rb → 0 ≤ ε → ε ≤ 1 → T / N * ε ≤ ρ → F.Solves T B Hr y →
    (∀ k ≤ N, z k ∈ region T B Hr) → (∀ k ≤ N, (z k).1 = T / N * k) →
    (∀ k < N, F.NumStep (T / N) ρ ε (z k) (z (k + 1)) (γ k) (γ (k + 1))) →
    ∀ k ≤ N, dist (z k).2 (y (T / N * k)) ≤ C * (dist (z 0).2 (y 0) + T / N + N * ρ) := by
  obtain ⟨A, A0, hA⟩ := num_step (F := F) hF Rb
  obtain ⟨M, M0, hM⟩ := exact_step (F := F) hF
  obtain ⟨L, L0, -, hL⟩ := BL.common fun ι => bl_fld (B := B) hF ι
  refine ⟨Real.exp (4 * L * T) * (1 + 2 * (A + M) * (T + 1)), by positivity, max 1 ⌈2 * L * T⌉₊,
    fun N hN ρ ε z γ y hρ hρ1 hε hε1 hερ hy hz hzt hst k hk => ?_⟩
  have hN1 : 1 ≤ N := (le_max_left _ _).trans hN
  have hNp : (0 : ℝ) < N := by exact_mod_cast hN1
  have hN2 : 2 * L * T ≤ N := (Nat.le_ceil _).trans (by exact_mod_cast (le_max_right _ _).trans hN)
  set dt := T / N with hdt
  have hdt0 : 0 < dt := by positivity
  have hdtN : dt * N = T := by rw [hdt]; field_simp
  have hdT : dt ≤ T := by
    rw [hdt, div_le_iff₀ hNp]
    have : (1 : ℝ) ≤ N := by exact_mod_cast hN1
    nlinarith
  have htk : ∀ k : ℕ, k ≤ N → dt * k ∈ Set.Icc 0 T := fun k hk => by
    refine ⟨by positivity, ?_⟩
    rw [← hdtN]
    exact mul_le_mul_of_nonneg_left (by exact_mod_cast hk) hdt0.le
  let δ : ℕ → ℝ := fun k => dist (z k).2 (y (dt * k))
  have hx : dt * L ≤ 1 / 2 := by
    rw [hdt, div_mul_eq_mul_div, div_le_iff₀ hNp]; nlinarith
  have hrec : ∀ k < N, δ (k + 1) ≤ δ k + dt * L * (δ (k + 1) + δ k) + (A + M) * (dt ^ 2 + ρ) := by
    intro k hk
    have hk' : k + 1 ≤ N := hk
    have hδ0 : 0 ≤ δ k := dist_nonneg
    have hδ1 : 0 ≤ δ (k + 1) := dist_nonneg
    have hLd : 0 ≤ dt * L := by positivity
    have hAM : 0 ≤ (A + M) * (dt ^ 2 + ρ) := by positivity
    refine dist_le_crd (by positivity) fun ι => ?_
    have a1 := hA dt ρ ε _ _ _ _ hdt0 hdT hρ hρ1 hερ hε hε1 (hz k hk.le) (hz _ hk') (hst k hk) ι
    have ht1 : dt * ((k + 1 : ℕ) : ℝ) - dt * k = dt := by push_cast; ring
    have a2 := hM y hy _ (htk k hk.le) _ (htk _ hk') (by linarith) ι
    rw [ht1] at a2
    have ez : z (k + 1) = (dt * ((k + 1 : ℕ) : ℝ), (z (k + 1)).2) := by rw [← hzt _ hk']
    have a3 := hL ι _ (hz _ hk') _ (hy.mem _ (htk _ hk'))
    have a4 : dist (z (k + 1)) (dt * ((k + 1 : ℕ) : ℝ), y (dt * ((k + 1 : ℕ) : ℝ))) = δ (k + 1) := by
      rw [Prod.dist_eq, hzt _ hk', dist_self]
      exact max_eq_right dist_nonneg
    rw [a4] at a3
    have a5 := crd_le_dist (z k).2 (y (dt * k)) ι
    have e : crd (z (k + 1)).2 ι - crd (y (dt * ((k + 1 : ℕ) : ℝ))) ι
        = (crd (z k).2 ι - crd (y (dt * k)) ι)
        + (crd (z (k + 1)).2 ι - crd (z k).2 ι - dt * F.fld (z (k + 1)) ι)
        - (crd (y (dt * ((k + 1 : ℕ) : ℝ))) ι - crd (y (dt * k)) ι
          - dt * F.fld (dt * ((k + 1 : ℕ) : ℝ), y (dt * ((k + 1 : ℕ) : ℝ))) ι)
        + dt * (F.fld (z (k + 1)) ι - F.fld (dt * ((k + 1 : ℕ) : ℝ), y (dt * ((k + 1 : ℕ) : ℝ))) ι) := by
      ring
    rw [e]
    have b1 := abs_add_le ((crd (z k).2 ι - crd (y (dt * k)) ι)
        + (crd (z (k + 1)).2 ι - crd (z k).2 ι - dt * F.fld (z (k + 1)) ι)
        - (crd (y (dt * ((k + 1 : ℕ) : ℝ))) ι - crd (y (dt * k)) ι
          - dt * F.fld (dt * ((k + 1 : ℕ) : ℝ), y (dt * ((k + 1 : ℕ) : ℝ))) ι))
        (dt * (F.fld (z (k + 1)) ι - F.fld (dt * ((k + 1 : ℕ) : ℝ), y (dt * ((k + 1 : ℕ) : ℝ))) ι))
    have b2 := abs_sub ((crd (z k).2 ι - crd (y (dt * k)) ι)
        + (crd (z (k + 1)).2 ι - crd (z k).2 ι - dt * F.fld (z (k + 1)) ι))
        (crd (y (dt * ((k + 1 : ℕ) : ℝ))) ι - crd (y (dt * k)) ι
          - dt * F.fld (dt * ((k + 1 : ℕ) : ℝ), y (dt * ((k + 1 : ℕ) : ℝ))) ι)
    have b3 := abs_add_le (crd (z k).2 ι - crd (y (dt * k)) ι)
        (crd (z (k + 1)).2 ι - crd (z k).2 ι - dt * F.fld (z (k + 1)) ι)
    have b4 : |dt * (F.fld (z (k + 1)) ι - F.fld (dt * ((k + 1 : ℕ) : ℝ), y (dt * ((k + 1 : ℕ) : ℝ))) ι)|
        ≤ dt * (L * δ (k + 1)) := by
      rw [abs_mul, abs_of_pos hdt0]; exact mul_le_mul_of_nonneg_left a3 hdt0.le
    have c1 : 0 ≤ dt * L * δ k := by positivity
    have c2 : 0 ≤ M * ρ := by positivity
    have a6 : |crd (z k).2 ι - crd (y (dt * k)) ι| ≤ δ k := a5
    nlinarith
  have hg := gronwall_implicit (x := dt * L) (ρ := (A + M) * (dt ^ 2 + ρ)) (by positivity) hx (by positivity)
    (fun k => (dist_nonneg : 0 ≤ δ k)) hrec k hk
  have hk2 : (k : ℝ) ≤ N := by exact_mod_cast hk
  simp only [Nat.cast_zero, mul_zero] at hg
  refine hg.trans ?_
  have he : Real.exp (4 * (dt * L) * k) ≤ Real.exp (4 * L * T) := by
    refine Real.exp_le_exp.2 ?_
    rw [← hdtN]
    calc 4 * (dt * L) * k ≤ 4 * (dt * L) * N := mul_le_mul_of_nonneg_left hk2 (by positivity)
      _ = _ := by ring
  rw [mul_assoc (Real.exp (4 * L * T))]
  refine mul_le_mul he ?_ (by positivity) (Real.exp_pos _).le
  have hd0 : 0 ≤ dist (z 0).2 (y 0) := dist_nonneg
  generalize dist (z 0).2 (y 0) = d0 at *
  have hAM : 0 ≤ A + M := by positivity
  have f1 : 2 * ((A + M) * (dt ^ 2 + ρ)) * k ≤ 2 * ((A + M) * (dt ^ 2 + ρ)) * N :=
    mul_le_mul_of_nonneg_left hk2 (by positivity)
  have f2 : 2 * ((A + M) * (dt ^ 2 + ρ)) * N = 2 * (A + M) * (dt * T + N * ρ) := by
    rw [← hdtN]; ring
  have f3 : dt * T + N * ρ ≤ (T + 1) * (d0 + dt + N * ρ) := by
    have : 0 ≤ N * ρ := by positivity
    nlinarith [mul_nonneg hT.le this, mul_nonneg hT.le hd0]
  have f4 := mul_le_mul_of_nonneg_left f3 (by positivity : 0 ≤ 2 * (A + M))
  have : 0 ≤ N * ρ := by positivity
  nlinarith

end RateEq
end Ecm
