/- A slip law that jumps from rest to a finite rate leaves steps without a solution: helper lemmas for
   property C78. -/
import Verif.Lemmas.ConvergeStep
import Verif.Lemmas.ConvergeSeq
import Verif.Lemmas.Solvable

namespace Ecm
open Spec
namespace Updst

variable (P : Updst 12)

theorem m35_apply_le {a b : Vec 5} {x y : ℝ} (ha : ∀ i, |a i| ≤ x) (hb : ∀ i, |b i| ≤ y) (i : Fin 3) :
    |vecsVMa (m35 a) b i| ≤ 10 * (x * y) := by
  have x0 : 0 ≤ x := (abs_nonneg _).trans (ha 0)
  have h3 : halfsqr3 ≤ 1 := by
    have : Real.sqrt 3 ≤ 2 := by
      rw [Real.sqrt_le_left (by norm_num)]; norm_num
    unfold halfsqr3; linarith
  have h0 : 0 ≤ halfsqr3 := by
    have := Real.sqrt_nonneg 3
    unfold halfsqr3; linarith
  have hm : ∀ j, |m35 a i j| ≤ 2 * x := by
    intro j
    have hk : ∀ k, -x ≤ a k ∧ a k ≤ x := fun k => abs_le.1 (ha k)
    have hk3 : ∀ k, -x ≤ a k * halfsqr3 ∧ a k * halfsqr3 ≤ x := fun k => abs_le.1 (by
      rw [abs_mul, abs_of_nonneg h0]; nlinarith [ha k, abs_nonneg (a k)])
    obtain ⟨a1, b1⟩ := hk 0
    obtain ⟨a2, b2⟩ := hk 1
    obtain ⟨a3, b3⟩ := hk 2
    obtain ⟨a4, b4⟩ := hk 3
    obtain ⟨a5, b5⟩ := hk 4
    obtain ⟨c1, d1⟩ := hk3 1
    obtain ⟨c2, d2⟩ := hk3 3
    obtain ⟨c3, d3⟩ := hk3 4
    rw [abs_le]
    fin_cases i <;> fin_cases j <;> simp only [m35] <;> constructor <;> simp <;> linarith
  unfold vecsVMa
  have := abs_sum_le (f := fun j => m35 a i j * b j) (b := 2 * x * y) fun j => abs_mul_le (hm j) (hb j)
  refine this.trans (le_of_eq ?_)
  push_cast; ring

/-- loading of the first slip system from rest, after the time `t`: rotation, elastic strain and the
    stress of the system -/
structure RestAt (p : Vec 5) (R₀ : Mat 3 3) (τc t : ℝ) (R : Mat 3 3) (e : Vec 5) : Prop where
  rot : ∀ i j, |R i j - R₀ i j| ≤ t / 100
  strain : ∀ i, |e i - t * (1 / 10 * p i)| ≤ t * (2 / 10 ^ 4)
  below : 10 ^ 5 * ∑ i, p i * e i < τc

variable {P} in
theorem RestAt.strain_dot {p : Vec 5} {R₀ : Mat 3 3} {τc t : ℝ} {R : Mat 3 3} {e : Vec 5}
    (h : RestAt p R₀ τc t R e) {u : Vec 5} (hu : ∀ i, |u i| ≤ 1) :
    |∑ i, u i * e i - t * (1 / 10 * ∑ i, p i * u i)| ≤ t * (1 / 1000) := by
  have e1 : ∑ i, u i * e i - t * (1 / 10 * ∑ i, p i * u i) = ∑ i, u i * (e i - t * (1 / 10 * p i)) := by
    simp only [Finset.mul_sum]
    rw [← Finset.sum_sub_distrib]
    exact Finset.sum_congr rfl fun i _ => by ring
  rw [e1]
  have := abs_sum_le (f := fun i => u i * (e i - t * (1 / 10 * p i))) (b := 1 * (t * (2 / 10 ^ 4)))
    fun i => abs_mul_le (hu i) (h.strain i)
  refine this.trans (le_of_eq ?_)
  push_cast; ring

/-- one accepted step of the loading, with a law that jumps from rest to a finite rate at `τc`: the material
    is still at rest and the stress is still below the threshold -/
theorem jump_step {c11 c12 c44 : ℝ} (hel : P.el = .cubic c11 c12 c44) (hK : ∀ i, P.el.kDiag i = 10 ^ 5)
    (hdt0 : 1 / 10 ^ 20 ≤ P.dt) (hdt1 : P.dt ≤ 1 / 10 ^ 8) (hv : P.detV = 1) (hcn : qn P.cN = 1)
    (ha0 : 0 < P.adotsRef) (ha2 : P.adotsRef ≤ 2) (s₀ : Fin 12)
    (hP1 : ∀ i s, |P.geom.P i s| ≤ 1) (hPP : ∑ i, P.geom.P i s₀ ^ 2 = 1 / 2)
    (hPs : ∀ s, s ≠ s₀ → |∑ i, P.geom.P i s₀ * P.geom.P i s| ≤ 1 / 3)
    {τc : ℝ} (hc1 : 4 ≤ τc) (hc2 : τc ≤ 9 / 2)
    (hb : ∀ s τ, |(P.gd s τ).gdot| ≤ 1) (hoff : ∀ s τ, |τ| < τc → (P.gd s τ).gdot = 0)
    (hon : ∀ s τ, τc ≤ τ → 18 / 100 ≤ (P.gd s τ).gdot)
    {R₀ : Mat 3 3} (hR0o : R₀ * R₀.transpose = 1)
    (hd : vecsVMTa (getRotMatVecd R₀) P.dSm = fun i => 1 / 10 * P.geom.P i s₀) (hw : P.wSm = 0)
    {t : ℝ} (ht : 0 ≤ t) (hI : RestAt (fun i => P.geom.P i s₀) R₀ τc t (quatToTensor P.cN) P.eN)
    {tol : ℝ} (htol : tol * (3 + 1 / 10 ^ 6 / P.dt) ≤ 1 / 10 ^ 4) {x : Vec 8}
    (hr : vecNorm (P.resid x) ≤ tol) :
    P.gdot x = 0 ∧ RestAt (fun i => P.geom.P i s₀) R₀ τc (t + P.dt) (P.cMatx x) (P.eF x) := by
  have hdt : 0 < P.dt := lt_of_lt_of_le (by norm_num) hdt0
  have tol0 : 0 ≤ tol := (vecNorm_nonneg _).trans hr
  have hav : P.aV = 1 := by rw [aV, hv, Real.one_rpow]
  have havri : P.aVri = 1 := by rw [aVri, hav, one_div_one]
  set p : Vec 5 := fun i => P.geom.P i s₀ with hp
  have hpn : vecNorm p ^ 2 = 1 / 2 := by rw [vecNorm_sq]; exact hPP
  have hRo := (isRot_of_unit (P.qn_cQuat hcn x)).1
  set d' := vecsVMTa (P.qr5x5 x) P.dSm with hd'
  have hdn : vecNorm P.dSm = 1 / 10 * vecNorm p := by
    rw [← vecNorm_vecsVMTa_rot hR0o P.dSm, hd]
    have h1 : vecNorm (fun i => 1 / 10 * P.geom.P i s₀) ^ 2 = (1 / 10 * vecNorm p) ^ 2 := by
      rw [vecNorm_sq, mul_pow, vecNorm_sq, Finset.mul_sum]
      exact Finset.sum_congr rfl fun i _ => by rw [mul_pow]
    exact (sq_eq_sq₀ (vecNorm_nonneg _) (mul_nonneg (by norm_num) (vecNorm_nonneg _))).1 h1
  have hdn' : vecNorm d' = 1 / 10 * vecNorm p := by
    rw [← hdn]; exact vecNorm_vecsVMTa_rot hRo P.dSm
  have hpn1 : vecNorm p ≤ 3 / 4 := abs_le_of_sq_le_sq' (by rw [hpn]; norm_num) (by norm_num) |>.2
  have hpn0 := vecNorm_nonneg p
  have h2 : vecNorm p * (1 / 10 * vecNorm p) = 1 / 20 := by nlinarith
  have htol' : tol * (P.adotsRef + vecNorm P.dSm + 1 / 10 ^ 6 / P.dt) ≤ 1 / 10 ^ 4 := by
    refine le_trans (mul_le_mul_of_nonneg_left ?_ tol0) htol
    rw [hdn]; linarith
  have hrE : ∀ i, |P.residE x i| ≤ 1 / 10 ^ 4 := fun i => (P.residE_abs_le hdt ha0 hr i).trans htol'
  have hrR : ∀ i, |P.residR x i| ≤ P.dt * (1 / 10 ^ 4) := fun i =>
    (P.residR_le hdt ha0 hr i).trans (mul_le_mul_of_nonneg_left htol' hdt.le)
  have hrn : vecNorm (P.residE x) ≤ 1 / 10 ^ 4 := (P.residE_le hdt ha0 hr).trans htol'
  -- the beginning of the step
  have e1 : ∑ i, p i * P.geom.P i s₀ = 1 / 2 := by
    rw [← hPP]; exact Finset.sum_congr rfl fun i _ => by rw [sq]
  have hτ₀ := hI.strain_dot (u := p) fun i => hP1 i s₀
  rw [show ∑ i, p i * p i = 1 / 2 from e1] at hτ₀
  obtain ⟨hτl, -⟩ := abs_le.1 hτ₀
  have hbel := hI.below
  set T₀ := ∑ i, p i * P.eN i with hT0
  have hκt : 10 ^ 5 * t ≤ 92 := by norm_num at hτl hbel ⊢; linarith
  -- the elastic strain
  have heF : ∀ i, P.eF x i = P.eN i + P.dt * (d' i + P.residE x i - vecsVMa P.geom.P (P.gdot x) i) := by
    intro i
    have := P.eF_eq hdt (hv ▸ one_pos) x i
    rw [hav, mul_one] at this
    exact this
  have hd'i : ∀ i, |d' i| ≤ 1 / 10 := fun i => (abs_le_vecNormN d' i).trans (by rw [hdn']; linarith)
  have hgb : ∀ s, |P.gdot x s| ≤ 1 := fun s => hb _ _
  have hPg : ∀ i, |vecsVMa P.geom.P (P.gdot x) i| ≤ 12 := by
    intro i
    have := abs_sum_le (f := fun s => P.geom.P i s * P.gdot x s) (b := 1 * 1)
      fun s => abs_mul_le (hP1 i s) (hgb s)
    refine this.trans (by norm_num)
  -- stresses
  have hpE : ∀ s, P.taua x s = 10 ^ 5 * ∑ i, P.geom.P i s * P.eF x i := by
    intro s
    rw [P.taua_cubic hel, havri, one_mul, Finset.mul_sum]
    exact Finset.sum_congr rfl fun i _ => by rw [hK]; ring
  have htau : ∀ s, P.taua x s = 10 ^ 5 * ∑ i, P.geom.P i s * P.eN i
      + 10 ^ 5 * P.dt * ∑ i, P.geom.P i s * (d' i + P.residE x i - vecsVMa P.geom.P (P.gdot x) i) := by
    intro s
    rw [hpE]
    simp only [heF, Finset.mul_sum]
    rw [← Finset.sum_add_distrib]
    exact Finset.sum_congr rfl fun i _ => by ring
  have hother : ∀ s, s ≠ s₀ → P.gdot x s = 0 := by
    intro s hs
    refine hoff s _ ?_
    have h1 := abs_le.1 (hPs s hs)
    have h3 : |∑ i, P.geom.P i s * (d' i + P.residE x i - vecsVMa P.geom.P (P.gdot x) i)| ≤ 5 * 13 := by
      have := abs_sum_le (m := 5) (f := fun i => P.geom.P i s
        * (d' i + P.residE x i - vecsVMa P.geom.P (P.gdot x) i)) (b := 1 * 13) fun i =>
        abs_mul_le (hP1 i s) (by
          have a1 := abs_le.1 (hd'i i); have a2 := abs_le.1 (hrE i); have a3 := abs_le.1 (hPg i)
          norm_num at a2
          rw [abs_le]; constructor <;> linarith)
      refine this.trans (by norm_num)
    have h4 := hI.strain_dot (u := fun i => P.geom.P i s) fun i => hP1 i s
    have h5 : |∑ i, P.geom.P i s * P.eN i| ≤ t * (35 / 1000) := by
      obtain ⟨a1, a2⟩ := abs_le.1 h4
      have b1 := mul_le_mul_of_nonneg_left h1.1 ht
      have b2 := mul_le_mul_of_nonneg_left h1.2 ht
      rw [abs_le]; constructor <;> linarith
    rw [htau]
    refine (abs_add_le _ _).trans_lt ?_
    rw [abs_mul (10 ^ 5), abs_mul (10 ^ 5 * P.dt), abs_of_nonneg (by positivity : (0 : ℝ) ≤ 10 ^ 5),
      abs_of_nonneg (by positivity : 0 ≤ 10 ^ 5 * P.dt)]
    have h6 := mul_le_mul_of_nonneg_left h5 (by positivity : (0 : ℝ) ≤ 10 ^ 5)
    have h7 := mul_le_mul_of_nonneg_left h3 (by positivity : 0 ≤ 10 ^ 5 * P.dt)
    norm_num at hdt1 h6 h7 hκt ⊢
    linarith
  set γ := P.gdot x s₀ with hγ
  have hPγ : ∀ i, vecsVMa P.geom.P (P.gdot x) i = p i * γ := by
    intro i
    show ∑ s, P.geom.P i s * P.gdot x s = _
    rw [Finset.sum_eq_single s₀ (fun s _ hs => by rw [hother s hs, mul_zero]) (by simp)]
  have htau0 : P.taua x s₀ = 10 ^ 5 * T₀
      + 10 ^ 5 * P.dt * (∑ i, p i * d' i + ∑ i, p i * P.residE x i - γ / 2) := by
    have e2 : ∑ i, P.geom.P i s₀ * (d' i + P.residE x i - vecsVMa P.geom.P (P.gdot x) i)
        = ∑ i, p i * d' i + ∑ i, p i * P.residE x i - γ * ∑ i, p i * P.geom.P i s₀ := by
      simp only [hPγ, Finset.mul_sum]
      rw [← Finset.sum_add_distrib, ← Finset.sum_sub_distrib]
      exact Finset.sum_congr rfl fun i _ => by simp only [hp]; ring
    rw [htau, e2, e1, hT0]; ring
  have hneg : ∀ u : Vec 5, -(vecNorm p * vecNorm u) ≤ ∑ i, p i * u i := by
    intro u
    have h3 := dot_le_vecNorm (fun i => -p i) u
    have e : vecNorm (fun i => -p i) = vecNorm p := by simp [vecNorm]
    rw [e] at h3
    simp only [neg_mul, Finset.sum_neg_distrib] at h3
    linarith
  have hprn : |∑ i, p i * P.residE x i| ≤ 1 / 10 ^ 4 := by
    have h3 := dot_le_vecNorm p (P.residE x)
    have h4 := hneg (P.residE x)
    have h5 : vecNorm p * vecNorm (P.residE x) ≤ 3 / 4 * (1 / 10 ^ 4) :=
      mul_le_mul hpn1 hrn (vecNorm_nonneg _) (by norm_num)
    norm_num at h5 ⊢
    rw [abs_le]; constructor <;> linarith
  obtain ⟨hp1, hp2⟩ := abs_le.1 hprn
  norm_num at hp1 hp2
  rcases le_or_gt τc (P.taua x s₀) with hcase | hcase
  · -- flowing: the stress falls below the threshold
    exfalso
    have hg := hon s₀ _ hcase
    change 18 / 100 ≤ γ at hg
    have h1 := dot_le_vecNorm p d'
    rw [hdn', h2] at h1
    have h3 : ∑ i, p i * d' i + ∑ i, p i * P.residE x i - γ / 2 ≤ -(1 / 50) := by linarith
    have h4 := mul_le_mul_of_nonneg_left h3 (by positivity : 0 ≤ 10 ^ 5 * P.dt)
    linarith
  · -- at rest
    have hlow : -τc < P.taua x s₀ := by
      have h1 := hneg d'
      rw [hdn', h2] at h1
      have h5 := (abs_le.1 (hgb s₀)).2
      change γ ≤ 1 at h5
      have h3 : -1 ≤ ∑ i, p i * d' i + ∑ i, p i * P.residE x i - γ / 2 := by linarith
      have h4 := mul_le_mul_of_nonneg_left h3 (by positivity : 0 ≤ 10 ^ 5 * P.dt)
      norm_num at hdt1 h4 htau0 hτl
      linarith
    have hg0 : γ = 0 := hoff s₀ _ (abs_lt.2 ⟨hlow, hcase⟩)
    have hall : P.gdot x = 0 := by
      funext s
      rcases eq_or_ne s s₀ with rfl | hs
      · exact hg0
      · exact hother s hs
    have ht1 : t + P.dt ≤ 1 / 1000 := by norm_num at hκt hdt1; linarith
    -- the rotation is small
    have hf : ∀ i, |P.edot x i| ≤ 2 / 10 := by
      intro i
      have e : P.edot x i = d' i + P.residE x i := by
        simp only [residE, havri, one_mul, hPγ, hg0, mul_zero]
        ring
      have a1 := abs_le.1 (hd'i i); have a2 := abs_le.1 (hrE i)
      norm_num at a2
      rw [e, abs_le]; constructor <;> linarith
    have heF' : ∀ i, P.eF x i = P.eN i + P.dt * (d' i + P.residE x i) := by
      intro i
      rw [heF, hPγ, hg0, mul_zero, sub_zero]
    have hEb : ∀ i, |P.eF x i| ≤ 1 / 1000 := by
      intro i
      rw [heF']
      have a1 := abs_le.1 (hd'i i); have a2 := abs_le.1 (hrE i)
      have h1 : |P.eN i| ≤ 5 / 10 ^ 4 := by
        have h3 := abs_le.1 (hI.strain i)
        have h4 := abs_le.1 (show |t * (1 / 10 * p i)| ≤ 1 / 1000 * (1 / 10 * 1) from
          abs_mul_le (by rw [abs_of_nonneg ht]; linarith) (abs_mul_le (by norm_num [abs_of_pos]) (hP1 i s₀)))
        norm_num at h3 h4 ⊢
        rw [abs_le]; constructor <;> linarith
      have h2 : |P.dt * (d' i + P.residE x i)| ≤ 1 / 10 ^ 8 * 1 := by
        refine abs_mul_le (by rw [abs_of_pos hdt]; exact hdt1) ?_
        norm_num at a2
        rw [abs_le]; constructor <;> linarith
      refine (abs_add_le _ _).trans ((add_le_add h1 h2).trans (by norm_num))
    have hxi : ∀ i, |xiF x i| ≤ P.dt * (12 / 10 ^ 4) := by
      intro i
      have e : xiF x i = P.residR x i + P.dt * (P.eeFac * vecsVMa (m35 (P.eF x)) (P.edot x) i) := by
        simp only [residR, hall, hw]
        have h3 : vecsVMa P.geom.Q (0 : Vec 12) i = 0 := by simp [vecsVMa]
        have h4 : vecsVMTa (P.cMatx x) (0 : Vec 3) i = 0 := by simp [vecsVMTa]
        rw [h3, h4]; ring
      have h3 := m35_apply_le hEb hf i
      have h4 : P.eeFac = 1 / 2 := by rw [eeFac, havri]; norm_num
      rw [e, h4]
      have h5 : |1 / 2 * vecsVMa (m35 (P.eF x)) (P.edot x) i| ≤ 1 / 1000 := by
        have a2 := abs_le.1 h3
        norm_num at a2
        rw [abs_le]; constructor <;> linarith
      have h6 := abs_mul_le (show |P.dt| ≤ P.dt by rw [abs_of_pos hdt]) h5
      refine (abs_add_le _ _).trans ((add_le_add (hrR i) h6).trans ?_)
      norm_num
      linarith
    have hxn : vecNorm (xiF x) ^ 2 ≤ 3 * (P.dt * (12 / 10 ^ 4)) ^ 2 := by
      rw [vecNorm_sq]
      have := Finset.sum_le_sum (s := Finset.univ) fun (i : Fin 3) _ =>
        show xiF x i ^ 2 ≤ (P.dt * (12 / 10 ^ 4)) ^ 2 from
          sq_le_sq' (by linarith [(abs_le.1 (hxi i)).1]) (abs_le.1 (hxi i)).2
      simpa using this
    have hrot1 : ∀ i j, |P.cMatx x i j - quatToTensor P.cN i j| ≤ P.dt / 100 := by
      intro i j
      have h1 := rot_increment (q := P.cN) (ξ := xiF x) hRo (P.cMatx_eq x) i j
      have h3 := RateEq.cross_mul_le (rot_abs_le hRo) hxi i j
      have h4 : 3 * (3 * vecNorm (xiF x) ^ 2 + 8 / 10 ^ 90) ≤ P.dt * (1 / 10 ^ 4) := by
        have h5 : (P.dt * (12 / 10 ^ 4)) ^ 2 ≤ P.dt * (1 / 10 ^ 12) := by
          rw [mul_pow, sq, mul_assoc]
          refine mul_le_mul_of_nonneg_left ?_ hdt.le
          calc P.dt * (12 / 10 ^ 4) ^ 2 ≤ 1 / 10 ^ 8 * (12 / 10 ^ 4) ^ 2 :=
                mul_le_mul_of_nonneg_right hdt1 (by positivity)
            _ ≤ 1 / 10 ^ 12 := by norm_num
        have h6 : (8 : ℝ) / 10 ^ 90 ≤ P.dt * (1 / 10 ^ 12) := by
          refine le_trans ?_ (mul_le_mul_of_nonneg_right hdt0 (by positivity))
          norm_num
        norm_num at hxn h5 h6 ⊢
        linarith
      have e : P.cMatx x i j - quatToTensor P.cN i j
          = (P.cMatx x i j - quatToTensor P.cN i j - (P.cMatx x * crossMat (xiF x)) i j)
          + (P.cMatx x * crossMat (xiF x)) i j := by ring
      rw [e]
      refine (abs_add_le _ _).trans ((add_le_add (h1.trans h4) h3).trans ?_)
      norm_num
      linarith
    have hrot : ∀ i j, |P.cMatx x i j - R₀ i j| ≤ (t + P.dt) / 100 := by
      intro i j
      have e : P.cMatx x i j - R₀ i j = (P.cMatx x i j - quatToTensor P.cN i j)
        + (quatToTensor P.cN i j - R₀ i j) := by ring
      rw [e]
      refine (abs_add_le _ _).trans ((add_le_add (hrot1 i j) (hI.rot i j)).trans ?_)
      linarith
    have h5 := getRotMatVecd_close hRo hR0o hrot
    have h6 : ∀ i, |d' i - 1 / 10 * p i| ≤ 1 / 10 ^ 4 := by
      intro i
      have := vecsVMTa_close h5 P.dSm i
      rw [hd] at this
      refine this.trans ?_
      have h7 : 4 * ((t + P.dt) / 100) * vecNorm P.dSm ≤ 4 * (1 / 1000 / 100) * (1 / 10) :=
        mul_le_mul (by linarith) (by rw [hdn]; linarith) (vecNorm_nonneg _) (by norm_num)
      push_cast
      norm_num at h7 ⊢
      linarith
    refine ⟨hall, hrot, fun i => ?_, ?_⟩
    · have e : P.eF x i - (t + P.dt) * (1 / 10 * p i) = (P.eN i - t * (1 / 10 * p i))
        + P.dt * ((d' i - 1 / 10 * p i) + P.residE x i) := by rw [heF']; ring
      rw [e]
      have h7 := abs_mul_le (show |P.dt| ≤ P.dt by rw [abs_of_pos hdt])
        ((abs_add_le _ _).trans (add_le_add (h6 i) (hrE i)))
      refine (abs_add_le _ _).trans ((add_le_add (hI.strain i) h7).trans (le_of_eq ?_))
      ring
    · have := hpE s₀
      rw [← this]; exact hcase

end Updst
end Ecm
