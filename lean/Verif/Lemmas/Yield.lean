/- Helper lemmas for C85: if some slip system carries a resolved stress above a yield stress in every stress state of
   a certain size, then elastic strains beyond that size relax. -/
import Verif.Lemmas.SlipBound
import Verif.Lemmas.SlipGeom
import Mathlib.Analysis.Normed.Module.FiniteDimension

namespace Ecm
open Spec

/-- some column of `A` resolves at least the fraction `c` of any vector -/
def Resolves {n : ℕ} (A : Mat 5 n) (c : ℝ) : Prop :=
  ∀ y : Vec 5, ∃ i, c * vecNorm y ≤ |vecsVaTM y A i|

theorem vecNorm5_le (v : Vec 5) : vecNorm v ≤ 5 * ‖v‖ := by
  refine Real.sqrt_le_iff.2 ⟨by positivity, ?_⟩
  have h : ∀ i, v i * v i ≤ ‖v‖ ^ 2 := by
    intro i
    have := norm_le_pi_norm v i
    rw [Real.norm_eq_abs] at this
    have := pow_le_pow_left₀ (abs_nonneg _) this 2
    rw [sq_abs] at this
    linarith
  calc ∑ i, v i * v i ≤ ∑ _i : Fin 5, ‖v‖ ^ 2 := Finset.sum_le_sum fun i _ => h i
    _ = 5 * ‖v‖ ^ 2 := by simp
    _ ≤ _ := by nlinarith [sq_nonneg ‖v‖]

/-- if only the zero vector is resolved to nothing, every vector is resolved to a fixed fraction of its length -/
theorem resolves_of_ker {n : ℕ} [NeZero n] (A : Mat 5 n) (h : ∀ y, (∀ i, vecsVaTM y A i = 0) → y = 0) :
    ∃ c > 0, Resolves A c := by
  let f : (Fin 5 → ℝ) →ₗ[ℝ] (Fin n → ℝ) :=
    { toFun := fun y => vecsVaTM y A
      map_add' := fun a b => by
        funext i; simp only [vecsVaTM, Pi.add_apply, add_mul, Finset.sum_add_distrib]
      map_smul' := fun a b => by
        funext i
        simp only [vecsVaTM, Pi.smul_apply, smul_eq_mul, mul_assoc, Finset.mul_sum, RingHom.id_apply] }
  have hk : LinearMap.ker f = ⊥ := by
    rw [LinearMap.ker_eq_bot']
    intro y hy
    exact h y fun i => congrFun hy i
  obtain ⟨K, hK0, hK⟩ := f.exists_antilipschitzWith hk
  have hK' : (0 : ℝ) < K := by exact_mod_cast hK0
  refine ⟨1 / (5 * K), by positivity, fun y => ?_⟩
  have h1 : ‖y‖ ≤ K * ‖vecsVaTM y A‖ := by
    have := hK.le_mul_dist y 0
    rwa [dist_zero_right, map_zero, dist_zero_right] at this
  obtain ⟨i, -, hi⟩ := Finset.exists_max_image Finset.univ (fun i => |vecsVaTM y A i|) ⟨(0 : Fin n), Finset.mem_univ _⟩
  refine ⟨i, ?_⟩
  have h2 : ‖vecsVaTM y A‖ ≤ |vecsVaTM y A i| := by
    rw [pi_norm_le_iff_of_nonneg (abs_nonneg _)]
    exact fun j => hi j (Finset.mem_univ _)
  have h3 := vecNorm5_le y
  rw [div_mul_eq_mul_div, div_le_iff₀ (by positivity), one_mul]
  have h4 := mul_le_mul_of_nonneg_left h2 hK'.le
  linarith

namespace Updst
variable {n : ℕ} (P : Updst n)

/-- as `wNorm_step`, with the plastic power kept -/
theorem wNorm_power {c11 c12 c44 : ℝ} (hel : P.el = .cubic c11 c12 c44) (hK : ∀ k, 0 < P.el.kDiag k)
    {κ : ℝ} (hκ : ∀ k, P.el.kDiag k ≤ κ) (hdt : 0 < P.dt) (hv : 0 < P.detV) (hcn : qn P.cN = 1) (x : Vec 8) :
    wNorm P.el.kDiag (P.eF x) ^ 2 + P.dt * P.aV * (P.aV * ∑ s, P.taua x s * P.gdot x s)
      ≤ wNorm P.el.kDiag (P.eF x) * (wNorm P.el.kDiag P.eN
        + P.dt * P.aV * (Real.sqrt κ * (vecNorm P.dSm + vecNorm (P.residE x)))) := by
  have hK' : ∀ k, 0 ≤ P.el.kDiag k := fun k => (hK k).le
  have ha := P.aV_pos hv
  set K := P.el.kDiag with hKd
  set D := vecsVMTa (P.qr5x5 x) P.dSm with hD
  set e' := P.eF x with he'
  have hR := isRot_of_unit (P.qn_cQuat hcn x)
  have hDn : vecNorm D = vecNorm P.dSm := vecNorm_vecsVMTa_rot hR.1 _
  have hpl : ∑ i, K i * e' i * vecsVMa P.geom.P (P.gdot x) i = P.aV * ∑ s, P.taua x s * P.gdot x s := by
    simp only [P.taua_cubic hel, vecsVMa, Finset.mul_sum, Finset.sum_mul]
    rw [Finset.sum_comm]
    refine Finset.sum_congr rfl fun s _ => Finset.sum_congr rfl fun i _ => ?_
    rw [← hKd, ← he']
    unfold aVri
    field_simp
  have hsq : wNorm K e' ^ 2 = ∑ i, K i * e' i * P.eN i
      + P.dt * P.aV * (∑ i, K i * e' i * (D + P.residE x) i)
      - P.dt * P.aV * ∑ i, K i * e' i * vecsVMa P.geom.P (P.gdot x) i := by
    rw [wNorm_sq hK', Finset.mul_sum, Finset.mul_sum, ← Finset.sum_add_distrib,
      ← Finset.sum_sub_distrib]
    refine Finset.sum_congr rfl fun i _ => ?_
    have := P.eF_eq hdt hv x i
    rw [← he', ← hD] at this
    calc K i * e' i ^ 2 = K i * e' i * e' i := by ring
      _ = K i * e' i * (P.eN i + P.dt * P.aV * (D i + P.residE x i
            - vecsVMa P.geom.P (P.gdot x) i)) := by rw [← this]
      _ = _ := by rw [Pi.add_apply]; ring
  have h1 := wDot_le hK' e' P.eN
  have h2 := wDot_le hK' e' (D + P.residE x)
  have h3 : wNorm K (D + P.residE x) ≤ Real.sqrt κ * (vecNorm P.dSm + vecNorm (P.residE x)) := by
    refine (wNorm_le hK' hκ _).trans (mul_le_mul_of_nonneg_left ?_ (Real.sqrt_nonneg _))
    rw [← hDn]; exact vecNorm_add_le _ _
  have hda : 0 < P.dt * P.aV := mul_pos hdt ha
  have h4 := mul_le_mul_of_nonneg_left h2 hda.le
  have h5 := mul_le_mul_of_nonneg_left (mul_le_mul_of_nonneg_left h3 (wNorm_nonneg K e')) hda.le
  rw [hsq, hpl]
  linarith

/-- elastic strain beyond what the yield stress carries relaxes -/
theorem wNorm_yield {c11 c12 c44 : ℝ} (hel : P.el = .cubic c11 c12 c44)
    {κ κ0 : ℝ} (hκ : ∀ k, P.el.kDiag k ≤ κ) (hκ0 : 0 < κ0) (hK : ∀ k, κ0 ≤ P.el.kDiag k)
    (hdt : 0 < P.dt) (hv : 0 < P.detV) (hcn : qn P.cN = 1)
    {c : ℝ} (hc : 0 < c) (hG : Resolves P.geom.P c) (x : Vec 8) (hd : ∀ s, 0 ≤ P.taua x s * P.gdot x s)
    {τY γY : ℝ} (hτ : 0 < τY) (hγ : 0 ≤ γY) (hy : ∀ s, τY ≤ |P.taua x s| → γY * |P.taua x s| ≤ P.taua x s * P.gdot x s)
    (hw : τY * P.aV ≤ c * Real.sqrt κ0 * wNorm P.el.kDiag (P.eF x)) :
    wNorm P.el.kDiag (P.eF x) ≤ wNorm P.el.kDiag P.eN
      + P.dt * P.aV * (Real.sqrt κ * (vecNorm P.dSm + vecNorm (P.residE x)) - c * Real.sqrt κ0 * γY) := by
  have hpos : ∀ k, 0 < P.el.kDiag k := fun k => hκ0.trans_le (hK k)
  have ha := P.aV_pos hv
  have h1 := P.wNorm_power hel hpos hκ hdt hv hcn x
  have hw0 : 0 < wNorm P.el.kDiag (P.eF x) := by
    have h2 : 0 < c * Real.sqrt κ0 * wNorm P.el.kDiag (P.eF x) := (mul_pos hτ ha).trans_le hw
    have h3 : 0 < c * Real.sqrt κ0 := mul_pos hc (Real.sqrt_pos.2 hκ0)
    exact pos_of_mul_pos_right h2 h3.le
  set w := wNorm P.el.kDiag (P.eF x) with hwd
  obtain ⟨s, hs⟩ := hG fun i => P.el.kDiag i * P.eF x i
  have e1 : P.taua x s = P.aVri * vecsVaTM (fun i => P.el.kDiag i * P.eF x i) P.geom.P s := P.taua_cubic hel x s
  have e2 : Real.sqrt κ0 * w ≤ vecNorm fun i => P.el.kDiag i * P.eF x i := by
    rw [hwd]
    unfold vecNorm wNorm
    rw [← Real.sqrt_mul hκ0.le]
    refine Real.sqrt_le_sqrt ?_
    rw [Finset.mul_sum]
    refine Finset.sum_le_sum fun i _ => ?_
    have := mul_le_mul_of_nonneg_right (hK i) (mul_nonneg (hpos i).le (sq_nonneg (P.eF x i)))
    nlinarith
  have e3 : c * Real.sqrt κ0 * w ≤ P.aV * |P.taua x s| := by
    rw [e1, abs_mul]
    unfold aVri
    rw [abs_of_pos (one_div_pos.2 ha), ← mul_assoc, mul_one_div_cancel ha.ne', one_mul, mul_assoc]
    exact (mul_le_mul_of_nonneg_left e2 hc.le).trans hs
  have e4 : τY ≤ |P.taua x s| := by
    refine le_of_mul_le_mul_left ?_ ha
    rw [mul_comm]
    exact hw.trans e3
  have e5 : γY * |P.taua x s| ≤ ∑ s, P.taua x s * P.gdot x s :=
    (hy s e4).trans (Finset.single_le_sum (f := fun s => P.taua x s * P.gdot x s) (fun i _ => hd i) (Finset.mem_univ s))
  have e6 : γY * (c * Real.sqrt κ0 * w) ≤ P.aV * ∑ s, P.taua x s * P.gdot x s := by
    calc γY * (c * Real.sqrt κ0 * w) ≤ γY * (P.aV * |P.taua x s|) := mul_le_mul_of_nonneg_left e3 hγ
      _ = P.aV * (γY * |P.taua x s|) := by ring
      _ ≤ _ := mul_le_mul_of_nonneg_left e5 ha.le
  have e7 := mul_le_mul_of_nonneg_left e6 (mul_pos hdt ha).le
  refine le_of_mul_le_mul_left ?_ hw0
  linarith

end Updst

/-! ### The cubic slip systems -/

/-- the squares of the resolved shear stresses of the {111}<110> systems -/
theorem sum_sq_111 (T : T3) (hT : IsDev T) :
    4 * ddot T T ≤ ∑ i, (∑ k, ∑ l, (i110 i k : ℝ) * (T k l * (i111 i l : ℝ))) ^ 2 := by
  obtain ⟨h1, h2, h3, h4⟩ := (isDev_iff T).1 hT
  simp only [ddot, Fin.sum_univ_succ, Fin.sum_univ_zero, i110, i111]
  simp
  generalize T 0 0 = d0 at *
  generalize T 1 1 = d1 at *
  rw [h1, h2, h3, h4]
  nlinarith [sq_nonneg d0, sq_nonneg d1, sq_nonneg (d0 + d1)]

theorem resolved_int {a b : Fin 12 → Fin 3 → ℤ} {m s : Fin 12 → Vec 3} {p q : ℝ} (hm : ∀ i k, m i k = p * (a i k : ℝ))
    (hs : ∀ i k, s i k = q * (b i k : ℝ)) (T : T3) (i : Fin 12) :
    dot (s i) (T.mulVec (m i)) = p * q * ∑ k, ∑ l, (b i k : ℝ) * (T k l * (a i l : ℝ)) := by
  simp only [dot, Matrix.mulVec, dotProduct, hm, hs, Finset.mul_sum]
  refine Finset.sum_congr rfl fun k _ => Finset.sum_congr rfl fun l _ => ?_
  ring

/-- some of the twelve {111}<110> systems carries a fixed fraction of any stress -/
theorem resolved_111 (T : T3) (hT : IsDev T) (g : Fin 12 → ℝ)
    (hg : ∀ i, g i ^ 2 = 1 / 6 * (∑ k, ∑ l, (i110 i k : ℝ) * (T k l * (i111 i l : ℝ))) ^ 2) :
    ∃ i, 1 / Real.sqrt 18 * Real.sqrt (ddot T T) ≤ |g i| := by
  have h1 := sum_sq_111 T hT
  by_contra hcon
  push Not at hcon
  have h2 : ∀ i, g i ^ 2 < ddot T T / 18 := by
    intro i
    have := pow_lt_pow_left₀ (hcon i) (abs_nonneg _) two_ne_zero
    rw [sq_abs, mul_pow, div_pow, one_pow, Real.sq_sqrt (by norm_num), Real.sq_sqrt] at this
    · linarith
    · unfold ddot
      exact Finset.sum_nonneg fun i _ => Finset.sum_nonneg fun j _ => mul_self_nonneg _
  have h3 : ∑ i, g i ^ 2 < ∑ _i : Fin 12, ddot T T / 18 :=
    Finset.sum_lt_sum_of_nonempty ⟨0, Finset.mem_univ _⟩ fun i _ => h2 i
  have h4 : ∑ i, g i ^ 2 = 1 / 6 * ∑ i, (∑ k, ∑ l, (i110 i k : ℝ) * (T k l * (i111 i l : ℝ))) ^ 2 := by
    rw [Finset.mul_sum]; exact Finset.sum_congr rfl fun i _ => hg i
  simp only [Finset.sum_const, Finset.card_univ, Fintype.card_fin, nsmul_eq_mul] at h3
  push_cast at h3
  linarith

end Ecm
