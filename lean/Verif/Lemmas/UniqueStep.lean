/- Helper lemmas for C79: two points that satisfy the equations of a step almost agree, in elastic strain,
   slip and rotation, however steeply the slip rates rise with the stress. -/
import Verif.Lemmas.SlipBound
import Verif.Lemmas.RotLip
import Verif.Lemmas.ConvergeStep

namespace Ecm
open Spec Ecm.Props

theorem vecsVMa_add {m n : ℕ} (A : Mat m n) (a b : Vec n) : vecsVMa A (a + b) = vecsVMa A a + vecsVMa A b := by
  funext k
  simp only [vecsVMa, Pi.add_apply, mul_add, Finset.sum_add_distrib]

theorem vecsVMa_sub {m n : ℕ} (A : Mat m n) (a b : Vec n) : vecsVMa A (a - b) = vecsVMa A a - vecsVMa A b := by
  funext k
  simp only [vecsVMa, Pi.sub_apply, mul_sub, Finset.sum_sub_distrib]

theorem vecNorm_zero {n : ℕ} : vecNorm (0 : Vec n) = 0 := by simp [vecNorm]

theorem vecNorm_sum_le {m n : ℕ} (f : Fin n → Vec m) : vecNorm (∑ i, f i) ≤ ∑ i, vecNorm (f i) := by
  classical
  induction (Finset.univ : Finset (Fin n)) using Finset.induction_on with
  | empty => simp [vecNorm_zero]
  | insert i s hi ih =>
    rw [Finset.sum_insert hi, Finset.sum_insert hi]
    exact (vecNorm_add_le _ _).trans (by linarith)

/-- a sum of columns -/
theorem vecNorm_vecsVMa_le {m n : ℕ} (A : Mat m n) {b : ℝ} (hb : ∀ i, vecNorm (fun k => A k i) ≤ b) (g : Vec n) :
    vecNorm (vecsVMa A g) ≤ b * ∑ i, |g i| := by
  have e : vecsVMa A g = ∑ i, g i • (fun k => A k i : Vec m) := by
    funext k
    simp only [vecsVMa, Finset.sum_apply, Pi.smul_apply, smul_eq_mul]
    exact Finset.sum_congr rfl fun i _ => mul_comm _ _
  rw [e, Finset.mul_sum]
  refine (vecNorm_sum_le _).trans (Finset.sum_le_sum fun i _ => ?_)
  rw [vecNorm_smul, mul_comm]
  exact mul_le_mul_of_nonneg_right (hb i) (abs_nonneg _)

theorem slip_columns {n : ℕ} {m s : Fin n → Vec 3} (h : ∀ i, IsSlipSystem (m i) (s i)) (i : Fin n) :
    vecNorm (fun k => (slipPQ m s).P k i) ≤ 1 ∧ vecNorm (fun k => (slipPQ m s).Q k i) ≤ 1 / 2 := by
  obtain ⟨h1, h2, h3⟩ := h i
  simp only [dot, Fin.sum_univ_three] at h1 h2 h3
  constructor
  · refine abs_le_of_sq_le_sq' ?_ (by norm_num) |>.2
    have e : ∑ k, (slipPQ m s).P k i ^ 2
        = 1 / 2 * ((s i 0 * s i 0 + s i 1 * s i 1 + s i 2 * s i 2) * (m i 0 * m i 0 + m i 1 * m i 1 + m i 2 * m i 2))
          + 1 / 6 * (m i 0 * s i 0 + m i 1 * s i 1 + m i 2 * s i 2) ^ 2 := by
      simp only [Fin.sum_univ_five, slipPQ, matToP, symmToVecd, vecsMsymm, vecsMaTb, Matrix.cons_val]
      generalize s i 0 = a; generalize s i 1 = b; generalize s i 2 = c
      generalize m i 0 = u; generalize m i 1 = v; generalize m i 2 = w
      sqr_ring
    rw [vecNorm_sq, e, h1, h2, h3]; norm_num
  · refine abs_le_of_sq_le_sq' ?_ (by norm_num) |>.2
    rw [vecNorm_sq, Fin.sum_univ_three]
    have e : (slipPQ m s).Q 0 i ^ 2 + (slipPQ m s).Q 1 i ^ 2 + (slipPQ m s).Q 2 i ^ 2
        = 1 / 4 * ((s i 0 * s i 0 + s i 1 * s i 1 + s i 2 * s i 2) * (m i 0 * m i 0 + m i 1 * m i 1 + m i 2 * m i 2)
          - (m i 0 * s i 0 + m i 1 * s i 1 + m i 2 * s i 2) ^ 2) := by
      simp [slipPQ, matToQ, vecsMaTb, skewToVeccp, vecsMskew]
      ring
    rw [e, h1, h2, h3]; norm_num

theorem m35_le (a b : Vec 5) : vecNorm (vecsVMa (m35 a) b) ≤ 2 * vecNorm a * vecNorm b := by
  obtain ⟨A, hA, rfl⟩ : ∃ A : T3, IsDev A ∧ symmToVecd A = a :=
    ⟨vecdToSymm a, vecdToSymm_isDev a, symmToVecd_vecdToSymm a⟩
  obtain ⟨B, hB, rfl⟩ : ∃ B : T3, IsDev B ∧ symmToVecd B = b :=
    ⟨vecdToSymm b, vecdToSymm_isDev b, symmToVecd_vecdToSymm b⟩
  rw [show vecsVMa (m35 (symmToVecd A)) (symmToVecd B) = axial (B * A - A * B) from
    (C08_commutator B A hB.1 hA.1).1, ← frob_vecd hA, ← frob_vecd hB]
  have h1 : ∀ X : T3, vecNorm (axial X) ≤ frob X := by
    intro X
    unfold vecNorm frob
    refine Real.sqrt_le_sqrt ?_
    simp only [axial, ddot, Fin.sum_univ_three, Matrix.cons_val]
    nlinarith [sq_nonneg (X 2 1 + X 1 2), sq_nonneg (X 0 2 + X 2 0), sq_nonneg (X 1 0 + X 0 1), sq_nonneg (X 0 0),
      sq_nonneg (X 1 1), sq_nonneg (X 2 2), sq_nonneg (X 2 1), sq_nonneg (X 1 2), sq_nonneg (X 0 2),
      sq_nonneg (X 2 0), sq_nonneg (X 1 0), sq_nonneg (X 0 1)]
  refine (h1 _).trans ?_
  have e : B * A - A * B = B * A + A.transpose * (-B) := by rw [hA.1]; simp [sub_eq_add_neg]
  rw [e]
  refine (frob_add_le _ _).trans ?_
  have h2 := frob_mul_le B A
  have h3 := frob_mul_le A.transpose (-B)
  rw [frob_transpose, show frob (-B) = frob B by simp [frob, ddot]] at h3
  nlinarith

theorem m35_self (a b : Vec 5) (c : ℝ) : vecsVMa (m35 (a + c • b)) b = vecsVMa (m35 a) b := by
  funext i
  fin_cases i <;> simp [vecsVMa, m35, Fin.sum_univ_five] <;> ring

/-- the part of a difference of slip rates that follows the difference of the stresses -/
theorem exists_follows {n : ℕ} {d t : Vec n} {ε : ℝ} (hε : 0 ≤ ε)
    (h : ∀ i, (t i = 0 → d i = 0) ∧ (0 < t i → -ε ≤ d i) ∧ (t i < 0 → d i ≤ ε)) :
    ∃ g : Vec n, Follows g t ∧ ∀ i, |d i - g i| ≤ ε := by
  classical
  refine ⟨fun i => if 0 < t i then max (d i) 0 else if t i < 0 then min (d i) 0 else 0, fun i => ⟨?_, ?_⟩,
    fun i => ?_⟩
  · beta_reduce
    split_ifs with h1 h2
    · exact mul_nonneg (le_max_right _ _) h1.le
    · exact mul_nonneg_of_nonpos_of_nonpos (min_le_right _ _) h2.le
    · rw [zero_mul]
  · intro h0
    simp [h0]
  · beta_reduce
    obtain ⟨a1, a2, a3⟩ := h i
    split_ifs with h1 h2
    · have := a2 h1
      rcases max_cases (d i) 0 with ⟨e, -⟩ | ⟨e, he⟩ <;> rw [e, abs_le] <;> constructor <;> linarith
    · have := a3 h2
      rcases min_cases (d i) 0 with ⟨e, -⟩ | ⟨e, he⟩ <;> rw [e, abs_le] <;> constructor <;> linarith
    · rw [a1 (le_antisymm (not_lt.1 h1) (not_lt.1 h2))]
      simpa using hε

namespace Updst
variable {n : ℕ} (P : Updst n)

/-- The strain equations at two points, with right-hand sides `Fx` and `Fy`: elastic strain and slip. -/
theorem pair_strain {κ₀ κ K ε : ℝ} (hκ₀ : 0 < κ₀) (h0 : ∀ k, κ₀ ≤ P.el.kDiag k) (h1 : ∀ k, P.el.kDiag k ≤ κ)
    (hdt : 0 < P.dt) (hv : 0 < P.detV) (hSB : SlipBound P.geom.P K) (hK : 0 ≤ K)
    (hP : ∀ i, vecNorm (fun k => P.geom.P k i) ≤ 1) {x y : Vec 8} {Fx Fy : Vec 5} {γx γy g : Vec n}
    (hx : P.eF x = P.eN + (P.dt * P.aV) • (Fx - vecsVMa P.geom.P γx))
    (hy : P.eF y = P.eN + (P.dt * P.aV) • (Fy - vecsVMa P.geom.P γy))
    (hg : Follows g (P.taua x - P.taua y)) (hge : ∀ i, |γx i - γy i - g i| ≤ ε) :
    vecNorm (P.eF x - P.eF y) ≤ P.dt * P.aV * (Real.sqrt (κ / κ₀) * (vecNorm (Fx - Fy) + n * ε)) ∧
      ∑ i, |g i| ≤ K * ((1 + Real.sqrt (κ / κ₀)) * (vecNorm (Fx - Fy) + n * ε)) := by
  have ha := P.aV_pos hv
  have hda : 0 < P.dt * P.aV := mul_pos hdt ha
  have hK0 : ∀ k, 0 < P.el.kDiag k := fun k => lt_of_lt_of_le hκ₀ (h0 k)
  have hK' : ∀ k, 0 ≤ P.el.kDiag k := fun k => (hK0 k).le
  have hκ : 0 ≤ κ := (hK' 0).trans (h1 0)
  set Kd := P.el.kDiag with hKd
  set u := P.eF x - P.eF y with hu
  set r : Vec n := γx - γy - g with hr
  set F' : Vec 5 := Fx - Fy - vecsVMa P.geom.P r with hF'
  have hrn : vecNorm (vecsVMa P.geom.P r) ≤ n * ε := by
    refine (vecNorm_vecsVMa_le _ hP r).trans ?_
    rw [one_mul]
    refine (Finset.sum_le_sum fun i _ => hge i).trans (le_of_eq ?_)
    simp
  have hφ : vecNorm F' ≤ vecNorm (Fx - Fy) + n * ε := by
    have e : F' = (Fx - Fy) + (-1 : ℝ) • vecsVMa P.geom.P r := by rw [hF']; module
    rw [e]
    refine (vecNorm_add_le _ _).trans ?_
    rw [vecNorm_smul]; norm_num; linarith
  have hui : u = (P.dt * P.aV) • (F' - vecsVMa P.geom.P g) := by
    rw [hu, hx, hy, hF', hr, vecsVMa_sub, vecsVMa_sub]
    module
  have ht : P.taua x - P.taua y = vecsVaTM (fun k => P.aVri * (Kd k * u k)) P.geom.P := by
    funext i
    rw [Pi.sub_apply, P.taua_sub, vecsVaTM, Finset.mul_sum]
    exact Finset.sum_congr rfl fun k _ => by rw [hu, Pi.sub_apply, hKd]; ring
  have hpow : 0 ≤ ∑ k, Kd k * u k * vecsVMa P.geom.P g k := by
    have h := slip_power P.geom.P (fun k => P.aVri * (Kd k * u k)) g
    rw [← ht] at h
    have h2 : 0 ≤ ∑ i, g i * (P.taua x - P.taua y) i := Finset.sum_nonneg fun i _ => (hg i).1
    rw [← h] at h2
    have e : ∑ k, P.aVri * (Kd k * u k) * vecsVMa P.geom.P g k
        = P.aVri * ∑ k, Kd k * u k * vecsVMa P.geom.P g k := by
      rw [Finset.mul_sum]; exact Finset.sum_congr rfl fun k _ => by ring
    rw [e] at h2
    exact nonneg_of_mul_nonneg_right h2 (by unfold aVri; exact one_div_pos.2 ha)
  have hsq : wNorm Kd u ^ 2 ≤ P.dt * P.aV * (wNorm Kd u * wNorm Kd F') := by
    have e : wNorm Kd u ^ 2 = P.dt * P.aV * (∑ k, Kd k * u k * F' k)
        - P.dt * P.aV * ∑ k, Kd k * u k * vecsVMa P.geom.P g k := by
      rw [wNorm_sq hK', Finset.mul_sum, Finset.mul_sum, ← Finset.sum_sub_distrib]
      refine Finset.sum_congr rfl fun k _ => ?_
      have : u k = P.dt * P.aV * (F' k - vecsVMa P.geom.P g k) := by
        conv_lhs => rw [hui]
        simp
      calc Kd k * u k ^ 2 = Kd k * u k * u k := by ring
        _ = Kd k * u k * (P.dt * P.aV * (F' k - vecsVMa P.geom.P g k)) := by rw [← this]
        _ = _ := by ring
    rw [e]
    have := mul_le_mul_of_nonneg_left (wDot_le hK' u F') hda.le
    have := mul_nonneg hda.le hpow
    linarith
  have hw : wNorm Kd u ≤ P.dt * P.aV * wNorm Kd F' := by
    rcases (wNorm_nonneg Kd u).eq_or_lt with h | h
    · rw [← h]; exact mul_nonneg hda.le (wNorm_nonneg _ _)
    · refine le_of_mul_le_mul_left ?_ h
      calc wNorm Kd u * wNorm Kd u = wNorm Kd u ^ 2 := by ring
        _ ≤ _ := hsq
        _ = _ := by ring
  have hlow : Real.sqrt κ₀ * vecNorm u ≤ wNorm Kd u := by
    rw [show Real.sqrt κ₀ * vecNorm u = Real.sqrt (κ₀ * ∑ k, u k * u k) by
      unfold vecNorm; rw [Real.sqrt_mul hκ₀.le]]
    unfold wNorm
    refine Real.sqrt_le_sqrt ?_
    rw [Finset.mul_sum]
    refine Finset.sum_le_sum fun k _ => ?_
    have := mul_le_mul_of_nonneg_right (h0 k) (sq_nonneg (u k))
    nlinarith
  have hs0 : 0 < Real.sqrt κ₀ := Real.sqrt_pos.2 hκ₀
  have hu1 : vecNorm u ≤ P.dt * P.aV * (Real.sqrt (κ / κ₀) * (vecNorm (Fx - Fy) + n * ε)) := by
    have h2 := wNorm_le hK' h1 F'
    have h3 : Real.sqrt κ₀ * vecNorm u ≤ P.dt * P.aV * (Real.sqrt κ * (vecNorm (Fx - Fy) + n * ε)) :=
      hlow.trans (hw.trans (mul_le_mul_of_nonneg_left
        (h2.trans (mul_le_mul_of_nonneg_left hφ (Real.sqrt_nonneg _))) hda.le))
    rw [Real.sqrt_div hκ]
    rw [← le_div_iff₀' hs0] at h3
    refine h3.trans (le_of_eq ?_)
    ring
  refine ⟨hu1, ?_⟩
  have hPg : vecNorm (vecsVMa P.geom.P g) ≤ (1 + Real.sqrt (κ / κ₀)) * (vecNorm (Fx - Fy) + n * ε) := by
    have e : vecsVMa P.geom.P g = F' + (-(1 / (P.dt * P.aV))) • u := by
      rw [hui, smul_smul, neg_mul, one_div_mul_cancel hda.ne']
      module
    rw [e]
    refine (vecNorm_add_le _ _).trans ?_
    rw [vecNorm_smul, abs_neg, abs_of_pos (one_div_pos.2 hda)]
    have h2 : 1 / (P.dt * P.aV) * vecNorm u ≤ Real.sqrt (κ / κ₀) * (vecNorm (Fx - Fy) + n * ε) := by
      rw [one_div, inv_mul_le_iff₀ hda]; exact hu1
    linarith
  refine (hSB g (fun k => P.aVri * (Kd k * u k)) (ht ▸ hg)).trans ?_
  exact mul_le_mul_of_nonneg_left hPg hK

/-- The rotation equations at two points, with right-hand sides `Wx` and `Wy`. -/
theorem pair_rot {κ₀ κ K ε : ℝ} (hκ₀ : 0 < κ₀) (h0 : ∀ k, κ₀ ≤ P.el.kDiag k) (h1 : ∀ k, P.el.kDiag k ≤ κ)
    (hdt : 0 < P.dt) (hv : 0 < P.detV) (hSB : SlipBound P.geom.P K) (hK : 0 ≤ K)
    (hP : ∀ i, vecNorm (fun k => P.geom.P k i) ≤ 1) (hQ : ∀ i, vecNorm (fun k => P.geom.Q k i) ≤ 1 / 2)
    {x y : Vec 8} {Fx Fy : Vec 5} {Wx Wy : Vec 3} {γx γy g : Vec n}
    (hx : P.eF x = P.eN + (P.dt * P.aV) • (Fx - vecsVMa P.geom.P γx))
    (hy : P.eF y = P.eN + (P.dt * P.aV) • (Fy - vecsVMa P.geom.P γy))
    (hg : Follows g (P.taua x - P.taua y)) (hge : ∀ i, |γx i - γy i - g i| ≤ ε)
    (hX : xiF x = P.dt • (Wx - vecsVMa P.geom.Q γx + P.eeFac • vecsVMa (m35 (P.eF x)) (P.edot x)))
    (hY : xiF y = P.dt • (Wy - vecsVMa P.geom.Q γy + P.eeFac • vecsVMa (m35 (P.eF y)) (P.edot y))) :
    vecNorm (xiF x - xiF y) ≤ P.dt * (vecNorm (Wx - Wy) + (K * (1 + Real.sqrt (κ / κ₀)) / 2
      + Real.sqrt (κ / κ₀) * vecNorm P.eN / P.aV) * (vecNorm (Fx - Fy) + n * ε) + n * ε) := by
  obtain ⟨b1, b2⟩ := P.pair_strain hκ₀ h0 h1 hdt hv hSB hK hP hx hy hg hge
  have ha := P.aV_pos hv
  set r : Vec n := γx - γy - g with hr
  set φ := vecNorm (Fx - Fy) + n * ε with hφ
  set c := Real.sqrt (κ / κ₀) with hc
  have hspin : ∀ z, vecsVMa (m35 (P.eF z)) (P.edot z) = (1 / P.dt) • vecsVMa (m35 P.eN) (P.eF z - P.eN) := by
    intro z
    rw [P.edot_eq, slipSum_smul]
    congr 1
    have h := m35_self P.eN (P.eF z - P.eN) 1
    rwa [one_smul, add_sub_cancel] at h
  have e : xiF x - xiF y = P.dt • ((Wx - Wy) + (-1 : ℝ) • vecsVMa P.geom.Q g + (-1 : ℝ) • vecsVMa P.geom.Q r
      + (P.eeFac * (1 / P.dt)) • vecsVMa (m35 P.eN) (P.eF x - P.eF y)) := by
    have e1 : vecsVMa (m35 P.eN) (P.eF x - P.eF y)
        = vecsVMa (m35 P.eN) (P.eF x - P.eN) - vecsVMa (m35 P.eN) (P.eF y - P.eN) := by
      rw [← vecsVMa_sub]; congr 1; module
    rw [hX, hY, hspin, hspin, e1, hr, vecsVMa_sub P.geom.Q (γx - γy) g, vecsVMa_sub P.geom.Q γx γy]
    module
  rw [e, vecNorm_smul, abs_of_pos hdt]
  refine mul_le_mul_of_nonneg_left ?_ hdt.le
  have hee : P.eeFac = 1 / (2 * P.aV ^ 2) := by
    unfold eeFac aVri
    rw [one_div_mul_one_div, one_div_mul_one_div]
    congr 1; ring
  have t1 : vecNorm ((-1 : ℝ) • vecsVMa P.geom.Q g) ≤ 1 / 2 * (K * ((1 + c) * φ)) := by
    rw [vecNorm_smul, abs_neg, abs_one, one_mul]
    exact (vecNorm_vecsVMa_le _ hQ g).trans (mul_le_mul_of_nonneg_left b2 (by norm_num))
  have hsr : ∑ i, |r i| ≤ n * ε := by
    refine (Finset.sum_le_sum fun i _ => hge i).trans (le_of_eq ?_)
    simp
  have t2 : vecNorm ((-1 : ℝ) • vecsVMa P.geom.Q r) ≤ n * ε := by
    rw [vecNorm_smul, abs_neg, abs_one, one_mul]
    have := vecNorm_vecsVMa_le _ hQ r
    have h0 : 0 ≤ ∑ i, |r i| := Finset.sum_nonneg fun i _ => abs_nonneg _
    linarith
  have t3 : vecNorm ((P.eeFac * (1 / P.dt)) • vecsVMa (m35 P.eN) (P.eF x - P.eF y))
      ≤ c * vecNorm P.eN / P.aV * φ := by
    rw [vecNorm_smul, hee, abs_of_pos (by positivity)]
    have h2 := m35_le P.eN (P.eF x - P.eF y)
    have h3 := mul_le_mul_of_nonneg_left b1 (mul_nonneg zero_le_two (vecNorm_nonneg P.eN))
    have h4 := mul_le_mul_of_nonneg_left (h2.trans h3)
      (show 0 ≤ 1 / (2 * P.aV ^ 2) * (1 / P.dt) by positivity)
    refine h4.trans (le_of_eq ?_)
    field_simp
  refine (vecNorm_add_le _ _).trans ?_
  have s1 := vecNorm_add_le (Wx - Wy + (-1 : ℝ) • vecsVMa P.geom.Q g) ((-1 : ℝ) • vecsVMa P.geom.Q r)
  have s2 := vecNorm_add_le (Wx - Wy) ((-1 : ℝ) • vecsVMa P.geom.Q g)
  have e2 : (K * (1 + c) / 2 + c * vecNorm P.eN / P.aV) * φ
      = 1 / 2 * (K * ((1 + c) * φ)) + c * vecNorm P.eN / P.aV * φ := by ring
  rw [e2]
  linarith

/-- **Two points of one step.**  `D` and `W` are the sizes of the imposed rate and spin, `η` the defect of the
    map from rotation increments to rotations, `ρ` and `σ` the residuals. -/
theorem pair_bound {κ₀ κ K ε D W η ρ σ : ℝ} (hκ₀ : 0 < κ₀) (h0 : ∀ k, κ₀ ≤ P.el.kDiag k)
    (h1 : ∀ k, P.el.kDiag k ≤ κ)
    (hdt : 0 < P.dt) (hv : 0 < P.detV) (hSB : SlipBound P.geom.P K) (hK : 0 ≤ K)
    (hP : ∀ i, vecNorm (fun k => P.geom.P k i) ≤ 1) (hQ : ∀ i, vecNorm (fun k => P.geom.Q k i) ≤ 1 / 2)
    {x y : Vec 8} {Fx Fy : Vec 5} {Wx Wy : Vec 3} {γx γy g : Vec n}
    (hx : P.eF x = P.eN + (P.dt * P.aV) • (Fx - vecsVMa P.geom.P γx))
    (hy : P.eF y = P.eN + (P.dt * P.aV) • (Fy - vecsVMa P.geom.P γy))
    (hg : Follows g (P.taua x - P.taua y)) (hge : ∀ i, |γx i - γy i - g i| ≤ ε)
    (hX : xiF x = P.dt • (Wx - vecsVMa P.geom.Q γx + P.eeFac • vecsVMa (m35 (P.eF x)) (P.edot x)))
    (hY : xiF y = P.dt • (Wy - vecsVMa P.geom.Q γy + P.eeFac • vecsVMa (m35 (P.eF y)) (P.edot y)))
    (hF : vecNorm (Fx - Fy) ≤ 3 * D * (vecNorm (xiF x - xiF y) + η) + ρ)
    (hW : vecNorm (Wx - Wy) ≤ 3 / 2 * W * (vecNorm (xiF x - xiF y) + η) + σ)
    (hη : 0 ≤ η) (b : ℝ) (hb : b = K * (1 + Real.sqrt (κ / κ₀)) / 2 + Real.sqrt (κ / κ₀) * vecNorm P.eN / P.aV)
    (hsmall : P.dt * (3 / 2 * W + 3 * b * D) ≤ 1 / 2) :
    vecNorm (xiF x - xiF y) ≤ η + 2 * P.dt * (σ + b * (ρ + n * ε) + n * ε) := by
  have h := P.pair_rot hκ₀ h0 h1 hdt hv hSB hK hP hQ hx hy hg hge hX hY
  rw [← hb] at h
  have ha := P.aV_pos hv
  have hb0 : 0 ≤ b := by
    rw [hb]
    have := vecNorm_nonneg P.eN
    positivity
  set δ := vecNorm (xiF x - xiF y) with hδ
  have hδ0 : 0 ≤ δ := vecNorm_nonneg _
  have h2 : b * (vecNorm (Fx - Fy) + n * ε) ≤ b * (3 * D * (δ + η) + ρ + n * ε) :=
    mul_le_mul_of_nonneg_left (by linarith) hb0
  have h3 : δ ≤ P.dt * (3 / 2 * W * (δ + η) + σ + b * (3 * D * (δ + η) + ρ + n * ε) + n * ε) :=
    h.trans (mul_le_mul_of_nonneg_left (by linarith) hdt.le)
  have e : P.dt * (3 / 2 * W * (δ + η) + σ + b * (3 * D * (δ + η) + ρ + n * ε) + n * ε)
      = P.dt * (3 / 2 * W + 3 * b * D) * (δ + η) + P.dt * (σ + b * (ρ + n * ε) + n * ε) := by ring
  rw [e] at h3
  have h4 := mul_le_mul_of_nonneg_right hsmall (add_nonneg hδ0 hη)
  linarith

/-- the equations of a step in the form used above -/
theorem strain_form (hdt : 0 < P.dt) (hv : 0 < P.detV) (x : Vec 8) :
    P.eF x = P.eN + (P.dt * P.aV) • (vecsVMTa (P.qr5x5 x) P.dSm + P.residE x - vecsVMa P.geom.P (P.gdot x)) := by
  funext i
  rw [P.eF_eq hdt hv x i]
  rfl

theorem spin_form (hdt : 0 < P.dt) (x : Vec 8) :
    xiF x = P.dt • (vecsVMTa (P.cMatx x) P.wSm + (1 / P.dt) • P.residR x - vecsVMa P.geom.Q (P.gdot x)
      + P.eeFac • vecsVMa (m35 (P.eF x)) (P.edot x)) := by
  funext i
  simp only [residR, Pi.add_apply, Pi.sub_apply, Pi.smul_apply, smul_eq_mul]
  field_simp
  ring

/-- what the tolerance allows in the equations at two accepted points -/
theorem resid_pair (hdt : 0 < P.dt) (ha : 0 < P.adotsRef) {tol θ : ℝ} {x y : Vec 8}
    (hθ : tol * (P.adotsRef + vecNorm P.dSm + 1 / 10 ^ 6 / P.dt) ≤ θ)
    (hx : vecNorm (P.resid x) ≤ tol) (hy : vecNorm (P.resid y) ≤ tol) :
    vecNorm (P.residE x - P.residE y) ≤ 2 * θ ∧
      vecNorm ((1 / P.dt) • P.residR x - (1 / P.dt) • P.residR y) ≤ 4 * θ := by
  have hsub : ∀ {k : ℕ} (a b : Vec k), vecNorm (a - b) ≤ vecNorm a + vecNorm b := by
    intro k a b
    have e : a - b = a + (-1 : ℝ) • b := by module
    rw [e]
    refine (vecNorm_add_le _ _).trans ?_
    rw [vecNorm_smul]; norm_num
  have hR : ∀ z, vecNorm (P.resid z) ≤ tol → vecNorm ((1 / P.dt) • P.residR z) ≤ 2 * θ := by
    intro z hz
    have h0 : 0 ≤ θ := by
      refine le_trans (mul_nonneg ((vecNorm_nonneg _).trans hz) ?_) hθ
      have := vecNorm_nonneg P.dSm
      positivity
    rw [vecNorm_smul, abs_of_pos (one_div_pos.2 hdt), one_div, inv_mul_le_iff₀ hdt]
    refine abs_le_of_sq_le_sq' ?_ (by positivity) |>.2
    rw [vecNorm_sq, Fin.sum_univ_three]
    have h : ∀ i, P.residR z i ^ 2 ≤ (P.dt * θ) ^ 2 := fun i => by
      rw [← sq_abs]
      exact pow_le_pow_left₀ (abs_nonneg _)
        ((P.residR_le hdt ha hz i).trans (mul_le_mul_of_nonneg_left hθ hdt.le)) 2
    nlinarith [h 0, h 1, h 2, sq_nonneg (P.dt * θ)]
  constructor
  · have h1 := P.residE_le hdt ha hx
    have h2 := P.residE_le hdt ha hy
    exact (hsub _ _).trans (by linarith)
  · exact (hsub _ _).trans (by linarith [hR x hx, hR y hy])

/-- **Two accepted points of one step** agree: rotation increments, imposed rates seen from the lattice, elastic
    strains and slip rates. -/
theorem agree {κ₀ κ K ε tol θ : ℝ} (hκ₀ : 0 < κ₀) (h0 : ∀ k, κ₀ ≤ P.el.kDiag k) (h1 : ∀ k, P.el.kDiag k ≤ κ)
    (hdt : 0 < P.dt) (hv : 0 < P.detV) (hcn : qn P.cN = 1) (hSB : SlipBound P.geom.P K) (hK : 0 ≤ K)
    (hP : ∀ i, vecNorm (fun k => P.geom.P k i) ≤ 1) (hQ : ∀ i, vecNorm (fun k => P.geom.Q k i) ≤ 1 / 2)
    (hε : 0 ≤ ε) (ha : 0 < P.adotsRef) (hθ : tol * (P.adotsRef + vecNorm P.dSm + 1 / 10 ^ 6 / P.dt) ≤ θ)
    {x y : Vec 8} (hx : vecNorm (P.resid x) ≤ tol) (hy : vecNorm (P.resid y) ≤ tol)
    (hm1 : ∀ i, P.taua x i ≤ P.taua y i → P.gdot x i ≤ P.gdot y i + ε)
    (hm2 : ∀ i, P.taua y i ≤ P.taua x i → P.gdot y i ≤ P.gdot x i + ε) (b : ℝ)
    (hb : b = K * (1 + Real.sqrt (κ / κ₀)) / 2 + Real.sqrt (κ / κ₀) * vecNorm P.eN / P.aV)
    (hsmall : P.dt * (3 / 2 * vecNorm P.wSm + 3 * b * vecNorm P.dSm) ≤ 1 / 2)
    (δ φ : ℝ) (hδ : δ = 8 / 10 ^ 90 + 2 * P.dt * (4 * θ + b * (2 * θ + n * ε) + n * ε))
    (hφ : φ = 3 * vecNorm P.dSm * (δ + 8 / 10 ^ 90) + 2 * θ + n * ε) :
    vecNorm (xiF x - xiF y) ≤ δ ∧
      vecNorm (P.eF x - P.eF y) ≤ P.dt * P.aV * (Real.sqrt (κ / κ₀) * φ) ∧
      ∑ i, |P.gdot x i - P.gdot y i| ≤ K * ((1 + Real.sqrt (κ / κ₀)) * φ) + n * ε := by
  obtain ⟨r1, r2⟩ := P.resid_pair hdt ha hθ hx hy
  have hgd : ∀ i, P.taua x i = P.taua y i → P.gdot x i = P.gdot y i := fun i h => by
    simp only [gdot, h]
  obtain ⟨g, hg, hge⟩ := exists_follows (d := P.gdot x - P.gdot y) (t := P.taua x - P.taua y) hε (fun i => by
    simp only [Pi.sub_apply]
    refine ⟨fun h => ?_, fun h => ?_, fun h => ?_⟩
    · rw [hgd i (by linarith), sub_self]
    · have := hm2 i (by linarith); linarith
    · have := hm1 i (by linarith); linarith)
  simp only [Pi.sub_apply] at hge
  have ex := P.strain_form hdt hv x
  have ey := P.strain_form hdt hv y
  have sx := P.spin_form hdt x
  have sy := P.spin_form hdt y
  have hF : vecNorm (vecsVMTa (P.qr5x5 x) P.dSm + P.residE x - (vecsVMTa (P.qr5x5 y) P.dSm + P.residE y))
      ≤ 3 * vecNorm P.dSm * (vecNorm (xiF x - xiF y) + 8 / 10 ^ 90) + 2 * θ := by
    rw [add_sub_add_comm]
    exact (vecNorm_add_le _ _).trans (add_le_add (P.rate_lip hcn x y _) r1)
  have hW : vecNorm (vecsVMTa (P.cMatx x) P.wSm + (1 / P.dt) • P.residR x
      - (vecsVMTa (P.cMatx y) P.wSm + (1 / P.dt) • P.residR y))
      ≤ 3 / 2 * vecNorm P.wSm * (vecNorm (xiF x - xiF y) + 8 / 10 ^ 90) + 4 * θ := by
    rw [add_sub_add_comm]
    exact (vecNorm_add_le _ _).trans (add_le_add (P.spin_lip hcn x y _) r2)
  have hd := P.pair_bound hκ₀ h0 h1 hdt hv hSB hK hP hQ ex ey hg hge sx sy hF hW (by positivity) b hb hsmall
  rw [← hδ] at hd
  obtain ⟨b1, b2⟩ := P.pair_strain hκ₀ h0 h1 hdt hv hSB hK hP ex ey hg hge
  have hle : vecNorm (vecsVMTa (P.qr5x5 x) P.dSm + P.residE x - (vecsVMTa (P.qr5x5 y) P.dSm + P.residE y)) + n * ε
      ≤ φ := by
    rw [hφ]
    have := mul_le_mul_of_nonneg_left (add_le_add_left hd (8 / 10 ^ 90))
      (mul_nonneg (by norm_num : (0 : ℝ) ≤ 3) (vecNorm_nonneg P.dSm))
    linarith
  have haV := P.aV_pos hv
  refine ⟨hd, b1.trans ?_, ?_⟩
  · exact mul_le_mul_of_nonneg_left (mul_le_mul_of_nonneg_left hle (Real.sqrt_nonneg _)) (mul_pos hdt haV).le
  · have h2 : ∑ i, |g i| ≤ K * ((1 + Real.sqrt (κ / κ₀)) * φ) :=
      b2.trans (mul_le_mul_of_nonneg_left (mul_le_mul_of_nonneg_left hle (by positivity)) hK)
    have h3 : ∑ i, |P.gdot x i - P.gdot y i| ≤ ∑ i, (|g i| + ε) := Finset.sum_le_sum fun i _ => by
      have := hge i
      have h4 := abs_add_le (P.gdot x i - P.gdot y i - g i) (g i)
      rw [sub_add_cancel] at h4
      linarith
    rw [Finset.sum_add_distrib] at h3
    simp only [Finset.sum_const, Finset.card_univ, Fintype.card_fin, nsmul_eq_mul] at h3
    linarith

end Updst
end Ecm
