/- Helper lemmas for the convergence of the updates: the rate equations as a vector field on elastic strain,
   lattice rotation and strengths, and its Lipschitz bounds. -/
import Verif.Lemmas.Converge
import Verif.Lemmas.Solvable

namespace Ecm
open Spec

theorem abs_sin_sub_le {t : ℝ} (ht : 0 ≤ t) : |Real.sin t - t| ≤ 2 * t ^ 2 := by
  have h1 := Real.sin_le ht
  rw [abs_sub_comm, abs_of_nonneg (by linarith)]
  rcases le_or_gt t 1 with h | h
  · rcases ht.eq_or_lt with rfl | hp
    · simp
    · have := Real.sin_gt_sub_cube hp
      nlinarith [sq_nonneg t, mul_nonneg ht (sq_nonneg t)]
  · have := Real.neg_one_le_sin t
    nlinarith

/-- the exponential map to first order -/
theorem expQuat_first (ξ : Vec 3) (i j : Fin 3) :
    |quatToTensor (expQuat ξ) i j - (1 : Mat 3 3) i j - crossMat ξ i j| ≤ 3 * vecNorm ξ ^ 2 := by
  rcases eq_or_ne ξ 0 with rfl | hξ
  · have : quatToTensor (expQuat 0) = 1 := by
      ext i j; fin_cases i <;> fin_cases j <;> simp [expQuat, quatToTensor]
    rw [this]
    fin_cases i <;> fin_cases j <;> simp [crossMat, vecNorm]
  have hp := vecNorm_pos_of_ne hξ
  set t := vecNorm ξ with ht
  let u : Vec 3 := fun k => ξ k / t
  have hu : u 0 ^ 2 + u 1 ^ 2 + u 2 ^ 2 = 1 := by
    have := vecNorm3_sq ξ
    rw [← ht] at this
    simp only [u, div_pow, ← add_div, ← this]
    exact div_self (by positivity)
  have hξu : ∀ k, ξ k = t * u k := fun k => by simp only [u]; field_simp
  have hq : expQuat ξ = invToQuat ![t, u 0, u 1, u 2] := by
    rw [expQuat_of_pos hp]
    have h5 : t * 0.5 = t / 2 := by ring
    ext k; fin_cases k <;> simp [invToQuat, h5, u, ← ht]
  rw [hq, quat_rodrigues t u hu]
  have hs := abs_le.1 (abs_sin_sub_le hp.le)
  have hc1 := Real.one_sub_sq_div_two_le_cos (x := t)
  have hc2 := Real.cos_le_one t
  have hb : ∀ k, -1 ≤ u k ∧ u k ≤ 1 := fun k => by
    rw [← abs_le]
    simp only [u]
    rw [abs_div, abs_of_pos hp, div_le_one hp]; exact abs_le_vecNorm ξ k
  have key : ∀ a b c : ℝ, (-1 ≤ a ∧ a ≤ 1) → (-1 ≤ b ∧ b ≤ 1) → (-1 ≤ c ∧ c ≤ 1) →
      |(Real.sin t - t) * a + (1 - Real.cos t) * (b * c)| ≤ 3 * t ^ 2 := by
    intro a b c ha hb hc
    refine (abs_add_le _ _).trans ?_
    rw [abs_mul, abs_mul, abs_mul]
    have h1 : |Real.sin t - t| * |a| ≤ 2 * t ^ 2 * 1 :=
      mul_le_mul (abs_sin_sub_le hp.le) (abs_le.2 ha) (abs_nonneg _) (by positivity)
    have h2 : |b| * |c| ≤ 1 * 1 := mul_le_mul (abs_le.2 hb) (abs_le.2 hc) (abs_nonneg _) zero_le_one
    have h3 : |1 - Real.cos t| ≤ t ^ 2 / 2 := by
      rw [abs_of_nonneg (by linarith)]; linarith
    have h4 := mul_le_mul h3 h2 (mul_nonneg (abs_nonneg _) (abs_nonneg _)) (by positivity)
    nlinarith
  have keyd : ∀ a : ℝ, (-1 ≤ a ∧ a ≤ 1) → |(Real.cos t - 1) + (1 - Real.cos t) * (a * a)| ≤ 3 * t ^ 2 := by
    intro a ha
    have : (Real.cos t - 1) + (1 - Real.cos t) * (a * a) = (Real.cos t - 1) * (1 - a * a) := by ring
    rw [this, abs_mul]
    have h3 : |Real.cos t - 1| ≤ t ^ 2 / 2 := by
      rw [abs_sub_comm, abs_of_nonneg (by linarith)]; linarith
    have h2 : |1 - a * a| ≤ 1 := by rw [abs_le]; constructor <;> nlinarith [ha.1, ha.2]
    have := mul_le_mul h3 h2 (abs_nonneg _) (by positivity)
    nlinarith
  have neg : ∀ a : ℝ, (-1 ≤ a ∧ a ≤ 1) → (-1 ≤ -a ∧ -a ≤ 1) := fun a h => ⟨by linarith [h.2], by linarith [h.1]⟩
  fin_cases i <;> fin_cases j <;> simp [rodrigues, crossMat, dyad, hξu]
  · refine le_of_eq_of_le (congrArg abs ?_) (keyd (u 0) (hb 0)); ring
  · refine le_of_eq_of_le (congrArg abs ?_) (key _ _ _ (neg _ (hb 2)) (hb 0) (hb 1)); ring
  · refine le_of_eq_of_le (congrArg abs ?_) (key _ _ _ (hb 1) (hb 0) (hb 2)); ring
  · refine le_of_eq_of_le (congrArg abs ?_) (key _ _ _ (hb 2) (hb 1) (hb 0)); ring
  · refine le_of_eq_of_le (congrArg abs ?_) (keyd (u 1) (hb 1)); ring
  · refine le_of_eq_of_le (congrArg abs ?_) (key _ _ _ (neg _ (hb 0)) (hb 1) (hb 2)); ring
  · refine le_of_eq_of_le (congrArg abs ?_) (key _ _ _ (neg _ (hb 1)) (hb 2) (hb 0)); ring
  · refine le_of_eq_of_le (congrArg abs ?_) (key _ _ _ (hb 0) (hb 2) (hb 1)); ring
  · refine le_of_eq_of_le (congrArg abs ?_) (keyd (u 2) (hb 2)); ring

/-- the code's exponential map to first order -/
theorem emap_first (ξ : Vec 3) (i j : Fin 3) :
    |quatToTensor (emapToQuat ξ) i j - (1 : Mat 3 3) i j - crossMat ξ i j|
      ≤ 3 * vecNorm ξ ^ 2 + 8 / 10 ^ 90 := by
  have h1 := quatToTensor_close (qn_emapToQuat ξ) (qn_expQuat ξ) (emap_close ξ) i j
  have h2 := expQuat_first ξ i j
  have := abs_add_le (quatToTensor (emapToQuat ξ) i j - quatToTensor (expQuat ξ) i j)
    (quatToTensor (expQuat ξ) i j - (1 : Mat 3 3) i j - crossMat ξ i j)
  refine le_trans (le_of_eq (congrArg abs ?_)) (this.trans ?_)
  · ring
  · linarith

/-- increment of the rotation matrix over a step -/
theorem rot_increment {R : Mat 3 3} {ξ : Vec 3} {q : Vec 4} (hR : R * R.transpose = 1)
    (hq : R = quatToTensor q * quatToTensor (emapToQuat ξ)) (i j : Fin 3) :
    |R i j - quatToTensor q i j - (R * crossMat ξ) i j| ≤ 3 * (3 * vecNorm ξ ^ 2 + 8 / 10 ^ 90) := by
  set U := quatToTensor (emapToQuat ξ) with hU
  have hUo := (isRot_of_unit (qn_emapToQuat ξ)).1
  rw [← hU] at hUo
  have h1 : quatToTensor q = R * U.transpose := by rw [hq, Matrix.mul_assoc, hUo, Matrix.mul_one]
  have h2 : R i j - quatToTensor q i j - (R * crossMat ξ) i j
      = ∑ k, R i k * -(U j k - (1 : Mat 3 3) j k - crossMat ξ j k) := by
    rw [h1]
    have e : R i j = (R * (1 : Mat 3 3)) i j := by rw [Matrix.mul_one]
    rw [e, Matrix.mul_apply, Matrix.mul_apply, Matrix.mul_apply, ← Finset.sum_sub_distrib,
      ← Finset.sum_sub_distrib]
    refine Finset.sum_congr rfl fun k _ => ?_
    have e1 : (1 : Mat 3 3) k j = (1 : Mat 3 3) j k := by
      simp [Matrix.one_apply, eq_comm]
    have e2 : crossMat ξ k j = -crossMat ξ j k := by
      fin_cases k <;> fin_cases j <;> simp [crossMat]
    rw [e1, e2, Matrix.transpose_apply]; ring
  rw [h2]
  refine (Finset.abs_sum_le_sum_abs _ _).trans ?_
  rw [Fin.sum_univ_three]
  have hk : ∀ k, |R i k * -(U j k - (1 : Mat 3 3) j k - crossMat ξ j k)| ≤ 3 * vecNorm ξ ^ 2 + 8 / 10 ^ 90 := by
    intro k
    rw [abs_mul, abs_neg]
    have := mul_le_mul (rot_abs_le hR i k) (emap_first ξ j k) (abs_nonneg _) zero_le_one
    linarith
  linarith [hk 0, hk 1, hk 2]

/-- elastic strain, lattice rotation and strengths, with the time -/
abbrev CState (nH : ℕ) := ℝ × Vec 5 × (Fin 3 → Fin 3 → ℝ) × Vec nH

/-- data of the rate equations: elastic constants, Schmid arrays, slip and hardening laws, and the imposed
    deformation rate, spin and cube root of the relative volume as functions of time -/
structure RateEq (n nH : ℕ) where
  K : Vec 5
  P : Mat 5 n
  Q : Mat 3 n
  g : Fin n → ℝ → Vec nH → ℝ
  H : Vec nH → Vec n → Vec nH
  d : ℝ → Vec 5
  w : ℝ → Vec 3
  a : ℝ → ℝ

namespace RateEq
variable {n nH : ℕ} (F : RateEq n nH)

noncomputable def tau (z : CState nH) (s : Fin n) : ℝ :=
  1 / F.a z.1 * ∑ i, F.K i * z.2.1 i * F.P i s
noncomputable def gam (z : CState nH) (s : Fin n) : ℝ := F.g s (F.tau z s) z.2.2.2
noncomputable def edOf (z : CState nH) (γ : Vec n) (i : Fin 5) : ℝ :=
  F.a z.1 * (vecsVMTa (getRotMatVecd z.2.2.1) (F.d z.1) i - vecsVMa F.P γ i)
noncomputable def ed (z : CState nH) : Vec 5 := F.edOf z (F.gam z)
noncomputable def omOf (z : CState nH) (γ : Vec n) (ed : Vec 5) (i : Fin 3) : ℝ :=
  vecsVMTa (z.2.2.1 : Mat 3 3) (F.w z.1) i - vecsVMa F.Q γ i
    + 1 / 2 * (1 / F.a z.1) * (1 / F.a z.1) * vecsVMa (m35 z.2.1) ed i
noncomputable def om (z : CState nH) : Vec 3 := F.omOf z (F.gam z) (F.ed z)
noncomputable def rd (z : CState nH) (i j : Fin 3) : ℝ := ((show Mat 3 3 from z.2.2.1) * crossMat (F.om z)) i j
noncomputable def hd (z : CState nH) : Vec nH := F.H z.2.2.2 (F.gam z)

/-- what is assumed of the data on the region of interest -/
structure Regular (T B c : ℝ) (Hr : Set (Vec nH)) : Prop where
  c_pos : 0 < c
  d : ∀ i, BL (Set.Icc 0 T) fun t => F.d t i
  w : ∀ i, BL (Set.Icc 0 T) fun t => F.w t i
  a : BL (Set.Icc 0 T) F.a
  a_ge : ∀ t ∈ Set.Icc 0 T, c ≤ F.a t
  g : ∀ s b, BL {p : ℝ × Vec nH | |p.1| ≤ b ∧ p.2 ∈ Hr} fun p => F.g s p.1 p.2
  H : ∀ i b, BL {p : Vec nH × Vec n | p.1 ∈ Hr ∧ ∀ s, |p.2 s| ≤ b} fun p => F.H p.1 p.2 i

/-- the region: bounded strain, rotation entries at most one, strengths in a given set -/
def region (T B : ℝ) (Hr : Set (Vec nH)) : Set (CState nH) :=
  {z | z.1 ∈ Set.Icc 0 T ∧ (∀ i, |z.2.1 i| ≤ B) ∧ (∀ i j, |z.2.2.1 i j| ≤ 1) ∧ z.2.2.2 ∈ Hr}

variable {F} {T B c : ℝ} {Hr : Set (Vec nH)}

theorem bl_time (f : ℝ → ℝ) (hf : BL (Set.Icc 0 T) f) : BL (region T B Hr) fun z => f z.1 :=
  hf.comp (u := fun z : CState nH => z.1) (L := 1) (fun z (hz : z ∈ region T B Hr) => hz.1) zero_le_one fun z _ z' _ => by
    rw [one_mul, Prod.dist_eq]; exact le_max_left _ _

theorem dist_e (z z' : CState nH) (i : Fin 5) : |z.2.1 i - z'.2.1 i| ≤ dist z z' := by
  rw [← Real.dist_eq]
  refine (dist_le_pi_dist z.2.1 z'.2.1 i).trans ?_
  rw [Prod.dist_eq, Prod.dist_eq]
  exact (le_max_left _ _).trans (le_max_right _ _)

theorem dist_R (z z' : CState nH) (i j : Fin 3) : |z.2.2.1 i j - z'.2.2.1 i j| ≤ dist z z' := by
  rw [← Real.dist_eq]
  refine (dist_le_pi_dist (z.2.2.1 i) (z'.2.2.1 i) j).trans
    ((dist_le_pi_dist z.2.2.1 z'.2.2.1 i).trans ?_)
  rw [Prod.dist_eq, Prod.dist_eq, Prod.dist_eq]
  exact (le_max_left _ _).trans ((le_max_right _ _).trans (le_max_right _ _))

theorem dist_h (z z' : CState nH) : dist z.2.2.2 z'.2.2.2 ≤ dist z z' := by
  rw [Prod.dist_eq, Prod.dist_eq, Prod.dist_eq]
  exact (le_max_right _ _).trans ((le_max_right _ _).trans (le_max_right _ _))

theorem bl_e (i : Fin 5) : BL (region T B Hr) fun z => z.2.1 i :=
  ⟨max B 1, zero_le_one.trans (le_max_right _ _), fun z hz => (hz.2.1 i).trans (le_max_left _ _),
    fun z _ z' _ => (dist_e z z' i).trans (le_mul_of_one_le_left dist_nonneg (le_max_right _ _))⟩

theorem bl_R (i j : Fin 3) : BL (region T B Hr) fun z => z.2.2.1 i j :=
  ⟨1, zero_le_one, fun z hz => hz.2.2.1 i j, fun z _ z' _ => by rw [one_mul]; exact dist_R z z' i j⟩

theorem bl_tau (hF : F.Regular T B c Hr) (s : Fin n) : BL (region T B Hr) fun z => F.tau z s := by
  have ha : BL (region T B Hr) fun z => 1 / F.a z.1 :=
    (bl_time F.a hF.a).inv hF.c_pos fun z hz => hF.a_ge _ hz.1
  exact ha.mul (BL.sum _ fun i => ((BL.const _).mul (bl_e i)).mul (BL.const _))

theorem bl_gam (hF : F.Regular T B c Hr) (s : Fin n) : BL (region T B Hr) fun z => F.gam z s := by
  obtain ⟨C, h0, h1, h2⟩ := bl_tau (B := B) hF s
  refine (hF.g s C).comp (u := fun z => (F.tau z s, z.2.2.2)) (L := C + 1)
    (fun z hz => ⟨h1 z hz, hz.2.2.2⟩) (by positivity) fun z hz z' hz' => ?_
  rw [Prod.dist_eq]
  refine max_le ?_ ?_
  · rw [Real.dist_eq]
    exact (h2 z hz z' hz').trans (mul_le_mul_of_nonneg_right (by linarith) dist_nonneg)
  · exact (dist_h z z').trans (le_mul_of_one_le_left dist_nonneg (by linarith))

theorem bl_rot (i j : Fin 5) : BL (region T B Hr) fun z => getRotMatVecd z.2.2.1 i j := by
  fin_cases i <;> fin_cases j <;> simp [getRotMatVecd] <;>
    repeat first
      | exact bl_R _ _
      | exact BL.const _
      | refine BL.add ?_ ?_
      | refine BL.sub ?_ ?_
      | refine BL.mul ?_ ?_
      | refine BL.neg ?_

theorem bl_m35 (i : Fin 3) (j : Fin 5) : BL (region T B Hr) fun z => m35 z.2.1 i j := by
  fin_cases i <;> fin_cases j <;> simp [m35] <;>
    repeat first
      | exact bl_e _
      | exact BL.const _
      | refine BL.add ?_ ?_
      | refine BL.sub ?_ ?_
      | refine BL.mul ?_ ?_
      | refine BL.neg ?_

theorem bl_inva (hF : F.Regular T B c Hr) : BL (region T B Hr) fun z => 1 / F.a z.1 :=
  (bl_time F.a hF.a).inv hF.c_pos fun z hz => hF.a_ge _ hz.1

theorem bl_ed (hF : F.Regular T B c Hr) (i : Fin 5) : BL (region T B Hr) fun z => F.ed z i := by
  refine (bl_time F.a hF.a).mul (BL.sub ?_ ?_)
  · exact BL.sum _ fun j => (bl_rot _ _).mul (bl_time (fun t => F.d t j) (hF.d j))
  · exact BL.sum _ fun s => (BL.const _).mul (bl_gam hF s)

theorem bl_om (hF : F.Regular T B c Hr) (i : Fin 3) : BL (region T B Hr) fun z => F.om z i := by
  refine BL.add (BL.sub ?_ ?_) (BL.mul (((BL.const _).mul (bl_inva hF)).mul (bl_inva hF)) ?_)
  · exact BL.sum _ fun j => (bl_R _ _).mul (bl_time (fun t => F.w t j) (hF.w j))
  · exact BL.sum _ fun s => (BL.const _).mul (bl_gam hF s)
  · exact BL.sum _ fun s => (bl_m35 _ _).mul (bl_ed hF s)

theorem bl_cross (hF : F.Regular T B c Hr) (i j : Fin 3) :
    BL (region T B Hr) fun z => crossMat (F.om z) i j := by
  fin_cases i <;> fin_cases j <;> simp [crossMat] <;>
    first
      | exact BL.const _
      | exact bl_om hF _
      | exact (bl_om hF _).neg

theorem bl_rd (hF : F.Regular T B c Hr) (i j : Fin 3) : BL (region T B Hr) fun z => F.rd z i j := by
  have h := BL.sum (S := region T B Hr) Finset.univ fun k => (bl_R (T := T) (B := B) (Hr := Hr) i k).mul (bl_cross hF k j)
  exact h

theorem bl_hd (hF : F.Regular T B c Hr) (i : Fin nH) : BL (region T B Hr) fun z => F.hd z i := by
  obtain ⟨C, h0, h1, h2⟩ := BL.common fun s => bl_gam (B := B) hF s
  refine (hF.H i C).comp (u := fun z => (z.2.2.2, F.gam z)) (L := C + 1)
    (fun z hz => ⟨hz.2.2.2, fun s => h1 s z hz⟩) (by positivity) fun z hz z' hz' => ?_
  rw [Prod.dist_eq]
  refine max_le ?_ ?_
  · exact (dist_h z z').trans (le_mul_of_one_le_left dist_nonneg (by linarith))
  · refine (dist_pi_le_iff (mul_nonneg (by linarith) dist_nonneg)).2 fun s => ?_
    rw [Real.dist_eq]
    exact (h2 s z hz z' hz').trans (mul_le_mul_of_nonneg_right (by linarith) dist_nonneg)

/-- index set of the components of the state -/
abbrev Ix (nH : ℕ) := Fin 5 ⊕ (Fin 3 × Fin 3) ⊕ Fin nH

/-- component of a state -/
def crd (x : Vec 5 × (Fin 3 → Fin 3 → ℝ) × Vec nH) : Ix nH → ℝ
  | .inl i => x.1 i
  | .inr (.inl p) => x.2.1 p.1 p.2
  | .inr (.inr i) => x.2.2 i

variable (F) in
/-- component of the rate -/
noncomputable def fld (z : CState nH) : Ix nH → ℝ
  | .inl i => F.ed z i
  | .inr (.inl p) => F.rd z p.1 p.2
  | .inr (.inr i) => F.hd z i

theorem bl_fld (hF : F.Regular T B c Hr) (ι : Ix nH) : BL (region T B Hr) fun z => F.fld z ι := by
  rcases ι with i | p | i
  · exact bl_ed hF i
  · exact bl_rd hF p.1 p.2
  · exact bl_hd hF i

theorem dist_le_crd {x y : Vec 5 × (Fin 3 → Fin 3 → ℝ) × Vec nH} {r : ℝ} (hr : 0 ≤ r)
    (h : ∀ ι, |crd x ι - crd y ι| ≤ r) : dist x y ≤ r := by
  rw [Prod.dist_eq, Prod.dist_eq]
  refine max_le ?_ (max_le ?_ ?_)
  · exact (dist_pi_le_iff hr).2 fun i => h (.inl i)
  · exact (dist_pi_le_iff hr).2 fun i => (dist_pi_le_iff hr).2 fun j => h (.inr (.inl (i, j)))
  · exact (dist_pi_le_iff hr).2 fun i => h (.inr (.inr i))

theorem crd_le_dist (x y : Vec 5 × (Fin 3 → Fin 3 → ℝ) × Vec nH) (ι : Ix nH) :
    |crd x ι - crd y ι| ≤ dist x y := by
  rw [Prod.dist_eq, Prod.dist_eq]
  rcases ι with i | p | i
  · exact (dist_le_pi_dist x.1 y.1 i).trans (le_max_left _ _)
  · exact ((dist_le_pi_dist (x.2.1 p.1) (y.2.1 p.1) p.2).trans (dist_le_pi_dist x.2.1 y.2.1 p.1)).trans
      ((le_max_left _ _).trans (le_max_right _ _))
  · exact (dist_le_pi_dist x.2.2 y.2.2 i).trans ((le_max_right _ _).trans (le_max_right _ _))

end RateEq
end Ecm
