/- Helper lemmas for the slip system tables: integer forms, closure and distinctness. -/
import Verif.Model.SlipGeom
import Verif.Lemmas.Rotation
import Mathlib.Tactic.IntervalCases
import Mathlib.Tactic.Positivity
import Mathlib.Data.Int.Cast.Lemmas

namespace Ecm
open Spec Matrix

/-- table given by integer vectors, a common positive diagonal scaling and positive factors per
    family -/
def IntForm {n f : ℕ} (m : Fin n → Vec 3) (fam : Fin n → Fin f) (c : Fin f → ℝ) (D : Vec 3)
    (mI : Fin n → Fin 3 → ℤ) : Prop :=
  ∀ i k, m i k = c (fam i) * (D k * (mI i k : ℝ))

theorem cross_zero_of_same {m s m' s' : Vec 3} (hm : m ≠ 0) (hs : s ≠ 0)
    (h : SameSystem m s m' s') : cross m m' = 0 ∧ cross s s' = 0 := by
  obtain ⟨a, ha⟩ : ∃ a, s a ≠ 0 := by
    by_contra hc; push Not at hc; exact hs (funext hc)
  obtain ⟨b, hb⟩ : ∃ b, m b ≠ 0 := by
    by_contra hc; push Not at hc; exact hm (funext hc)
  have key : ∃ e : ℝ, (∀ i j, s i * m j = e * (s' i * m' j)) := by
    rcases h with h | h
    · exact ⟨1, fun i j => by simpa [dyad] using congrFun (congrFun h i) j⟩
    · exact ⟨-1, fun i j => by simpa [dyad] using congrFun (congrFun h i) j⟩
  obtain ⟨e, he⟩ := key
  have hm' : ∀ j, m j = (e * s' a / s a) * m' j := fun j => by
    have := he a j; field_simp; linarith
  have hs' : ∀ i, s i = (e * m' b / m b) * s' i := fun i => by
    have := he i b; field_simp; linarith
  constructor
  · ext i; fin_cases i <;> simp [cross, hm' 0, hm' 1, hm' 2] <;> ring
  · ext i; fin_cases i <;> simp [cross, hs' 0, hs' 1, hs' 2] <;> ring

/-- integer cross product -/
def crossI (a b : Fin 3 → ℤ) : Fin 3 → ℤ :=
  ![a 1 * b 2 - a 2 * b 1, a 2 * b 0 - a 0 * b 2, a 0 * b 1 - a 1 * b 0]

theorem crossI_zero {x y D : Vec 3} {a b : Fin 3 → ℤ} {c d : ℝ} (hc : 0 < c) (hd : 0 < d)
    (hD : ∀ k, 0 < D k) (hx : ∀ k, x k = c * (D k * (a k : ℝ)))
    (hy : ∀ k, y k = d * (D k * (b k : ℝ))) (h : cross x y = 0) : crossI a b = 0 := by
  have h0 := congrFun h 0; have h1 := congrFun h 1; have h2 := congrFun h 2
  simp only [cross, hx, hy, Matrix.cons_val_zero, Matrix.cons_val_one, Matrix.cons_val,
    Pi.zero_apply] at h0 h1 h2
  have g : ∀ p q r s : ℤ, ∀ i j : Fin 3,
      c * (D i * (p : ℝ)) * (d * (D j * (q : ℝ))) - c * (D j * (r : ℝ)) * (d * (D i * (s : ℝ))) = 0
      → p * q - r * s = 0 := by
    intro p q r s i j hh
    have : (c * d * (D i * D j)) * ((p * q - r * s : ℤ) : ℝ) = 0 := by
      push_cast; linarith
    rcases mul_eq_zero.1 this with h | h
    · exfalso
      have := mul_pos (mul_pos hc hd) (mul_pos (hD i) (hD j)); linarith
    · exact_mod_cast h
  ext i; fin_cases i
  · exact g _ _ _ _ 1 2 h0
  · exact g _ _ _ _ 2 0 h1
  · exact g _ _ _ _ 0 1 h2

theorem distinct_of_int {n f : ℕ} {m s : Fin n → Vec 3} {fam : Fin n → Fin f}
    {cm cs : Fin f → ℝ} {Dm Ds : Vec 3} {mI sI : Fin n → Fin 3 → ℤ}
    (hm : IntForm m fam cm Dm mI) (hs : IntForm s fam cs Ds sI)
    (hcm : ∀ a, 0 < cm a) (hcs : ∀ a, 0 < cs a) (hDm : ∀ k, 0 < Dm k) (hDs : ∀ k, 0 < Ds k)
    (hm0 : ∀ i, m i ≠ 0) (hs0 : ∀ i, s i ≠ 0)
    (hI : ∀ i j, i ≠ j → ¬ (crossI (mI i) (mI j) = 0 ∧ crossI (sI i) (sI j) = 0)) :
    ∀ i j, i ≠ j → ¬ SameSystem (m i) (s i) (m j) (s j) := by
  intro i j hij h
  obtain ⟨h1, h2⟩ := cross_zero_of_same (hm0 i) (hs0 i) h
  exact hI i j hij ⟨crossI_zero (hcm _) (hcm _) hDm (hm i) (hm j) h1,
    crossI_zero (hcs _) (hcs _) hDs (hs i) (hs j) h2⟩

/-- `R` maps each system of the list to a system of the list, up to sign -/
def ClosedUnder {n : ℕ} (R : T3) (m s : Fin n → Vec 3) : Prop :=
  ∀ i, ∃ j, SameSystem (R.mulVec (m i)) (R.mulVec (s i)) (m j) (s j)

theorem same_of_pm {m s m' s' : Vec 3} (h1 : m = m' ∨ m = -m') (h2 : s = s' ∨ s = -s') :
    SameSystem m s m' s' := by
  rcases h1 with rfl | rfl <;> rcases h2 with rfl | rfl
  · left; rfl
  · right; ext i j; simp [dyad]
  · right; ext i j; simp [dyad]
  · left; ext i j; simp [dyad]

/-- action of an integer matrix on an integer vector -/
def actI (A : Fin 3 → Fin 3 → ℤ) (x : Fin 3 → ℤ) : Fin 3 → ℤ :=
  fun p => A p 0 * x 0 + A p 1 * x 1 + A p 2 * x 2

/-- R acts on diagonal-scaled integer vectors as A / q -/
def ActsAs (R : T3) (D : Vec 3) (A : Fin 3 → Fin 3 → ℤ) (q : ℤ) : Prop :=
  ∀ p l, (q : ℝ) * (R p l * D l) = D p * (A p l : ℝ)

theorem act_pm {R : T3} {D : Vec 3} {A : Fin 3 → Fin 3 → ℤ} {q : ℤ} (hq : q ≠ 0)
    (hA : ActsAs R D A q) {x y : Vec 3} {a b : Fin 3 → ℤ} {c : ℝ}
    (hx : ∀ k, x k = c * (D k * (a k : ℝ))) (hy : ∀ k, y k = c * (D k * (b k : ℝ)))
    (h : (∀ p, actI A a p = q * b p) ∨ (∀ p, actI A a p = -(q * b p))) :
    R.mulVec x = y ∨ R.mulVec x = -y := by
  have hq' : (q : ℝ) ≠ 0 := by exact_mod_cast hq
  have e : ∀ p, (q : ℝ) * R.mulVec x p = c * (D p * (actI A a p : ℝ)) := by
    intro p
    have h0 := hA p 0; have h1 := hA p 1; have h2 := hA p 2
    simp only [Matrix.mulVec, dotProduct, Fin.sum_univ_three, hx, actI]
    push_cast
    linear_combination (c * a 0) * h0 + (c * a 1) * h1 + (c * a 2) * h2
  rcases h with h | h
  · left; ext p
    apply mul_left_cancel₀ hq'
    rw [e p, h p, hy]; push_cast; ring
  · right; ext p
    apply mul_left_cancel₀ hq'
    rw [e p, h p, Pi.neg_apply, hy]; push_cast; ring

theorem closed_of_int {n f : ℕ} {m s : Fin n → Vec 3} {fam : Fin n → Fin f}
    {cm cs : Fin f → ℝ} {Dm Ds : Vec 3} {mI sI : Fin n → Fin 3 → ℤ}
    (hm : IntForm m fam cm Dm mI) (hs : IntForm s fam cs Ds sI)
    {R : T3} {A B : Fin 3 → Fin 3 → ℤ} {q : ℤ} (hq : q ≠ 0)
    (hA : ActsAs R Dm A q) (hB : ActsAs R Ds B q)
    (hI : ∀ i, ∃ j, fam j = fam i ∧
      ((∀ p, actI A (mI i) p = q * mI j p) ∨ (∀ p, actI A (mI i) p = -(q * mI j p))) ∧
      ((∀ p, actI B (sI i) p = q * sI j p) ∨ (∀ p, actI B (sI i) p = -(q * sI j p)))) :
    ∀ i, ∃ j, fam j = fam i ∧
      SameSystem (R.mulVec (m i)) (R.mulVec (s i)) (m j) (s j) := by
  intro i
  obtain ⟨j, hf, h1, h2⟩ := hI i
  refine ⟨j, hf, same_of_pm (act_pm hq hA (hm i) ?_ h1) (act_pm hq hB (hs i) ?_ h2)⟩
  · intro k; rw [← hf]; exact hm j k
  · intro k; rw [← hf]; exact hs j k

theorem sameSystem_trans {m s m' s' m'' s'' : Vec 3} (h1 : SameSystem m s m' s')
    (h2 : SameSystem m' s' m'' s'') : SameSystem m s m'' s'' := by
  unfold SameSystem at *
  rcases h1 with h1 | h1 <;> rcases h2 with h2 | h2 <;> rw [h1, h2] <;> simp

theorem dyad_mulVec (R : T3) (a b : Vec 3) :
    dyad (R.mulVec a) (R.mulVec b) = R * dyad a b * R.transpose := by
  ext i j
  simp [dyad, Matrix.mul_apply, Matrix.mulVec, dotProduct, Fin.sum_univ_three]
  ring

theorem sameSystem_map (R : T3) {m s m' s' : Vec 3} (h : SameSystem m s m' s') :
    SameSystem (R.mulVec m) (R.mulVec s) (R.mulVec m') (R.mulVec s') := by
  unfold SameSystem at *
  rw [dyad_mulVec, dyad_mulVec]
  rcases h with h | h <;> rw [h] <;> simp

theorem ne_zero_of_unit {m : Vec 3} (h : dot m m = 1) : m ≠ 0 := by
  rintro rfl
  simp [dot] at h

/-! ### Integer tables -/

/-- {111}-type vectors of the FCC normals / BCC directions -/
def i111 : Fin 12 → Fin 3 → ℤ :=
  ![![1, 1, 1], ![1, 1, 1], ![1, 1, 1], ![-1, 1, 1], ![-1, 1, 1], ![-1, 1, 1],
    ![-1, -1, 1], ![-1, -1, 1], ![-1, -1, 1], ![1, -1, 1], ![1, -1, 1], ![1, -1, 1]]
/-- {110}-type vectors -/
def i110 : Fin 12 → Fin 3 → ℤ :=
  ![![0, 1, -1], ![-1, 0, 1], ![1, -1, 0], ![-1, 0, -1], ![0, -1, 1], ![1, 1, 0],
    ![0, -1, -1], ![1, 0, 1], ![-1, 1, 0], ![1, 0, -1], ![0, 1, 1], ![-1, -1, 0]]
/-- {112}-type vectors -/
def i112 : Fin 12 → Fin 3 → ℤ :=
  ![![-2, 1, 1], ![1, -2, 1], ![1, 1, -2], ![-1, -2, 1], ![2, 1, 1], ![-1, 1, -2],
    ![2, -1, 1], ![-1, 2, 1], ![-1, -1, -2], ![1, 2, 1], ![-2, -1, 1], ![1, -1, -2]]
/-- {123}-type vectors -/
def i123 : Fin 24 → Fin 3 → ℤ :=
  ![![3, -1, -2], ![-2, 3, -1], ![-1, -2, 3], ![1, 3, -2], ![-3, -2, -1], ![2, -1, 3],
    ![-3, 1, -2], ![2, -3, -1], ![1, 2, 3], ![-1, -3, -2], ![3, 2, -1], ![-2, 1, 3],
    ![-1, 3, 2], ![3, -2, 1], ![-2, -1, -3], ![-3, -1, 2], ![2, 3, 1], ![1, -2, -3],
    ![1, -3, 2], ![-3, 2, 1], ![2, 1, -3], ![3, 1, 2], ![-2, -3, 1], ![-1, 2, -3]]
/-- directions for the {123} planes -/
def i111b : Fin 24 → Fin 3 → ℤ :=
  ![![1, 1, 1], ![1, 1, 1], ![1, 1, 1], ![-1, 1, 1], ![-1, 1, 1], ![-1, 1, 1],
    ![-1, -1, 1], ![-1, -1, 1], ![-1, -1, 1], ![1, -1, 1], ![1, -1, 1], ![1, -1, 1],
    ![1, 1, -1], ![1, 1, -1], ![1, 1, -1], ![-1, 1, -1], ![-1, 1, -1], ![-1, 1, -1],
    ![-1, -1, -1], ![-1, -1, -1], ![-1, -1, -1], ![1, -1, -1], ![1, -1, -1], ![1, -1, -1]]

theorem fccM_int (i : Fin 12) (k : Fin 3) : fccM i k = sqr3i * (i111 i k : ℝ) := by
  fin_cases i <;> fin_cases k <;> simp [fccM, i111]
theorem fccS_int (i : Fin 12) (k : Fin 3) : fccS i k = sqr2i * (i110 i k : ℝ) := by
  fin_cases i <;> fin_cases k <;> simp [fccS, i110]
theorem bccBaseM_int (i : Fin 12) (k : Fin 3) : bccBaseM i k = sqr2i * (i110 i k : ℝ) := by
  fin_cases i <;> fin_cases k <;> simp [bccBaseM, i110]
theorem bccBaseS_int (i : Fin 12) (k : Fin 3) : bccBaseS i k = sqr3i * (i111 i k : ℝ) := by
  fin_cases i <;> fin_cases k <;> simp [bccBaseS, i111]
theorem bccPGaM_int (i : Fin 12) (k : Fin 3) : bccPGaM i k = sqr6i * (i112 i k : ℝ) := by
  fin_cases i <;> fin_cases k <;> simp [bccPGaM, i112, twSqr6i, mul_comm]
theorem bccPGaS_int (i : Fin 12) (k : Fin 3) : bccPGaS i k = sqr3i * (i111 i k : ℝ) := by
  fin_cases i <;> fin_cases k <;> simp [bccPGaS, i111]
theorem bccPGbM_int (i : Fin 24) (k : Fin 3) :
    bccPGbM i k = 1 / Real.sqrt 14 * (i123 i k : ℝ) := by
  fin_cases i <;> fin_cases k <;> simp [bccPGbM, i123, mPg2a, mPg2b, mPg2c] <;> ring
theorem bccPGbS_int (i : Fin 24) (k : Fin 3) : bccPGbS i k = sqr3i * (i111b i k : ℝ) := by
  fin_cases i <;> fin_cases k <;> simp [bccPGbS, i111b]

/-- squared length / dot product of integer vectors -/
def dotI (a b : Fin 3 → ℤ) : ℤ := a 0 * b 0 + a 1 * b 1 + a 2 * b 2

theorem dot_int {x y : Vec 3} {a b : Fin 3 → ℤ} {c d : ℝ} (hx : ∀ k, x k = c * (a k : ℝ))
    (hy : ∀ k, y k = d * (b k : ℝ)) : dot x y = c * d * (dotI a b : ℝ) := by
  simp only [dot, Fin.sum_univ_three, hx, hy, dotI]; push_cast; ring

theorem sqr2i_sq : sqr2i * sqr2i = 1 / 2 := by sqr_unfold; sqr_ring
theorem sqr3i_sq : sqr3i * sqr3i = 1 / 3 := by sqr_unfold; sqr_ring
theorem sqr6i_sq : sqr6i * sqr6i = 1 / 6 := by sqr_unfold; sqr_ring
theorem sqr14i_sq : (1 / Real.sqrt 14) * (1 / Real.sqrt 14) = 1 / 14 := by
  rw [div_mul_div_comm, Real.mul_self_sqrt (by norm_num)]; norm_num
theorem sqr2i_pos : 0 < sqr2i := by unfold sqr2i; have := s2_pos; positivity
theorem sqr3i_pos : 0 < sqr3i := by unfold sqr3i; have := s3_pos; positivity
theorem sqr6i_pos : 0 < sqr6i := by unfold sqr6i; positivity
theorem sqr14i_pos : 0 < 1 / Real.sqrt 14 := by positivity

/-- orthonormality of a table from its integer form -/
theorem slip_of_int {n : ℕ} {m s : Fin n → Vec 3} {a b : Fin n → Fin 3 → ℤ} {c d : ℝ} {p q : ℤ}
    (hm : ∀ i k, m i k = c * (a i k : ℝ)) (hs : ∀ i k, s i k = d * (b i k : ℝ))
    (hc : c * c * (p : ℝ) = 1) (hd : d * d * (q : ℝ) = 1)
    (hI : ∀ i, dotI (a i) (a i) = p ∧ dotI (b i) (b i) = q ∧ dotI (a i) (b i) = 0) :
    ∀ i, IsSlipSystem (m i) (s i) := by
  intro i
  obtain ⟨h1, h2, h3⟩ := hI i
  refine ⟨?_, ?_, ?_⟩
  · rw [dot_int (hm i) (hm i), h1, hc]
  · rw [dot_int (hs i) (hs i), h2, hd]
  · rw [dot_int (hm i) (hs i), h3]; simp

theorem fcc_slip : ∀ i, IsSlipSystem (fccM i) (fccS i) :=
  slip_of_int (p := 3) (q := 2) fccM_int fccS_int (by rw [sqr3i_sq]; norm_num)
    (by rw [sqr2i_sq]; norm_num) (by decide +kernel)
theorem bccBase_slip : ∀ i, IsSlipSystem (bccBaseM i) (bccBaseS i) :=
  slip_of_int (p := 2) (q := 3) bccBaseM_int bccBaseS_int (by rw [sqr2i_sq]; norm_num)
    (by rw [sqr3i_sq]; norm_num) (by decide +kernel)
theorem bccPGa_slip : ∀ i, IsSlipSystem (bccPGaM i) (bccPGaS i) :=
  slip_of_int (p := 6) (q := 3) bccPGaM_int bccPGaS_int (by rw [sqr6i_sq]; norm_num)
    (by rw [sqr3i_sq]; norm_num) (by decide +kernel)
theorem bccPGb_slip : ∀ i, IsSlipSystem (bccPGbM i) (bccPGbS i) :=
  slip_of_int (p := 14) (q := 3) bccPGbM_int bccPGbS_int (by rw [sqr14i_sq]; norm_num)
    (by rw [sqr3i_sq]; norm_num) (by decide +kernel)

/-! ### Cubic symmetry -/

/-- integer signed permutation -/
def permI (a b c : Fin 3) (e f g : Bool) : Fin 3 → Fin 3 → ℤ := fun p l =>
  (![if l = a then (if e then 1 else -1) else 0, if l = b then (if f then 1 else -1) else 0,
     if l = c then (if g then 1 else -1) else 0] : Fin 3 → ℤ) p

/-- integer-level closure of a table under every signed permutation -/
def CubicClosedI {n : ℕ} (mI sI : Fin n → Fin 3 → ℤ) : Prop :=
  ∀ a b c : Fin 3, a ≠ b → a ≠ c → b ≠ c → ∀ e f g : Bool, ∀ i, ∃ j,
    ((∀ p, actI (permI a b c e f g) (mI i) p = mI j p) ∨
      (∀ p, actI (permI a b c e f g) (mI i) p = -mI j p)) ∧
    ((∀ p, actI (permI a b c e f g) (sI i) p = sI j p) ∨
      (∀ p, actI (permI a b c e f g) (sI i) p = -sI j p))

theorem fcc_closedI : CubicClosedI i111 i110 := by unfold CubicClosedI; decide +kernel
theorem bccBase_closedI : CubicClosedI i110 i111 := by unfold CubicClosedI; decide +kernel
theorem bccPGa_closedI : CubicClosedI i112 i111 := by unfold CubicClosedI; decide +kernel
theorem bccPGb_closedI : CubicClosedI i123 i111b := by unfold CubicClosedI; decide +kernel

theorem cubicOp_actsAs (σ : Equiv.Perm (Fin 3)) (ε : Fin 3 → ℤˣ) :
    ActsAs (cubicOp σ ε) (fun _ => 1) (permI (σ 0) (σ 1) (σ 2) (decide (ε 0 = 1))
      (decide (ε 1 = 1)) (decide (ε 2 = 1))) 1 := by
  have hε : ∀ i, ((ε i : ℤ) : ℝ) = ((if decide (ε i = 1) then 1 else -1 : ℤ) : ℝ) := by
    intro i
    rcases Int.units_eq_one_or (ε i) with h | h <;> simp [h]
  intro p l
  fin_cases p <;> simp [cubicOp, permI, hε]

theorem cubic_closed {n : ℕ} {m s : Fin n → Vec 3} {mI sI : Fin n → Fin 3 → ℤ} {c d : ℝ}
    (hm : ∀ i k, m i k = c * (mI i k : ℝ)) (hs : ∀ i k, s i k = d * (sI i k : ℝ))
    (hI : CubicClosedI mI sI) (σ : Equiv.Perm (Fin 3)) (ε : Fin 3 → ℤˣ) :
    ClosedUnder (cubicOp σ ε) m s := by
  have h01 : σ 0 ≠ σ 1 := fun h => by simpa using σ.injective h
  have h02 : σ 0 ≠ σ 2 := fun h => by simpa using σ.injective h
  have h12 : σ 1 ≠ σ 2 := fun h => by simpa using σ.injective h
  have hI' := hI (σ 0) (σ 1) (σ 2) h01 h02 h12 (decide (ε 0 = 1)) (decide (ε 1 = 1))
    (decide (ε 2 = 1))
  have := closed_of_int (fam := fun _ => (0 : Fin 1)) (cm := fun _ => c) (cs := fun _ => d)
    (Dm := fun _ => 1) (Ds := fun _ => 1) (m := m) (s := s) (mI := mI) (sI := sI)
    (fun i k => by rw [hm, one_mul]) (fun i k => by rw [hs, one_mul]) one_ne_zero
    (cubicOp_actsAs σ ε) (cubicOp_actsAs σ ε) (fun i => by
      obtain ⟨j, h1, h2⟩ := hI' i
      exact ⟨j, rfl, by simpa using h1, by simpa using h2⟩)
  intro i
  obtain ⟨j, _, h⟩ := this i
  exact ⟨j, h⟩

theorem closedUnder_append {a b : ℕ} {R : T3} {m s : Fin a → Vec 3} {m' s' : Fin b → Vec 3}
    (h1 : ClosedUnder R m s) (h2 : ClosedUnder R m' s') :
    ClosedUnder R (Fin.append m m') (Fin.append s s') := by
  intro i
  refine Fin.addCases (fun i => ?_) (fun i => ?_) i
  · obtain ⟨j, h⟩ := h1 i
    exact ⟨Fin.castAdd b j, by simpa using h⟩
  · obtain ⟨j, h⟩ := h2 i
    exact ⟨Fin.natAdd a j, by simpa using h⟩

theorem slip_append {a b : ℕ} {m s : Fin a → Vec 3} {m' s' : Fin b → Vec 3}
    (h1 : ∀ i, IsSlipSystem (m i) (s i)) (h2 : ∀ i, IsSlipSystem (m' i) (s' i)) :
    ∀ i, IsSlipSystem (Fin.append m m' i) (Fin.append s s' i) := by
  intro i
  refine Fin.addCases (fun i => ?_) (fun i => ?_) i
  · simpa using h1 i
  · simpa using h2 i

theorem fillFromMS_ok {n : ℕ} {m s : Fin n → Vec 3} (h : ∀ i, IsSlipSystem (m i) (s i)) :
    fillFromMS m s = .ok (slipPQ m s) := by
  unfold fillFromMS
  rw [if_neg]
  rintro ⟨i, hi⟩
  have : vecsyadotb (m i) (s i) = 0 := (h i).2.2
  rw [this, abs_zero] at hi
  have : (0:ℝ) < idpEpsSqrt := by unfold idpEpsSqrt; positivity
  linarith

end Ecm
