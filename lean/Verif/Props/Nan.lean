/- Property theorems C117: a NaN passes every check of the code (src/ecmech/ECMech_evptn.h:191-208, 377-394,
   src/ecmech/ECMech_matModelBase.h:210-215, src/ecmech/ECMech_slipgeom.h:20-26, src/ecmech/ECMech_util.h:1236-1244, 1318-1322). -/
import Verif.Model.Nan
import Verif.Props.SlipGeom

namespace Ecm.Props
open Ecm Spec

/-- a vector of numbers -/
def numV (v : Vec 3) : VecF := fun i => .num (v i)
/-- a result that may be a NaN, from one that is a number -/
def liftOut {α β : Type} (f : α → β) : Out α → Out β
  | .ok a => .ok (f a)
  | .fail m => .fail m
  | .undef w => .undef w

section
variable (a b : ℝ) (x : Fl)
@[simp] theorem fl_add : Fl.num a + .num b = .num (a + b) := rfl
@[simp] theorem fl_sub : Fl.num a - .num b = .num (a - b) := rfl
@[simp] theorem fl_mul : Fl.num a * .num b = .num (a * b) := rfl
@[simp] theorem fl_neg : -Fl.num a = .num (-a) := rfl
@[simp] theorem fl_abs : (Fl.num a).abs = .num |a| := rfl
@[simp] theorem fl_sqrt : (Fl.num a).sqrt = .num (Real.sqrt a) := rfl
@[simp] theorem fl_inv : (Fl.num a).inv = .num (1 / a) := rfl
@[simp] theorem fl_lt : (Fl.num a).lt (.num b) ↔ a < b := Iff.rfl
@[simp] theorem fl_le : (Fl.num a).le (.num b) ↔ a ≤ b := Iff.rfl
@[simp] theorem nan_add : Fl.nan + x = .nan := by cases x <;> rfl
@[simp] theorem add_nan : x + Fl.nan = .nan := by cases x <;> rfl
@[simp] theorem nan_sub : Fl.nan - x = .nan := by cases x <;> rfl
@[simp] theorem sub_nan : x - Fl.nan = .nan := by cases x <;> rfl
@[simp] theorem nan_mul : Fl.nan * x = .nan := by cases x <;> rfl
@[simp] theorem mul_nan : x * Fl.nan = .nan := by cases x <;> rfl
@[simp] theorem nan_neg : -Fl.nan = .nan := rfl
@[simp] theorem nan_abs : Fl.nan.abs = .nan := rfl
@[simp] theorem nan_sqrt : Fl.nan.sqrt = .nan := rfl
@[simp] theorem nan_inv : Fl.nan.inv = .nan := rfl
@[simp] theorem nan_lt : Fl.nan.lt x ↔ False := by cases x <;> exact Iff.rfl
@[simp] theorem lt_nan : x.lt Fl.nan ↔ False := by cases x <;> exact Iff.rfl
@[simp] theorem nan_le : Fl.nan.le x ↔ False := by cases x <;> exact Iff.rfl
end

/-! ### numbers -/

theorem bulkF_num (e : Elast) : getBulkModF (.num e.kBulkMod) = liftOut .num e.getBulkMod := by
  unfold getBulkModF Elast.getBulkMod
  by_cases h : e.kBulkMod ≤ 0
  · rw [if_pos (by exact h), if_pos h]; rfl
  · rw [if_neg (by exact h), if_neg h]; rfl

theorem gmodF_num (e : Elast) : getGmodF (.num e.kGmod) = liftOut .num e.getGmod := by
  unfold getGmodF Elast.getGmod
  by_cases h : e.kGmod ≤ 0
  · rw [if_pos (by exact h), if_pos h]; rfl
  · rw [if_neg (by exact h), if_neg h]; rfl

/-- C117 with numbers the checks of the moduli are those of the model without NaN. -/
theorem C117_numbers (c11 c12 c13 c33 c44 g : ℝ) :
    getBulkModF (cubicBulkF (.num c11) (.num c12)) = liftOut .num (Elast.cubic c11 c12 c44).getBulkMod ∧
    getGmodF (cubicGmodF (.num c11) (.num c12) (.num c44)) = liftOut .num (Elast.cubic c11 c12 c44).getGmod ∧
    getBulkModF (hexagBulkF (.num c11) (.num c12) (.num c13) (.num c33))
      = liftOut .num (Elast.hexag c11 c12 c13 c33 c44 g).getBulkMod ∧
    getGmodF (hexagGmodF (.num c11) (.num c12) (.num c13) (.num c33) (.num c44))
      = liftOut .num (Elast.hexag c11 c12 c13 c33 c44 g).getGmod := by
  refine ⟨?_, ?_, ?_, ?_⟩
  · exact bulkF_num (.cubic c11 c12 c44)
  · have e : cubicGmodF (.num c11) (.num c12) (.num c44) = .num (Elast.cubic c11 c12 c44).kGmod := by
      simp only [cubicGmodF, fl_mul, fl_add, fl_sub, Elast.kGmod]
      norm_num
    rw [e]
    exact gmodF_num _
  · exact bulkF_num (.hexag c11 c12 c13 c33 c44 g)
  · have e : hexagGmodF (.num c11) (.num c12) (.num c13) (.num c33) (.num c44)
        = .num (Elast.hexag c11 c12 c13 c33 c44 g).kGmod := by
      simp only [hexagGmodF, fl_mul, fl_add, fl_sub, Elast.kGmod, vecsssum, Elast.kDiag, Fin.sum_univ_five]
      refine congrArg Fl.num ?_
      simp only [Matrix.cons_val]
      ring
    rw [e]
    exact gmodF_num _

theorem dotF_num (a b : Vec 3) : dotF (numV a) (numV b) = .num (vecsyadotb a b) := by
  simp [dotF, numV, vecsyadotb, Fin.sum_univ_three]

theorem normF_num (a : Vec 3) : normF (numV a) = .num (vecNorm a) := by
  rw [normF, dotF_num]
  rfl

theorem normalizeF_num (a : Vec 3) : normalizeF (numV a) = numV (vecsVNormalize a) := by
  funext i
  simp [normalizeF, normF_num, numV, vecsVNormalize, vecsVsa]

theorem crossF_num (a b : Vec 3) : crossF (numV a) (numV b) = numV (vecCrossProd a b) := by
  funext i
  fin_cases i <;> simp [crossF, numV, vecCrossProd]

theorem mToODirF_num (m : Vec 4) (r : ℝ) : mToODirF m (.num r) = numV (mToODir m r) := by
  funext i
  fin_cases i <;> simp [mToODirF, numV, mToODir]

theorem sub_numV (a b : Vec 3) : (fun i => numV a i - numV b i) = numV (fun i => a i - b i) := rfl

theorem e3_num : (![.num 0, .num 0, .num 1] : VecF) = numV ![0, 0, 1] := by
  funext i
  fin_cases i <;> rfl

theorem alignF_num (a : Vec 4) (m : Vec 3) : alignF a (numV m) = numV (millerAlign a m) := by
  unfold alignF millerAlign
  simp only [numV, fl_mul, fl_lt]
  split_ifs
  · rfl
  · rfl

theorem basalF_num (a : Vec 4) (r : ℝ) : basalF a (.num r) = liftOut (fun p => (numV p.1, numV p.2)) (millerBasal a r) := by
  unfold basalF millerBasal
  simp only [mToODirF_num, sub_numV]
  split_ifs <;> rfl

theorem planeF_num (a : Vec 4) (r : ℝ) : planeF a (.num r) = liftOut numV (millerPlane a r) := by
  unfold planeF millerPlane
  rw [basalF_num]
  split_ifs with h1 h2
  · rw [e3_num]; rfl
  all_goals
    cases millerBasal a r with
    | ok p =>
      simp only [liftOut, Out.bind, mToODirF_num, sub_numV, crossF_num, e3_num]
    | fail m => rfl
    | undef w => rfl

/-- C117 with numbers the conversion of four-index vectors is that of the model without NaN. -/
theorem C117_numbers_miller (a b : Vec 4) (r : ℝ) :
    millerF a b (.num r) = liftOut (fun p => (numV p.1, numV p.2)) (millerToOrthogSngl a b r) := by
  unfold millerF millerToOrthogSngl
  rw [planeF_num, mToODirF_num, normF_num]
  simp only [Fl.num.injEq]
  split_ifs with h1 h2 h3
  · rfl
  · rfl
  · rfl
  · cases millerPlane a r with
    | ok m =>
      simp only [liftOut, Out.bind, normF_num, normalizeF_num, alignF_num, dotF_num, fl_abs, fl_lt, Fl.num.injEq]
      split_ifs <;> rfl
    | fail m => rfl
    | undef w => rfl

/-- C117 with numbers the check of the tables is that of the model without NaN. -/
theorem C117_numbers_fill {n : ℕ} (m s : Fin n → Vec 3) :
    (∃ p, fillF (fun i => numV (m i)) (fun i => numV (s i)) = .ok p) ↔ fillFromMS m s = .ok (slipPQ m s) := by
  unfold fillF fillFromMS
  simp only [dotF_num, fl_abs, fl_lt]
  split_ifs <;> simp

/-- C117 with numbers the normals and directions of the hexagonal crystal are those of the model without NaN. -/
theorem C117_numbers_hcp (r : ℝ) :
    hcpMSF (.num r) = liftOut (fun p => (fun i => numV (p.1 i), fun i => numV (p.2 i))) (hcpMS r) := by
  unfold hcpMSF hcpMS
  rw [C117_numbers_miller, C117_numbers_miller]
  cases millerToOrthogSngl ![1, 0, -1, 1] ![1, -2, 1, 0] r with
  | fail m => rfl
  | undef w => rfl
  | ok ya =>
    cases millerToOrthogSngl ![1, 0, -1, 1] ![-1, -1, 2, 3] r with
    | fail m => rfl
    | undef w => rfl
    | ok y1 =>
      simp only [liftOut, Out.bind]
      congr 2
      · funext i j
        fin_cases i <;> fin_cases j <;> simp [hcpM, numV]
      · funext i j
        fin_cases i <;> fin_cases j <;> simp [hcpS, numV]

/-! ### NaN -/

/-- C117 a NaN among the constants of which a modulus consists passes the check of the modulus, and so does a NaN as density. -/
theorem C117_refuted_moduli (x y z w : Fl) :
    getBulkModF (cubicBulkF .nan x) = .ok .nan ∧ getBulkModF (cubicBulkF x .nan) = .ok .nan ∧
    getGmodF (cubicGmodF .nan x y) = .ok .nan ∧ getGmodF (cubicGmodF x .nan y) = .ok .nan ∧
    getGmodF (cubicGmodF x y .nan) = .ok .nan ∧
    getBulkModF (hexagBulkF .nan x y z) = .ok .nan ∧ getBulkModF (hexagBulkF x .nan y z) = .ok .nan ∧
    getBulkModF (hexagBulkF x y .nan z) = .ok .nan ∧ getBulkModF (hexagBulkF x y z .nan) = .ok .nan ∧
    getGmodF (hexagGmodF .nan x y z w) = .ok .nan ∧ getGmodF (hexagGmodF x .nan y z w) = .ok .nan ∧
    getGmodF (hexagGmodF x y .nan z w) = .ok .nan ∧ getGmodF (hexagGmodF x y z .nan w) = .ok .nan ∧
    getGmodF (hexagGmodF x y z w .nan) = .ok .nan ∧ getRhoRefF .nan = .ok .nan := by
  simp [getBulkModF, getGmodF, getRhoRefF, cubicBulkF, cubicGmodF, hexagBulkF, hexagGmodF]

theorem le_zero_passes (k : Fl) : ¬ k.le (.num 0) ↔ k = .nan ∨ ∃ x, 0 < x ∧ k = .num x := by
  cases k with
  | nan => simp
  | num x =>
    simp only [fl_le, not_le, reduceCtorEq, false_or, Fl.num.injEq]
    exact ⟨fun h => ⟨x, h, rfl⟩, by rintro ⟨y, hy, rfl⟩; exact hy⟩

/-- C117 exactly: what passes the checks of the moduli is a positive number or NaN, and what passes that of the density is a
    number not below zero or NaN. -/
theorem C117_passes (k : Fl) :
    ((∃ y, getBulkModF k = .ok y) ↔ k = .nan ∨ ∃ x, 0 < x ∧ k = .num x) ∧
    ((∃ y, getGmodF k = .ok y) ↔ k = .nan ∨ ∃ x, 0 < x ∧ k = .num x) ∧
    ((∃ y, getRhoRefF k = .ok y) ↔ k = .nan ∨ ∃ x, 0 ≤ x ∧ k = .num x) := by
  refine ⟨?_, ?_, ?_⟩
  · rw [← le_zero_passes]
    unfold getBulkModF
    split_ifs with h <;> simp [h]
  · rw [← le_zero_passes]
    unfold getGmodF
    split_ifs with h <;> simp [h]
  · unfold getRhoRefF
    cases k with
    | nan => simp
    | num x =>
      simp only [fl_lt, reduceCtorEq, false_or, Fl.num.injEq]
      by_cases h : x < 0
      · rw [if_pos h]
        simp only [reduceCtorEq, exists_false, false_iff, not_exists, not_and]
        rintro y hy rfl
        linarith
      · rw [if_neg h]
        exact ⟨fun _ => ⟨x, not_lt.1 h, rfl⟩, fun _ => ⟨_, rfl⟩⟩

/-- C117 exactly: tables pass the check if and only if every product of a normal with its direction is small or NaN. -/
theorem C117_passes_fill {n : ℕ} (m s : Fin n → VecF) :
    (∃ p, fillF m s = .ok p) ↔ ∀ i, dotF (m i) (s i) = .nan ∨ ∃ x, |x| ≤ idpEpsSqrt ∧ dotF (m i) (s i) = .num x := by
  have key : ∀ d : Fl, ¬ (Fl.num idpEpsSqrt).lt d.abs ↔ d = .nan ∨ ∃ x, |x| ≤ idpEpsSqrt ∧ d = .num x := by
    intro d
    cases d with
    | nan => simp
    | num x =>
      simp only [fl_abs, fl_lt, not_lt, reduceCtorEq, false_or, Fl.num.injEq]
      exact ⟨fun h => ⟨x, h, rfl⟩, by rintro ⟨y, hy, rfl⟩; exact hy⟩
  simp only [← key]
  unfold fillF
  split_ifs with h
  · simpa using h
  · simpa using h

theorem mToODirF_nan (m : Vec 4) : mToODirF m .nan 2 = .nan := by simp [mToODirF]

theorem dotF_nan {a b : VecF} {i : Fin 3} (h : a i = .nan) : dotF a b = .nan := by
  fin_cases i <;> simp only [Fin.zero_eta, Fin.mk_one, Fin.reduceFinMk] at h <;> simp [dotF, h]

theorem normalizeF_nan {a : VecF} {i : Fin 3} (h : a i = .nan) : normF a = .nan ∧ normalizeF a = fun _ => .nan := by
  have : normF a = .nan := by rw [normF, dotF_nan h, nan_sqrt]
  exact ⟨this, by funext j; simp [normalizeF, this]⟩

theorem planeF_nan : ∃ v : VecF, planeF ![1, 0, -1, 1] .nan = .ok v ∧ v 0 = .nan := by
  have e : idpEpsSqrt < 1 := eps_lt_one
  have e0 := eps_pos
  unfold planeF basalF
  rw [if_neg (by simp; linarith), if_neg (by simp; linarith), if_pos (by simpa using e0), if_neg (by simp)]
  simp only [Out.bind]
  rw [if_neg (by simp; linarith)]
  refine ⟨_, rfl, ?_⟩
  simp [crossF, mToODirF]

theorem millerF_nan {b : Vec 4} (hb : b 0 + b 1 + b 2 = 0) :
    millerF ![1, 0, -1, 1] b .nan = .ok (fun _ => .nan, fun _ => .nan) := by
  have e0 := eps_pos
  obtain ⟨v, hv, h0⟩ := planeF_nan
  obtain ⟨n1, n2⟩ := normalizeF_nan h0
  obtain ⟨n3, n4⟩ := normalizeF_nan (mToODirF_nan b)
  have ha : alignF ![1, 0, -1, 1] (fun _ => Fl.nan) = fun _ => .nan := by
    unfold alignF
    simp
  unfold millerF
  rw [if_neg (by simp; exact e0.le), if_neg (by rw [hb, abs_zero]; exact not_lt.2 e0.le), n3, if_neg (by simp), hv]
  simp only [Out.bind, n1, n2, n4, ha, dotF, nan_mul, nan_add, nan_abs, lt_nan, reduceCtorEq, if_false]

/-- C117 a hexagonal crystal with a NaN as ratio of the axes is accepted; all normals of its pyramidal systems contain a NaN. -/
theorem C117_refuted_ratio : ∃ m s, slipGeomHCPF .nan = .ok (m, s) ∧ (∀ i : Fin 24, 6 ≤ i.val → m i 2 = .nan) ∧
    ∀ i : Fin 24, i.val < 6 → ∃ v : Vec 3, m i = numV v := by
  have h1 := millerF_nan (b := ![1, -2, 1, 0]) (by simp; norm_num)
  have h2 := millerF_nan (b := ![-1, -1, 2, 3]) (by simp; norm_num)
  unfold slipGeomHCPF hcpMSF
  rw [h1, h2]
  simp only [Out.bind]
  unfold fillF
  rw [if_neg]
  · refine ⟨_, _, rfl, ?_, ?_⟩
    · intro i hi
      fin_cases i <;> simp at hi ⊢
    · intro i hi
      have e : ∀ a b c : ℝ, (![.num a, .num b, .num c] : VecF) = numV ![a, b, c] := by
        intro a b c
        funext i
        fin_cases i <;> rfl
      fin_cases i <;> simp at hi ⊢ <;> exact ⟨_, e _ _ _⟩
  · rintro ⟨i, hi⟩
    have e0 := eps_pos
    have e1 : -(halfsqr3 * 2⁻¹) + 2⁻¹ * halfsqr3 = 0 := by ring
    fin_cases i <;> simp [dotF, e1] at hi <;> linarith

/-- the hypotheses can be met: the ratio of magnesium gives numbers -/
example : ∃ p, millerF ![1, 0, -1, 1] ![1, -2, 1, 0] (.num 1.624) = .ok p := by
  rw [C117_numbers_miller, miller_ya]
  exact ⟨_, rfl⟩

end Ecm.Props
