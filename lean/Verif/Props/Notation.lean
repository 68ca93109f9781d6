/- Property theorems C01, C02, C14, C46, C56: tensor notations, tangent conversion,
   numeric literals and small matrix helpers (src/ecmech/ECMech_util.h, ECMech_const.h). -/
import Verif.Lemmas.Notation

namespace Ecm.Props
open Ecm Spec Matrix

/-- C01, tensor to internal to documented notations and back. -/
theorem C01_tensor_round_trip (A : T3) (hA : A.IsSymm) :
    vecdsToSvecP (symmToVecds A) = svecP A ∧
    svecpToSvec (vecdsToSvecP (symmToVecds A)) = voigt A ∧
    ofVoigt (svecpToSvec (vecdsToSvecP (symmToVecds A))) = A ∧
    svecToVecd (svecP A) = symmToVecd A := by
  have h01 : A 1 0 = A 0 1 := hA.apply 0 1
  have h02 : A 2 0 = A 0 2 := hA.apply 0 2
  have h12 : A 2 1 = A 1 2 := hA.apply 1 2
  have e1 : vecdsToSvecP (symmToVecds A) = svecP A := by
    ext i
    fin_cases i <;>
      simp [vecdsToSvecP, symmToVecds, symmToVecd, traceToVecdsS, trace3, svecP, dev,
        Matrix.trace_fin_three, h01, h02, h12] <;> sqr_ring
  have e2 : svecpToSvec (svecP A) = voigt A := by
    ext i
    fin_cases i <;>
      simp [svecpToSvec, svecP, voigt, dev, Matrix.trace_fin_three]
  refine ⟨e1, by rw [e1, e2], ?_, ?_⟩
  · rw [e1, e2]
    ext i j
    fin_cases i <;> fin_cases j <;> simp [ofVoigt, voigt, h01, h02, h12]
  · ext i
    fin_cases i <;>
      simp [svecToVecd, symmToVecd, svecP, dev, Matrix.trace_fin_three, h01, h02, h12]
    sqr_ring

/-- C01, internal to documented notation and back: the deviatoric diagonal sums to zero, the
    last entry is minus the mean of the tensor represented, and nothing is lost. -/
theorem C01_internal_round_trip (v : Vec 6) :
    vecdsToSvecP v 0 + vecdsToSvecP v 1 + vecdsToSvecP v 2 = 0 ∧
    vecdsToSvecP v 6 = -((ofSvecP (vecdsToSvecP v)).trace / 3) ∧
    symmToVecds (ofSvecP (vecdsToSvecP v)) = v ∧
    svecP (ofSvecP (vecdsToSvecP v)) = vecdsToSvecP v ∧
    (∀ i : Fin 5, svecToVecd (vecdsToSvecP v) i = v i.castSucc) ∧
    ofVoigt (svecpToSvec (vecdsToSvecP v)) = ofSvecP (vecdsToSvecP v) := by
  refine ⟨?_, ?_, ?_, ?_, ?_, ?_⟩
  · simp [vecdsToSvecP]; sqr_ring
  · simp [vecdsToSvecP, ofSvecP, Matrix.trace_fin_three]; sqr_ring
  · ext i
    fin_cases i <;>
      simp [vecdsToSvecP, symmToVecds, symmToVecd, traceToVecdsS, trace3, ofSvecP] <;> sqr_ring
  · ext i
    fin_cases i <;>
      simp [vecdsToSvecP, svecP, dev, Matrix.trace_fin_three, ofSvecP] <;> sqr_ring
  · intro i
    fin_cases i <;> simp [vecdsToSvecP, svecToVecd] <;> sqr_ring
  · ext i j
    fin_cases i <;> fin_cases j <;> simp [vecdsToSvecP, svecpToSvec, ofVoigt, ofSvecP]

example : (!![1, 2, 3; 2, 5, 6; 3, 6, 9] : T3).IsSymm := by
  ext i j; fin_cases i <;> fin_cases j <;> rfl

/-- C02, both notations compute the double contraction. -/
theorem C02_inner_products (A B : T3) (hA : IsDev A) (hB : IsDev B) :
    dot (symmToVecd A) (symmToVecd B) = ddot A B ∧
    vecsyadotb (symmToVecd A) (symmToVecd B) = ddot A B ∧
    vecsInnerSvecDev (svecP A) (svecP B) = ddot A B := by
  obtain ⟨a1, a2, a3, a4⟩ := (isDev_iff A).1 hA
  obtain ⟨b1, b2, b3, b4⟩ := (isDev_iff B).1 hB
  have h : dot (symmToVecd A) (symmToVecd B) = ddot A B := by
    simp [dot, ddot, symmToVecd, Fin.sum_univ_succ, a1, a2, a3, a4, b1, b2, b3, b4]
    sqr_ring
  refine ⟨h, h, ?_⟩
  simp [vecsInnerSvecDev, svecP, dev, ddot, Fin.sum_univ_succ, Matrix.trace_fin_three,
    a1, a2, a3, a4, b1, b2, b3, b4]
  ring

/-- C02, the effective rate is sqrt(2/3) times the tensor norm. -/
theorem C02_effective_rate (A : T3) (hA : IsDev A) :
    vecdDeff (symmToVecd A) = Real.sqrt (2 / 3 * ddot A A) := by
  have h := (C02_inner_products A A hA hA).1
  unfold vecdDeff vecNorm sqr2b3
  rw [Real.sqrt_mul (by norm_num), ← h]; rfl

example : IsDev (!![1, 2, 3; 2, 5, 6; 3, 6, -6] : T3) := by
  rw [isDev_iff]; simp; norm_num

/-- C14 The tangent converted to Voigt notation acts on Voigt strains (tensor components
    `voigt E`, or engineering shears when `gamma`) exactly as the internal tangent acts on the
    internal notation: if `σ = M ε` internally then the converted matrix maps the strain to the
    Voigt stress. -/
theorem C14_tangent_conversion (M : Mat 6 6) (E S : T3) (hE : E.IsSymm) (hS : S.IsSymm)
    (hM : M.mulVec (symmToVecds E) = symmToVecds S) :
    (mtanConvSdSvec false M).mulVec (voigt E) = voigt S ∧
    (mtanConvSdSvec true M).mulVec
      (![E 0 0, E 1 1, E 2 2, 2 * E 1 2, 2 * E 0 2, 2 * E 0 1]) = voigt S := by
  have h01 : E 1 0 = E 0 1 := hE.apply 0 1
  have h02 : E 2 0 = E 0 2 := hE.apply 0 2
  have h12 : E 2 1 = E 1 2 := hE.apply 1 2
  have hS' := (C01_tensor_round_trip S hS).2.1
  rw [← hS', ← hM]
  constructor <;> ext i <;> fin_cases i <;>
    simp [mtanConvSdSvec, mtanConvC, Matrix.mulVec, dotProduct, Fin.sum_univ_succ, voigt,
      symmToVecds, symmToVecd, traceToVecdsS, trace3, svecpToSvec, vecdsToSvecP, h01, h02, h12] <;>
    sqr_ring

example : ∃ (M : Mat 6 6) (E S : T3), E.IsSymm ∧ S.IsSymm ∧
    M.mulVec (symmToVecds E) = symmToVecds S ∧ E ≠ 0 ∧ S ≠ 0 := by
  refine ⟨1, !![1, 2, 3; 2, 5, 6; 3, 6, 9], !![1, 2, 3; 2, 5, 6; 3, 6, 9], ?_, ?_, ?_, ?_, ?_⟩
  · ext i j; fin_cases i <;> fin_cases j <;> rfl
  · ext i j; fin_cases i <;> fin_cases j <;> rfl
  · simp
  · intro h; have := congrFun (congrFun h 0) 0; simp at this
  · intro h; have := congrFun (congrFun h 0) 0; simp at this

/-- a decimal literal d > 0 is within 1e-28 of √x when its square brackets x -/
theorem abs_sqrt_sub_le {x d e : ℝ} (h1 : (d - e) ^ 2 ≤ x)
    (he : 0 ≤ d + e) (h2 : x ≤ (d + e) ^ 2) : |d - Real.sqrt x| ≤ e := by
  have a : d - e ≤ Real.sqrt x := Real.le_sqrt_of_sq_le h1
  have b : Real.sqrt x ≤ d + e := Real.sqrt_le_iff.2 ⟨he, h2⟩
  rw [abs_le]; constructor <;> linarith

/-- C46 Every decimal literal is within 1e-28 of the exact constant used in the model. -/
theorem C46_literals :
    |litSqr2 - sqr2| ≤ 1 / 10 ^ 28 ∧ |litSqr3 - sqr3| ≤ 1 / 10 ^ 28 ∧
    |litSqr3b2 - sqr3b2| ≤ 1 / 10 ^ 28 ∧ |litSqr2i - sqr2i| ≤ 1 / 10 ^ 28 ∧
    |litSqr3i - sqr3i| ≤ 1 / 10 ^ 28 ∧ |litSqr6 - sqr6| ≤ 1 / 10 ^ 28 ∧
    |litSqr6i - sqr6i| ≤ 1 / 10 ^ 28 ∧ |litSqr2b3 - sqr2b3| ≤ 1 / 10 ^ 28 ∧
    |litHalfsqr3 - halfsqr3| ≤ 1 / 10 ^ 28 ∧ |litTwosqr3 - twosqr3| ≤ 1 / 10 ^ 28 := by
  have e2i : sqr2i = Real.sqrt (1 / 2) := by
    unfold sqr2i; rw [Real.sqrt_div (by norm_num)]; simp
  have e3i : sqr3i = Real.sqrt (1 / 3) := by
    unfold sqr3i; rw [Real.sqrt_div (by norm_num)]; simp
  have e6i : sqr6i = Real.sqrt (1 / 6) := by
    unfold sqr6i; rw [Real.sqrt_div (by norm_num)]; simp
  have eh3 : halfsqr3 = Real.sqrt (3 / 4) := by
    unfold halfsqr3; rw [Real.sqrt_div (by norm_num)]
    rw [show (4 : ℝ) = 2 ^ 2 by norm_num, Real.sqrt_sq (by norm_num)]
  have et3 : twosqr3 = Real.sqrt 12 := by
    unfold twosqr3; rw [show (12 : ℝ) = 2 ^ 2 * 3 by norm_num, Real.sqrt_mul (by norm_num),
      Real.sqrt_sq (by norm_num)]
  rw [e2i, e3i, e6i, eh3, et3]
  refine ⟨?_, ?_, ?_, ?_, ?_, ?_, ?_, ?_, ?_, ?_⟩ <;>
    refine abs_sqrt_sub_le ?_ ?_ ?_ <;>
    norm_num [litSqr2, litSqr3, litSqr3b2, litSqr2i, litSqr3i, litSqr6, litSqr6i, litSqr2b3,
      litHalfsqr3, litTwosqr3]

/-- C56 Each helper is the matrix expression it is named after, for every size. -/
theorem C56_matrix_helpers {n m q : ℕ} (a b : Vec n) (c : Vec q) (x : ℝ) (M : Mat n n)
    (A : Mat n q) (B : Mat m q) (D : Mat q m) :
    vecsVapb a b = a + b ∧
    vecsVAdiagB a b = (Matrix.diagonal a).mulVec b ∧
    vecsyadotb a b = a ⬝ᵥ b ∧
    vecsVxa x a = x • a ∧
    vecsVsa a x = x • a ∧
    vecsVMTa M a = M.transpose.mulVec a ∧
    vecsVaTM a A = Matrix.vecMul a A ∧
    vecsVMa A c = A.mulVec c ∧
    vecsMABT A B = A * B.transpose ∧
    vecsMAB A D = A * D ∧
    vecsMaTb a b = Matrix.vecMulVec a b ∧
    vecsMsymm M = (1 / 2 : ℝ) • (M + M.transpose) ∧
    vecsMskew M = (1 / 2 : ℝ) • (M - M.transpose) ∧
    vecNorm a = len a ∧
    (a ≠ 0 → len (vecsVNormalize a) = 1 ∧ ∃ k : ℝ, 0 < k ∧ vecsVNormalize a = k • a) := by
  refine ⟨rfl, ?_, rfl, rfl, ?_, rfl, rfl, rfl, rfl, rfl, rfl, ?_, ?_, rfl, ?_⟩
  · ext i; simp [vecsVAdiagB, Matrix.mulVec_diagonal]
  · ext i; simp [vecsVsa, mul_comm]
  · ext i j; simp [vecsMsymm]; norm_num
  · ext i j; simp [vecsMskew]; norm_num
  · intro ha
    have hpos : 0 < ∑ i, a i * a i := by
      obtain ⟨i, hi⟩ : ∃ i, a i ≠ 0 := by
        by_contra h; push Not at h; exact ha (funext h)
      exact Finset.sum_pos' (fun j _ => mul_self_nonneg _)
        ⟨i, Finset.mem_univ _, mul_self_pos.2 hi⟩
    have hn : 0 < vecNorm a := Real.sqrt_pos.2 hpos
    refine ⟨?_, 1 / vecNorm a, by positivity, ?_⟩
    · have : dot (vecsVNormalize a) (vecsVNormalize a) = 1 := by
        have hs : vecNorm a ^ 2 = ∑ i, a i * a i := Real.sq_sqrt hpos.le
        unfold dot vecsVNormalize vecsVsa
        calc ∑ i, a i * (1 / vecNorm a) * (a i * (1 / vecNorm a))
            = (∑ i, a i * a i) * (1 / vecNorm a) ^ 2 := by
              rw [Finset.sum_mul]; exact Finset.sum_congr rfl fun i _ => by ring
          _ = 1 := by rw [← hs]; field_simp
      unfold len; rw [this, Real.sqrt_one]
    · ext i; simp [vecsVNormalize, vecsVsa, mul_comm]

example : (![3, 4] : Vec 2) ≠ 0 := by
  intro h; have := congrFun h 0; simp at this

end Ecm.Props
