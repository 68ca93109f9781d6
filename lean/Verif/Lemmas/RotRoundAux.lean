/- Tensors in the documented notation under rotations, used for the rounding errors of rotations. -/
import Verif.Lemmas.RotRound
import Verif.Lemmas.RotLip
import Verif.Props.Rounding

namespace Ecm.Props
open Ecm Spec

/-- a vector divided by its length -/
theorem qn_unit {q : Vec 4} (h : 0 < len q) : qn (fun i => q i / len q) = 1 := by
  have e := Flt.unit_vec q h
  rw [vecNorm_qn] at e
  have : (fun i => q i / len q) = fun i => q i * (1 / vecNorm q) := by
    funext i; rw [show len q = vecNorm q from rfl]; ring
  rw [this]
  have h0 : 0 ≤ qn (fun i => q i * (1 / vecNorm q)) := by unfold qn; positivity
  have := Real.sq_sqrt h0
  rw [e] at this; linarith

theorem symm_split (T : T3) (hT : T.IsSymm) : IsDev (dev T) ∧ T = dev T + (T.trace / 3) • (1 : T3) := by
  refine ⟨⟨?_, ?_⟩, by unfold dev; abel⟩
  · unfold Matrix.IsSymm dev
    rw [Matrix.transpose_sub, hT.eq, Matrix.transpose_smul, Matrix.transpose_one]
  · unfold dev
    rw [Matrix.trace_sub, Matrix.trace_smul, Matrix.trace_one]; simp

theorem symmToVecds_rot {R T : T3} (h1 : R * R.transpose = 1) (h2 : R.transpose * R = 1) (hT : T.IsSymm) :
    (getRotMatVecd R).mulVec (symmToVecd T) = symmToVecd (R * T * R.transpose) ∧
    symmToVecds (R * T * R.transpose) 5 = symmToVecds T 5 := by
  obtain ⟨hd, e⟩ := symm_split T hT
  set m := T.trace / 3
  have hs : ∀ (A : T3) (m : ℝ), symmToVecd (A + m • (1 : T3)) = symmToVecd A := by
    intro A m
    funext i
    fin_cases i <;> simp [symmToVecd]
    left; ring
  have e2 : R * T * R.transpose = R * dev T * R.transpose + m • (1 : T3) := by
    conv_lhs => rw [e]
    rw [Matrix.mul_add, Matrix.add_mul, Matrix.mul_smul, Matrix.mul_one, Matrix.smul_mul, h1]
  constructor
  · rw [e2, hs, ← getRotMatVecd_mulVec h1 h2 hd]
    conv_lhs => rw [e, hs]
  · have ht := trace_conj (A := T) h2
    rw [Matrix.trace_fin_three, Matrix.trace_fin_three] at ht
    show traceToVecdsS (trace3 _) = traceToVecdsS (trace3 _)
    unfold trace3
    rw [ht]

theorem len_symmToVecds {T : T3} (hT : T.IsSymm) : vecNorm (symmToVecds T) = frob T := by
  unfold frob vecNorm
  congr 1
  have a1 := hT.apply 0 1; have a2 := hT.apply 0 2; have a3 := hT.apply 1 2
  simp [symmToVecds, symmToVecd, traceToVecdsS, trace3, ddot, Fin.sum_univ_succ, a1, a2, a3]
  sqr_ring

/-- every documented component is at most the magnitude of the tensor -/
theorem svecP_le (A : T3) (i : Fin 7) : |svecP A i| ≤ frob A := by
  have h0 : ddot A A = ddot (dev A) (dev A) + A.trace ^ 2 / 3 := by
    simp [ddot, dev, Matrix.trace_fin_three, Fin.sum_univ_three]
    ring
  have hp : ∀ j k, (dev A j k) ^ 2 ≤ ddot (dev A) (dev A) := fun j k => by
    unfold ddot
    refine le_trans ?_ (Finset.single_le_sum (f := fun j => ∑ k, dev A j k * dev A j k)
      (fun j _ => Finset.sum_nonneg fun k _ => mul_self_nonneg _) (Finset.mem_univ j))
    refine le_trans (le_of_eq (pow_two _)) (Finset.single_le_sum (f := fun k => dev A j k * dev A j k)
      (fun k _ => mul_self_nonneg _) (Finset.mem_univ k))
  have hj : ∀ j k, |dev A j k| ≤ frob A := fun j k =>
    Real.abs_le_sqrt (by have := hp j k; nlinarith [sq_nonneg A.trace])
  have ht : |-(A.trace / 3)| ≤ frob A :=
    Real.abs_le_sqrt (by have := (sq_nonneg _).trans (hp 0 0); nlinarith [sq_nonneg A.trace])
  fin_cases i
  · exact hj 0 0
  · exact hj 1 1
  · exact hj 2 2
  · exact hj 1 2
  · exact hj 0 2
  · exact hj 0 1
  · exact ht

theorem svecP_sub (A B : T3) (i : Fin 7) : svecP A i - svecP B i = svecP (A - B) i := by
  fin_cases i <;> simp [svecP, dev, Matrix.trace_fin_three] <;> ring

theorem frob_conj_sub {R S T : T3} (hR : IsRot R) (hS : IsRot S) :
    frob (R * T * R.transpose - S * T * S.transpose) ≤ 2 * frob (R - S) * frob T := by
  have e : R * T * R.transpose - S * T * S.transpose
      = (R - S) * T * R.transpose + ((R - S) * (S * T).transpose).transpose := by
    rw [Matrix.transpose_mul, Matrix.transpose_transpose, Matrix.transpose_sub, Matrix.mul_sub, Matrix.sub_mul,
      Matrix.sub_mul]
    abel
  have t1 : ∀ {Q : T3}, IsRot Q → Q.transpose * Q.transpose.transpose = 1 := fun {Q} h => by
    rw [Matrix.transpose_transpose]; exact h.2.1
  rw [e]
  refine (frob_add_le _ _).trans ?_
  rw [frob_transpose, frob_mul_rot (t1 hR), Matrix.transpose_mul, ← Matrix.mul_assoc, frob_mul_rot (t1 hS)]
  have h1 := frob_mul_le (R - S) T
  have h2 := frob_mul_le (R - S) T.transpose
  rw [frob_transpose] at h2
  linarith

theorem ex_len : len (![0.6, 0.8, 0, 0] : Vec 4) = 1 := by
  have : dot (![0.6, 0.8, 0, 0] : Vec 4) ![0.6, 0.8, 0, 0] = 1 := by
    simp [dot, Fin.sum_univ_four]; norm_num
  unfold len; rw [this, Real.sqrt_one]

end Ecm.Props
